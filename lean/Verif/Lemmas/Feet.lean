import Verif.Lemmas.Loop
import Verif.Spec.Feet

/-! # The trajectory of a foot over a timetable -/

set_option autoImplicit false
set_option linter.unusedSectionVars false

namespace Uni
open Spec Gen

variable {K : Type} [Field K] [LinearOrder K] [Trig K]

/-- A whole trajectory of a foot: contacts on the current step, swings to the next one. -/
inductive FootRun (swing : Step K → Step K → Nat → Out (List (FootSample K))) :
    List (Step K) → List Phase → List (FootSample K) → Prop
  | nil (s : Step K) (rest : List (Step K)) : FootRun swing (s :: rest) [] []
  | contact (s : Step K) (rest : List (Step K)) (p : Phase) (ph : List Phase) (out : List (FootSample K)) :
      p ≠ .swing → FootRun swing (s :: rest) ph out → FootRun swing (s :: rest) (p :: ph) (restAt s :: out)
  | swing (s s' : Step K) (rest : List (Step K)) (n : Nat) (l : List (FootSample K)) (ph : List Phase)
      (out : List (FootSample K)) :
      0 < n → swing s s' n = .ok l → l.length = n → ph[0]? ≠ some .swing → FootRun swing (s' :: rest) ph out →
      FootRun swing (s :: s' :: rest) (List.replicate n .swing ++ ph) (l ++ out)

theorem FootRun.contacts {swing : Step K → Step K → Nat → Out (List (FootSample K))} {s : Step K} {rest : List (Step K)}
    {p : Phase} (hp : p ≠ .swing) (n : Nat) {ph : List Phase} {out : List (FootSample K)}
    (h : FootRun swing (s :: rest) ph out) :
    FootRun swing (s :: rest) (List.replicate n p ++ ph) (List.replicate n (restAt s) ++ out) := by
  induction n with
  | zero => simpa using h
  | succ n ih => rw [List.replicate_succ, List.replicate_succ]; exact .contact s rest p _ _ hp ih

/-- The loop over the slots of a timetable. -/
theorem footBody_slots {swing : Step K → Step K → Nat → Out (List (FootSample K))}
    (hsw : ∀ s s' n, 0 < n → ∃ l, swing s s' n = .ok l ∧ l.length = n) (f : Bool) (slots : List Slot) (last : Seg)
    (hlast : last.1 ≠ .swing) (hlp : 0 < last.2)
    (hpos : ∀ s ∈ slots, 0 < s.ds ∧ 0 < s.ss) (s : Step K) (rest : List (Step K))
    (hlen : slots.countP (fun x => x.left == f) ≤ rest.length) (phase start : Nat) :
    ∃ st out, runSegs (footBody swing) (slotSegs f slots ++ [last]) phase start (s :: rest) = .ok (st, out) ∧
      FootRun swing (s :: rest) (expand (slotSegs f slots ++ [last])) out ∧
      (expand (slotSegs f slots ++ [last]))[0]? ≠ some .swing := by
  induction slots generalizing s rest phase start with
  | nil =>
    refine ⟨s :: rest, List.replicate last.2 (restAt s), ?_, ?_, ?_⟩
    · simp [slotSegs, runSegs, footBody, hlast]
    · have := FootRun.contacts (swing := swing) hlast last.2 (FootRun.nil s rest)
      simpa [slotSegs] using this
    · obtain ⟨k, hk⟩ := Nat.exists_eq_succ_of_ne_zero hlp.ne'
      simp [slotSegs, hk, List.replicate_succ, hlast]
  | cons x slots ih =>
    obtain ⟨hd, hs⟩ := hpos x (by simp)
    have hpos' : ∀ s ∈ slots, 0 < s.ds ∧ 0 < s.ss := fun s hs => hpos s (by simp [hs])
    have e : slotSegs f (x :: slots) ++ [last] = Slot.segs f x ++ (slotSegs f slots ++ [last]) := by simp [slotSegs]
    obtain ⟨kd, hkd⟩ := Nat.exists_eq_succ_of_ne_zero hd.ne'
    rw [e]
    by_cases hf : x.left = f
    · rw [List.countP_cons] at hlen
      simp only [hf, beq_self_eq_true, if_true] at hlen
      cases rest with
      | nil => simp at hlen
      | cons s' rest =>
        obtain ⟨l, hl, hll⟩ := hsw s s' x.ss hs
        obtain ⟨st, out, h1, h2, h3⟩ := ih hpos' s' rest (by simp only [List.length_cons] at hlen; omega)
          (phase + 1 + 1) (start + x.ds + x.ss)
        refine ⟨st, List.replicate x.ds (restAt s) ++ (l ++ out), ?_, ?_, ?_⟩
        · unfold Slot.segs
          rw [if_pos hf]
          simp only [List.cons_append, List.nil_append, runSegs, footBody, List.isEmpty_cons, Nat.add_sub_cancel_left]
          rw [if_neg (by simp)]
          simp only [Out.bind_ok, if_true]
          rw [hl]
          simp only [Out.bind_ok]
          rw [h1]
          rfl
        · unfold Slot.segs
          rw [if_pos hf]
          simp only [List.cons_append, List.nil_append, expand_cons]
          exact FootRun.contacts (by simp) _ (.swing s s' rest x.ss l _ _ hs hl hll h3 h2)
        · unfold Slot.segs
          rw [if_pos hf]
          simp [hkd, List.replicate_succ]
    · rw [List.countP_cons] at hlen
      have hb : (x.left == f) = false := by simpa using hf
      simp only [hb] at hlen
      obtain ⟨st, out, h1, h2, h3⟩ := ih hpos' s rest (by simpa using hlen) (phase + 1 + 1) (start + x.ds + x.ss)
      refine ⟨st, List.replicate x.ds (restAt s) ++ (List.replicate x.ss (restAt s) ++ out), ?_, ?_, ?_⟩
      · unfold Slot.segs
        rw [if_neg hf]
        simp only [List.cons_append, List.nil_append, runSegs, footBody, List.isEmpty_cons, Nat.add_sub_cancel_left]
        rw [if_neg (by simp)]
        simp only [Out.bind_ok]
        rw [if_neg (by simp)]
        simp only [Out.bind_ok]
        rw [h1]
        rfl
      · unfold Slot.segs
        rw [if_neg hf]
        simp only [List.cons_append, List.nil_append, expand_cons]
        exact FootRun.contacts (by simp) _ (FootRun.contacts (by simp) _ h2)
      · unfold Slot.segs
        rw [if_neg hf]
        simp [hkd, List.replicate_succ]

/-! ## Landings -/

theorem landings_contact {p : Phase} (hp : p ≠ .swing) (ph : List Phase) (j : Nat) :
    landings (p :: ph) (j + 1) = landings ph j := by
  unfold landings
  rw [List.range_succ_eq_map, List.countP_cons, List.countP_map]
  simp only [List.getElem?_cons_zero, Option.some.injEq, hp, decide_false, Bool.false_and, Bool.false_eq_true, if_false, Nat.add_zero]
  rfl

theorem landings_swing_lt (n : Nat) (ph : List Phase) (j : Nat) (hj : j < n) :
    landings (List.replicate n .swing ++ ph) j = 0 := by
  unfold landings
  rw [List.countP_eq_zero]
  intro i hi
  rw [List.mem_range] at hi
  have : (List.replicate n Phase.swing ++ ph)[i + 1]? = some .swing := by
    rw [List.getElem?_append_left (by simp; omega)]
    rw [List.getElem?_replicate, if_pos (by omega)]
  simp [this]

theorem landings_swing_ge (n : Nat) (hn : 0 < n) (ph : List Phase) (hph : ph[0]? ≠ some .swing) (j : Nat) :
    landings (List.replicate n .swing ++ ph) (n + j) = 1 + landings ph j := by
  unfold landings
  rw [List.range_add, List.countP_append, List.countP_map]
  congr 1
  · obtain ⟨k, rfl⟩ := Nat.exists_eq_succ_of_ne_zero hn.ne'
    rw [List.range_succ, List.countP_append]
    have h0 : (List.range k).countP (fun i => decide ((List.replicate (k + 1) Phase.swing ++ ph)[i]? = some .swing) &&
        decide ((List.replicate (k + 1) Phase.swing ++ ph)[i + 1]? ≠ some .swing)) = 0 := by
      have := landings_swing_lt (k + 1) ph k (by omega)
      exact this
    rw [h0, List.countP_singleton]
    have h1 : (List.replicate (k + 1) Phase.swing ++ ph)[k]? = some .swing := by
      rw [List.getElem?_append_left (by simp)]; simp
    have h2 : (List.replicate (k + 1) Phase.swing ++ ph)[k + 1]? = ph[0]? := by
      rw [List.getElem?_append_right (by simp)]; simp
    rw [h1, h2]
    simp [hph]
  · congr 1
    funext i
    have h1 : ∀ i, (List.replicate n Phase.swing ++ ph)[n + i]? = ph[i]? := by
      intro i
      rw [List.getElem?_append_right (by simp)]; simp
    simp only [Function.comp]
    rw [h1, Nat.add_assoc, h1]

theorem FootRun.length {swing : Step K → Step K → Nat → Out (List (FootSample K))} {steps : List (Step K)}
    {ph : List Phase} {out : List (FootSample K)} (h : FootRun swing steps ph out) : out.length = ph.length := by
  induction h with
  | nil => rfl
  | contact _ _ _ _ _ _ _ ih => simp [ih]
  | swing _ _ _ _ _ _ _ _ _ hl _ _ ih => simp [ih, hl]

/-- Contacts: the foot is on the step it landed on last. -/
theorem FootRun.on_ground {swing : Step K → Step K → Nat → Out (List (FootSample K))} {steps : List (Step K)}
    {ph : List Phase} {out : List (FootSample K)} (h : FootRun swing steps ph out) {j : Nat} {p : Phase}
    (hp : ph[j]? = some p) (hne : p ≠ .swing) :
    ∃ s, steps[landings ph j]? = some s ∧ out[j]? = some (restAt s) := by
  induction h generalizing j with
  | nil => simp at hp
  | contact s rest q ph out hq _ ih =>
    cases j with
    | zero => exact ⟨s, rfl, rfl⟩
    | succ j =>
      rw [landings_contact hq]
      simpa using ih (by simpa using hp)
  | swing s s' rest n l ph out hn _ hl h0 _ ih =>
    by_cases hj : j < n
    · rw [List.getElem?_append_left (by simpa using hj)] at hp
      simp only [List.getElem?_replicate, hj, if_true, Option.some.injEq] at hp
      exact absurd hp.symm hne
    · obtain ⟨k, rfl⟩ := Nat.exists_eq_add_of_le (not_lt.mp hj)
      rw [List.getElem?_append_right (by simp)] at hp
      simp only [List.length_replicate, Nat.add_sub_cancel_left] at hp
      obtain ⟨x, hx, ho⟩ := ih hp
      refine ⟨x, ?_, ?_⟩
      · rw [landings_swing_ge n hn ph h0, Nat.add_comm]
        exact hx
      · rw [List.getElem?_append_right (by omega), hl, Nat.add_sub_cancel_left]
        exact ho

/-- Swings: from the step the foot landed on last to the following one. -/
theorem FootRun.in_swing {swing : Step K → Step K → Nat → Out (List (FootSample K))} {steps : List (Step K)}
    {ph : List Phase} {out : List (FootSample K)} (h : FootRun swing steps ph out) {j : Nat}
    (hp : ph[j]? = some .swing) :
    ∃ s s' a n l, a ≤ j ∧ j < a + n ∧ IsSwing ph a n ∧ steps[landings ph a]? = some s ∧
      steps[landings ph a + 1]? = some s' ∧ swing s s' n = .ok l ∧ l.length = n ∧ ∀ m, m < n → out[a + m]? = l[m]? := by
  induction h generalizing j with
  | nil => simp at hp
  | contact s rest q ph out hq _ ih =>
    cases j with
    | zero => simp at hp; exact absurd hp hq
    | succ j =>
      obtain ⟨x, x', a, n, l, h1, h2, h3, h4, h5, h6, h7, h8⟩ := ih (by simpa using hp)
      refine ⟨x, x', a + 1, n, l, by omega, by omega, ⟨h3.pos, ?_, ?_, ?_⟩, ?_, ?_, h6, h7, ?_⟩
      · intro m hm
        rw [show a + 1 + m = (a + m) + 1 by omega, List.getElem?_cons_succ]
        exact h3.all m hm
      · right
        rcases h3.before with rfl | h
        · simpa using hq
        · by_cases ha : a = 0
          · subst ha; simpa using hq
          · rw [show a + 1 - 1 = (a - 1) + 1 by omega, List.getElem?_cons_succ]
            exact h
      · rw [show a + 1 + n = (a + n) + 1 by omega, List.getElem?_cons_succ]
        exact h3.after
      · rw [landings_contact hq]; exact h4
      · rw [landings_contact hq]; exact h5
      · intro m hm
        rw [show a + 1 + m = (a + m) + 1 by omega, List.getElem?_cons_succ]
        exact h8 m hm
  | swing s s' rest n l ph out hn hsw hl h0 _ ih =>
    by_cases hj : j < n
    · refine ⟨s, s', 0, n, l, by omega, by omega, ⟨hn, ?_, Or.inl rfl, ?_⟩, ?_, ?_, hsw, hl, ?_⟩
      · intro m hm
        rw [List.getElem?_append_left (by simpa using hm)]
        simp [hm]
      · rw [List.getElem?_append_right (by simp)]
        simpa using h0
      · rfl
      · rfl
      · intro m hm
        rw [List.getElem?_append_left (by simp; omega), Nat.zero_add]
    · obtain ⟨k, rfl⟩ := Nat.exists_eq_add_of_le (not_lt.mp hj)
      rw [List.getElem?_append_right (by simp)] at hp
      simp only [List.length_replicate, Nat.add_sub_cancel_left] at hp
      obtain ⟨x, x', a, n', l', h1, h2, h3, h4, h5, h6, h7, h8⟩ := ih hp
      have hph : ∀ i, (List.replicate n Phase.swing ++ ph)[n + i]? = ph[i]? := by
        intro i
        rw [List.getElem?_append_right (by simp)]; simp
      have ha : a ≠ 0 := by
        rintro rfl
        exact h0 (h3.all 0 h3.pos)
      refine ⟨x, x', n + a, n', l', by omega, by omega, ⟨h3.pos, ?_, ?_, ?_⟩, ?_, ?_, h6, h7, ?_⟩
      · intro m hm
        rw [Nat.add_assoc, hph]
        exact h3.all m hm
      · right
        rw [show n + a - 1 = n + (a - 1) by omega, hph]
        exact h3.before.resolve_left ha
      · rw [Nat.add_assoc, hph]
        exact h3.after
      · rw [landings_swing_ge n hn ph h0, Nat.add_comm]; exact h4
      · rw [landings_swing_ge n hn ph h0, Nat.add_comm 1]; exact h5
      · intro m hm
        rw [List.getElem?_append_right (by omega), hl, Nat.add_assoc, Nat.add_sub_cancel_left]
        exact h8 m hm

theorem IsSwing.unique {ph : List Phase} {a n a' n' : Nat} (h : IsSwing ph a n) (h' : IsSwing ph a' n') (j : Nat)
    (h1 : a ≤ j) (h2 : j < a + n) (h3 : a' ≤ j) (h4 : j < a' + n') : a = a' ∧ n = n' := by
  have key : ∀ {a n a' n' : Nat}, IsSwing ph a n → IsSwing ph a' n' → a ≤ j → j < a + n → a' ≤ j → j < a' + n' →
      a ≤ a' ∧ a + n ≤ a' + n' := by
    intro a n a' n' h h' h1 h2 h3 h4
    constructor
    · by_contra hlt
      rcases h.before with rfl | hb
      · omega
      · refine hb ?_
        have := h'.all (a - 1 - a') (by omega)
        rwa [show a' + (a - 1 - a') = a - 1 by omega] at this
    · by_contra hlt
      refine h'.after ?_
      have := h.all (a' + n' - a) (by omega)
      rwa [show a + (a' + n' - a) = a' + n' by omega] at this
  have k1 := key h h' h1 h2 h3 h4
  have k2 := key h' h h3 h4 h1 h2
  omega

theorem landings_contacts {p : Phase} (hp : p ≠ .swing) (n : Nat) (ph : List Phase) (j : Nat) :
    landings (List.replicate n p ++ ph) (n + j) = landings ph j := by
  induction n with
  | zero => simp
  | succ n ih =>
    rw [List.replicate_succ, List.cons_append, show n + 1 + j = (n + j) + 1 by omega, landings_contact hp, ih]

theorem expand_head_ne {f : Bool} {slots : List Slot} {last : Seg} (hlast : last.1 ≠ .swing) (hlp : 0 < last.2)
    (hpos : ∀ s ∈ slots, 0 < s.ds ∧ 0 < s.ss) : (expand (slotSegs f slots ++ [last]))[0]? ≠ some .swing := by
  cases slots with
  | nil =>
    obtain ⟨k, hk⟩ := Nat.exists_eq_succ_of_ne_zero hlp.ne'
    simp [slotSegs, hk, List.replicate_succ, hlast]
  | cons x slots =>
    obtain ⟨k, hk⟩ := Nat.exists_eq_succ_of_ne_zero (hpos x (by simp)).1.ne'
    by_cases hf : x.left = f <;> simp [slotSegs, Slot.segs, hf, hk, List.replicate_succ]

/-- All swings of the foot, up to the last sample. -/
theorem landings_total (f : Bool) (slots : List Slot) (last : Seg) (hlast : last.1 ≠ .swing) (hlp : 0 < last.2)
    (hpos : ∀ s ∈ slots, 0 < s.ds ∧ 0 < s.ss) :
    landings (expand (slotSegs f slots ++ [last])) (total (slotSegs f slots) + (last.2 - 1)) =
      slots.countP (fun x => x.left == f) := by
  induction slots with
  | nil =>
    have := landings_contacts hlast (last.2 - 1) [last.1] 0
    have e : List.replicate (last.2 - 1) last.1 ++ [last.1] = List.replicate last.2 last.1 := by
      rw [← List.replicate_succ', show last.2 - 1 + 1 = last.2 by omega]
    rw [e] at this
    simpa [slotSegs, landings] using this
  | cons x slots ih =>
    obtain ⟨hd, hs⟩ := hpos x (by simp)
    have ih := ih (fun s hs => hpos s (by simp [hs]))
    have h0 := expand_head_ne (f := f) hlast hlp (fun s hs => hpos s (List.mem_cons_of_mem x hs))
    have e : slotSegs f (x :: slots) = Slot.segs f x ++ slotSegs f slots := by simp [slotSegs]
    rw [e, List.append_assoc, List.countP_cons]
    by_cases hf : x.left = f
    · unfold Slot.segs
      rw [if_pos hf]
      simp only [List.cons_append, List.nil_append, expand_cons, total_cons]
      rw [show x.ds + (x.ss + total (slotSegs f slots)) + (last.2 - 1) =
        x.ds + (x.ss + (total (slotSegs f slots) + (last.2 - 1))) by omega, landings_contacts (by simp),
        landings_swing_ge _ hs _ h0, ih]
      simp [hf, Nat.add_comm]
    · unfold Slot.segs
      rw [if_neg hf]
      simp only [List.cons_append, List.nil_append, expand_cons, total_cons]
      rw [show x.ds + (x.ss + total (slotSegs f slots)) + (last.2 - 1) =
        x.ds + (x.ss + (total (slotSegs f slots) + (last.2 - 1))) by omega, landings_contacts (by simp),
        landings_contacts (by simp), ih]
      simp [hf]

end Uni
