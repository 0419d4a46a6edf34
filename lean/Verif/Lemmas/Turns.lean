import Verif.Spec.Turns
import Verif.Lemmas.Stride
import Verif.Props.Start
import Verif.Props.Executed

/-! # Which foot leaves the ground next: lemmas -/

set_option autoImplicit false
set_option linter.unusedSectionVars false

namespace Uni
open Spec Gen

/-! ## Turns -/

/-- The foot whose turn it is after `n` take-offs. -/
def flipped (b : Bool) : Nat → Bool
  | 0 => b
  | n + 1 => !flipped b n

theorem flipped_not (b : Bool) (n : Nat) : flipped (!b) n = !flipped b n := by
  induction n with
  | zero => rfl
  | succ n ih => rw [flipped, flipped, ih]

theorem flipped_add (b : Bool) (n m : Nat) : flipped b (n + m) = flipped (flipped b n) m := by
  induction m with
  | zero => rfl
  | succ m ih => rw [← Nat.add_assoc, flipped, flipped, ih]

theorem Turns.append : ∀ {b : Bool} {l l' : List Bool}, Turns b l → Turns (flipped b l.length) l' → Turns b (l ++ l')
  | _, [], _, _, h => h
  | b, x :: l, l', h, h' => by
    refine ⟨h.1, Turns.append h.2 ?_⟩
    rw [List.length_cons, flipped, ← flipped_not] at h'
    exact h'

theorem Turns.take : ∀ {b : Bool} {l : List Bool} (n : Nat), Turns b l → Turns b (l.take n)
  | _, [], _, _ => by simp [Turns]
  | _, _ :: _, 0, _ => by simp [Turns]
  | _, _ :: _, n + 1, h => by
    rw [List.take_succ_cons]
    exact ⟨h.1, Turns.take n h.2⟩

theorem Turns.get : ∀ {b : Bool} {l : List Bool} {n : Nat} {x : Bool}, Turns b l → l[n]? = some x → x = flipped b n
  | b, y :: l, 0, x, h, hx => by
    simp at hx
    rw [← hx]; exact h.1
  | b, y :: l, n + 1, x, h, hx => by
    rw [List.getElem?_cons_succ] at hx
    rw [flipped, ← flipped_not]
    exact Turns.get h.2 hx

theorem Alternates.turns {K : Type} : ∀ {b : Bool} {log : List (Landing K)}, Alternates b log → Turns b (log.map fun e => e.left)
  | _, [], _ => trivial
  | _, _ :: _, h => ⟨h.1, Alternates.turns h.2⟩

/-! ## Take-offs -/

theorem takeoffs_joint (l l' : List (Bool × Bool)) :
    takeoffs (l ++ (true, true) :: l') = takeoffs l ++ takeoffs ((true, true) :: l') := by
  induction l with
  | nil => rfl
  | cons x l ih =>
    cases l with
    | nil => simp [takeoffs]
    | cons y l =>
      rw [List.cons_append, List.cons_append, takeoffs, takeoffs, ← List.cons_append, ih]
      simp

theorem takeoffs_replicate (n : Nat) (x : Bool × Bool) : takeoffs (List.replicate n x) = [] := by
  induction n with
  | zero => rfl
  | succ n ih =>
    cases n with
    | zero => rfl
    | succ n =>
      rw [List.replicate_succ, List.replicate_succ, takeoffs, ← List.replicate_succ, ih]
      cases x with | mk a b => cases a <;> cases b <;> rfl

theorem takeoffs_slot (n k : Nat) (f : Bool) (hn : 0 < n) (hk : 0 < k) :
    takeoffs (List.replicate n (true, true) ++ List.replicate k (!f, f)) = [f] := by
  obtain ⟨n, rfl⟩ : ∃ m, n = m + 1 := ⟨n - 1, by omega⟩
  obtain ⟨k, rfl⟩ : ∃ m, k = m + 1 := ⟨k - 1, by omega⟩
  induction n with
  | zero =>
    rw [List.replicate_one, List.singleton_append, List.replicate_succ, takeoffs, ← List.replicate_succ, takeoffs_replicate]
    cases f <;> rfl
  | succ n ih =>
    rw [List.replicate_succ, List.replicate_succ, List.cons_append, List.cons_append, takeoffs, ← List.cons_append, ← List.replicate_succ,
      ih (by omega)]
    rfl

/-- Contacts of a walk given by its steps. -/
def supp (slots : List Slot) (rest : Nat) : List (Bool × Bool) :=
  slots.flatMap (fun s => List.replicate s.ds (true, true) ++ List.replicate s.ss (!s.left, s.left)) ++ List.replicate rest (true, true)

theorem supp_cons (s : Slot) (slots : List Slot) (rest : Nat) :
    supp (s :: slots) rest = List.replicate s.ds (true, true) ++ List.replicate s.ss (!s.left, s.left) ++ supp slots rest := by
  simp [supp]

theorem supp_head {slots : List Slot} {rest : Nat} (hp : ∀ s ∈ slots, 0 < s.ds ∧ 0 < s.ss) (hr : 0 < rest) :
    ∃ l, supp slots rest = (true, true) :: l := by
  cases slots with
  | nil =>
    obtain ⟨n, rfl⟩ : ∃ m, rest = m + 1 := ⟨rest - 1, by omega⟩
    exact ⟨_, by simp [supp, List.replicate_succ]; rfl⟩
  | cons s ss =>
    obtain ⟨n, hn⟩ : ∃ m, s.ds = m + 1 := ⟨s.ds - 1, by have := (hp s (by simp)).1; omega⟩
    exact ⟨_, by rw [supp_cons, hn, List.replicate_succ, List.cons_append, List.cons_append]⟩

theorem supp_eq (tt : Timetable) : (contacts (tt.phases true)).zip (contacts (tt.phases false)) = supp tt.slots tt.rest := by
  obtain ⟨slots, last, rest⟩ := tt
  unfold Timetable.phases Timetable.segs
  simp only
  induction slots with
  | nil => cases last <;> simp [expand, contacts, supp, List.zip_replicate']
  | cons s slots ih =>
    have key : ∀ (f : Bool) (tail : List Seg), contacts (expand ((s :: slots).flatMap (Slot.segs f) ++ tail)) =
        List.replicate s.ds true ++ List.replicate s.ss (decide (s.left ≠ f)) ++ contacts (expand (slots.flatMap (Slot.segs f) ++ tail)) := by
      intro f tail
      unfold contacts expand Slot.segs
      by_cases h : s.left = f
      · simp [h]
      · simp only [h, ne_eq, not_false_eq_true, decide_true]
        simp [h, ← List.append_assoc, List.replicate_append_replicate]
    rw [key, key, List.zip_append (by simp), List.zip_append (by simp), ih, supp_cons, List.zip_replicate', List.zip_replicate']
    cases s.left <;> simp

theorem slotStart_cons (s : Slot) (slots : List Slot) (i : Nat) : slotStart (s :: slots) (i + 1) = s.ds + s.ss + slotStart slots i := by
  unfold slotStart
  rw [List.take_succ_cons]
  simp [slotSegs, total_segs, total_append]

theorem takeoffs_supp {slots : List Slot} {rest : Nat} (hp : ∀ s ∈ slots, 0 < s.ds ∧ 0 < s.ss) (hr : 0 < rest) :
    takeoffs (supp slots rest) = slots.map Slot.left := by
  induction slots with
  | nil => simp [supp, takeoffs_replicate]
  | cons s slots ih =>
    obtain ⟨l, hl⟩ := supp_head (fun s hs => hp s (List.mem_cons_of_mem _ hs)) hr
    obtain ⟨h1, h2⟩ := hp s (by simp)
    rw [supp_cons, hl, takeoffs_joint, ← hl, ih fun s hs => hp s (List.mem_cons_of_mem _ hs), takeoffs_slot _ _ _ h1 h2]
    rfl

/-- The beginning of a walk, up to a sample with both feet on the ground that is not the one of a landing. -/
theorem takeoffs_take {slots : List Slot} {rest : Nat} (hp : ∀ s ∈ slots, 0 < s.ds ∧ 0 < s.ss) (hr : 0 < rest) (m : Nat)
    (hm : m < (supp slots rest).length) (hb : ∀ j, j + 1 = m → (supp slots rest)[j]? = some (true, true)) :
    ∃ i, i ≤ slots.length ∧ takeoffs ((supp slots rest).take m) = (slots.take i).map Slot.left ∧ slotStart slots i ≤ m ∧
      (i < slots.length → m < slotStart slots (i + 1)) := by
  induction slots generalizing m with
  | nil =>
    refine ⟨0, by simp, ?_, by simp [slotStart, slotSegs, total], by simp⟩
    simp [supp, List.take_replicate, takeoffs_replicate]
  | cons s slots ih =>
    obtain ⟨h1, h2⟩ := hp s (by simp)
    have hp' : ∀ s ∈ slots, 0 < s.ds ∧ 0 < s.ss := fun s hs => hp s (List.mem_cons_of_mem _ hs)
    rw [supp_cons] at hm hb ⊢
    rcases Nat.lt_or_ge s.ds m with hlt | hge
    · have hge : s.ds + s.ss < m := by
        by_contra hc
        have := hb (m - 1) (by omega)
        rw [List.getElem?_append_left (by simp; omega), List.getElem?_append_right (by simp; omega), List.getElem?_replicate,
          if_pos (by simp; omega)] at this
        cases hl : s.left <;> rw [hl] at this <;> cases this
      have hlen : (List.replicate s.ds (true, true) ++ List.replicate s.ss (!s.left, s.left)).length = s.ds + s.ss := by simp
      obtain ⟨i, i1, i2, i3, i4⟩ := ih hp' (m - (s.ds + s.ss)) (by rw [List.length_append, hlen] at hm; omega) (by
        intro j hj
        have := hb (s.ds + s.ss + j) (by omega)
        rwa [List.getElem?_append_right (by rw [hlen]; omega), hlen, Nat.add_sub_cancel_left] at this)
      refine ⟨i + 1, by simp; omega, ?_, by rw [slotStart_cons]; omega, fun hi => ?_⟩
      · obtain ⟨l, hl⟩ := supp_head hp' hr
        obtain ⟨n, hn⟩ : ∃ n, m - (s.ds + s.ss) = n + 1 := ⟨m - (s.ds + s.ss) - 1, by omega⟩
        rw [List.take_append, List.take_of_length_le (by rw [hlen]; omega), hlen]
        rw [hl, hn, List.take_succ_cons] at i2 ⊢
        rw [takeoffs_joint, i2, takeoffs_slot _ _ _ h1 h2]
        rfl
      · have := i4 (by simpa using hi)
        rw [slotStart_cons]; omega
    · refine ⟨0, by simp, ?_, by simp [slotStart, slotSegs, total], fun _ => ?_⟩
      · rw [List.take_append_of_le_length (by simp; omega), List.take_append_of_le_length (by simp; omega), List.take_replicate,
          takeoffs_replicate]
        rfl
      · rw [slotStart_cons]; omega

section
variable {K : Type} [Field K] [LinearOrder K] [IsStrictOrderedRing K] [FloorRing K] [Trig K]
variable {cfg : GenSettings K} {left right : FootPrint K} {initTime dT : K} {sorted ordered : List (Ptr K)} {t : Timing K}

/-! ## The steps of a walk whose contacts are made in turns -/

theorem filter_steps (f : Bool) (S : List (Step K)) : ∀ (o : List (Ptr K)) (n : Nat),
    (∀ k q, o[k]? = some q → q.left = f → S[n + (o.take k).countP (fun p => p.left == f)]? = some q.step) →
    n + o.countP (fun p => p.left == f) = S.length → (o.filter fun p => p.left == f).map Ptr.step = S.drop n
  | [], n, _, h2 => by
    rw [List.drop_of_length_le (by simp at h2; omega)]; rfl
  | q :: o, n, h1, h2 => by
    by_cases hq : q.left = f
    · have h0 := h1 0 q rfl hq
      simp at h0
      obtain ⟨a1, a2⟩ := List.getElem?_eq_some_iff.mp h0
      rw [List.filter_cons_of_pos (by simpa using hq), List.map_cons, List.drop_eq_getElem_cons a1, a2,
        filter_steps f S o (n + 1)]
      · intro k x hx hxf
        have := h1 (k + 1) x (by simpa using hx) hxf
        rw [List.take_succ_cons, List.countP_cons_of_pos (by simpa using hq)] at this
        rw [← this]; congr 1; omega
      · rw [List.countP_cons_of_pos (by simpa using hq)] at h2; omega
    · rw [List.filter_cons_of_neg (by simpa using hq), filter_steps f S o n]
      · intro k x hx hxf
        have := h1 (k + 1) x (by simpa using hx) hxf
        rwa [List.take_succ_cons, List.countP_cons_of_neg (by simpa using hq)] at this
      · rwa [List.countP_cons_of_neg (by simpa using hq)] at h2

theorem stepsOf_cons (f : Bool) (e : Landing K) (log : List (Landing K)) :
    stepsOf f (e :: log) = if e.left = f then e.step :: stepsOf f log else stepsOf f log := by
  unfold stepsOf
  by_cases h : e.left = f <;> simp [h]

theorem merged_feet : ∀ (o : List (Ptr K)) (log : List (Landing K)),
    (∀ f, (o.filter fun p => p.left == f).map Ptr.step = stepsOf f log) →
    o.Pairwise (fun a b => a.step.impactTime < b.step.impactTime) → log.Pairwise (fun a b => a.step.impactTime < b.step.impactTime) →
    o.map Ptr.left = log.map fun e => e.left
  | [], [], _, _, _ => rfl
  | [], e :: log, h, _, _ => by
    have := h e.left
    rw [stepsOf_cons, if_pos rfl] at this
    simp at this
  | q :: o, [], h, _, _ => by
    have := h q.left
    rw [List.filter_cons_of_pos (by simp)] at this
    simp [stepsOf] at this
  | q :: o, e :: log, h, h1, h2 => by
    rw [List.pairwise_cons] at h1 h2
    by_cases hq : q.left = e.left
    · have := merged_feet o log (fun f => by
        have hf := h f
        by_cases hqf : q.left = f
        · rw [List.filter_cons_of_pos (by simpa using hqf), stepsOf_cons, if_pos (hq ▸ hqf), List.map_cons] at hf
          exact (List.cons.inj hf).2
        · rw [List.filter_cons_of_neg (by simpa using hqf), stepsOf_cons, if_neg (hq ▸ hqf)] at hf
          exact hf) h1.2 h2.2
      rw [List.map_cons, List.map_cons, this, hq]
    · exfalso
      have a := h q.left
      rw [List.filter_cons_of_pos (by simp), stepsOf_cons, if_neg (Ne.symm hq), List.map_cons] at a
      have b := h e.left
      rw [List.filter_cons_of_neg (by simpa using hq), stepsOf_cons, if_pos rfl] at b
      obtain ⟨y, y1, -, y2⟩ := mem_stepsOf (show q.step ∈ stepsOf q.left log by rw [← a]; simp)
      have hb : e.step ∈ (o.filter fun p => p.left == e.left).map Ptr.step := by rw [b]; simp
      obtain ⟨x, x1, x2⟩ := List.mem_map.mp hb
      have c1 := h1.1 x (List.mem_filter.mp x1).1
      have c2 := h2.1 y y1
      rw [x2] at c1
      rw [y2] at c2
      exact absurd c1 (not_lt.mpr c2.le)

/-- The feet of a walk whose contacts are made in turns swing in turns. -/
theorem slots_turns (hs : SortedPtrs left right sorted) (h : timeline cfg left right initTime dT sorted = .ok (ordered, t))
    {l r : Step K} {tt : Timetable} (hr : Run cfg left right initTime dT sorted ordered t l r tt) {b : Bool}
    (ht : InTurn b left.steps right.steps) : Turns b (tt.slots.map Slot.left) := by
  obtain ⟨log, l1, l2, l3, l4⟩ := ht
  obtain ⟨-, -, hsort, -⟩ := C39_ordered hs h
  obtain ⟨h1, h2, h3, -⟩ := C37_all_steps hs h
  have key : (ordered.drop 2).map Ptr.left = log.map fun e => e.left := by
    refine merged_feet _ _ (fun f => ?_) hsort l4
    have := filter_steps f (if f then left.steps else right.steps) (ordered.drop 2) 1 (fun k q hq hf => by
      rw [List.getElem?_drop, Nat.add_comm] at hq
      obtain ⟨e1, e2⟩ := h1 k q hq
      rw [e1, hf] at e2
      exact e2) (by cases f <;> simp only [if_true, Bool.false_eq_true, if_false] <;> omega)
    rw [this]
    cases f
    · simp only [Bool.false_eq_true, if_false]
      rw [← l3, List.drop_one]
    · simp only [if_true]
      rw [← l2, List.drop_one]
  have : tt.slots.map Slot.left = (ordered.drop 2).map Ptr.left := by
    rcases hr.built.cases with ⟨h2, hn, -⟩ | ⟨-, ms, hsl, -⟩
    · rw [hn, List.drop_of_length_le (by omega)]; rfl
    · exact slots_left hsl
  rw [this, key]
  exact Alternates.turns l1

theorem alternates_between (f : Bool) : ∀ (n : Nat) (log : List (Landing K)), log.length ≤ n → ∀ b, Alternates b log →
    log.Pairwise (fun a b => a.step.impactTime < b.step.impactTime) → ∀ i x y, (stepsOf f log)[i]? = some x → (stepsOf f log)[i + 1]? = some y →
    ∃ s ∈ stepsOf (!f) log, x.impactTime < s.impactTime ∧ s.impactTime < y.impactTime
  | 0, [], _, _, _, _, i, x, y, hx, _ => by simp [stepsOf] at hx
  | n + 1, [], _, _, _, _, i, x, y, hx, _ => by simp [stepsOf] at hx
  | n + 1, e :: log, hn, b, ha, hp, i, x, y, hx, hy => by
    have hp' := List.pairwise_cons.mp hp
    have hn' : log.length ≤ n := by simpa using hn
    have weaken : ∀ s ∈ stepsOf (!f) log, s ∈ stepsOf (!f) (e :: log) := by
      intro s hs
      rw [stepsOf_cons]; split_ifs
      · exact List.mem_cons_of_mem _ hs
      · exact hs
    rw [stepsOf_cons] at hx hy
    by_cases hf : e.left = f
    · rw [if_pos hf] at hx hy
      cases i with
      | succ i =>
        rw [List.getElem?_cons_succ] at hx hy
        obtain ⟨s, s1, s2⟩ := alternates_between f n log hn' _ ha.2 hp'.2 i x y hx hy
        exact ⟨s, weaken s s1, s2⟩
      | zero =>
        rw [List.getElem?_cons_succ] at hy
        simp at hx
        subst hx
        cases log with
        | nil => simp [stepsOf] at hy
        | cons e' log =>
          have he' : e'.left = !f := by rw [ha.2.1, ← ha.1, hf]
          refine ⟨e'.step, weaken _ (by rw [stepsOf_cons, if_pos he']; simp), hp'.1 e' (by simp), ?_⟩
          rw [stepsOf_cons, if_neg (by rw [he']; cases f <;> simp)] at hy
          obtain ⟨z, z1, -, rfl⟩ := mem_stepsOf (List.mem_of_getElem? hy)
          exact (List.pairwise_cons.mp hp'.2).1 z z1
    · rw [if_neg hf] at hx hy
      obtain ⟨s, s1, s2⟩ := alternates_between f n log hn' _ ha.2 hp'.2 i x y hx hy
      exact ⟨s, weaken s s1, s2⟩

theorem InTurn.alternating {b : Bool} {ls rs : List (Step K)} (h : InTurn b ls rs) : Alternating ls rs := by
  obtain ⟨log, l1, l2, l3, l4⟩ := h
  refine ⟨fun i x y hx hy => ?_, fun i x y hx hy => ?_⟩
  · rw [← List.getElem?_tail, l2] at hx hy
    obtain ⟨s, s1, s2⟩ := alternates_between true _ log le_rfl b l1 l4 i x y hx hy
    exact ⟨s, List.mem_of_mem_tail (by rw [l3]; exact s1), s2⟩
  · rw [← List.getElem?_tail, l3] at hx hy
    obtain ⟨s, s1, s2⟩ := alternates_between false _ log le_rfl b l1 l4 i x y hx hy
    exact ⟨s, List.mem_of_mem_tail (by rw [l2]; exact s1), s2⟩

/-! ## The contacts at the sample where a walk is left -/

/-- Which contact each foot is on after `i` steps. -/
theorem stands_after (hs : SortedPtrs left right sorted) (h : timeline cfg left right initTime dT sorted = .ok (ordered, t))
    (hpos : t.shifts.Pairwise (· < ·)) {l r : Step K} {tt : Timetable} (hr : Run cfg left right initTime dT sorted ordered t l r tt)
    (j : Nat) (hj : j < t.left.length)
    (hbefore : ∀ i, i + 1 = j → t.left[i]? ≠ some .swing ∧ t.right[i]? ≠ some .swing) {sL sR : Step K}
    (hL : Present left.steps ((j : K) * dT + initTime) sL) (hR : Present right.steps ((j : K) * dT + initTime) sR) (i : Nat)
    (hi : i ≤ tt.slots.length) (h1 : slotStart tt.slots i ≤ j) (h2 : i < tt.slots.length → j < slotStart tt.slots (i + 1)) :
    ∀ f : Bool, (if f then left.steps else right.steps)[(tt.slots.take i).countP (fun x => x.left == f)]? = some (if f then sL else sR) := by
  intro f
  obtain ⟨k, k1, k2, k3, k4⟩ := Zmp.sample_slot hpos hr f j hj
  have hki : k = i := by
    rcases lt_trichotomy k i with hlt | he | hlt
    · have := k3 (by omega)
      have := slotStart_mono tt.slots (show k + 1 ≤ i by omega)
      omega
    · exact he
    · have := h2 (by omega)
      have := slotStart_mono tt.slots (show i + 1 ≤ k by omega)
      omega
  subst hki
  rw [← k4]
  refine Walker.stands_on hs h hpos f j hj (fun i hi => ?_) _ ?_
  · cases f
    · exact (hbefore i hi).2
    · exact (hbefore i hi).1
  · cases f
    · exact hR
    · exact hL

/-- Which contact a foot is on after `i` steps, and that the foot that made the last step is the one that landed last. -/
theorem contacts_after (hs : SortedPtrs left right sorted) (h : timeline cfg left right initTime dT sorted = .ok (ordered, t))
    (hpos : t.shifts.Pairwise (· < ·)) {l r : Step K} {tt : Timetable} (hr : Run cfg left right initTime dT sorted ordered t l r tt)
    (j : Nat) (hj : j < t.left.length)
    (hbefore : ∀ i, i + 1 = j → t.left[i]? ≠ some .swing ∧ t.right[i]? ≠ some .swing) {sL sR : Step K}
    (hL : Present left.steps ((j : K) * dT + initTime) sL) (hR : Present right.steps ((j : K) * dT + initTime) sR) (i : Nat)
    (hi : i ≤ tt.slots.length) (h1 : slotStart tt.slots i ≤ j) (h2 : i < tt.slots.length → j < slotStart tt.slots (i + 1)) :
    (i = 0 → sL = l ∧ sR = r) ∧
    ∀ n x, i = n + 1 → tt.slots[n]? = some x → if x.left then sR.impactTime < sL.impactTime else sL.impactTime < sR.impactTime := by
  have stand := stands_after hs h hpos hr j hj hbefore hL hR i hi h1 h2
  refine ⟨fun h0 => ?_, fun n x hn hx => ?_⟩
  · have a := stand true
    have b := stand false
    rw [h0] at a b
    simp only [List.take_zero, List.countP_nil, if_true, Bool.false_eq_true, if_false] at a b
    rw [← List.head?_eq_getElem?, hr.headL] at a
    rw [← List.head?_eq_getElem?, hr.headR] at b
    exact ⟨(Option.some.inj a).symm, (Option.some.inj b).symm⟩
  · have a := stand x.left
    have b := stand (!x.left)
    rw [hn, countP_take_succ _ _ hx (by simp)] at a
    rw [hn, List.take_add_one, hx, List.countP_append] at b
    have c := Gen.later_contact hs h hpos hr n x.left _ (if x.left then sR else sL) a (by
      cases hxl : x.left <;> simpa [hxl] using b)
    cases hxl : x.left <;> simpa [hxl] using c

/-! ## The contacts made by the planner -/

/-- The foot whose turn it is, from the first contacts. -/
def dueOf (p : Planner K) (ls rs : List (Step K)) : Bool :=
  match ls.head?, rs.head? with
  | some l, some r => if l.impactTime < r.impactTime then true else if r.impactTime < l.impactTime then false else p.startLeft
  | _, _ => p.startLeft

variable {p p' : Planner K} {integ : Integrator K} {fuel : Nat} {left' right' : FootPrint K} {t0 t1 : K}

/-- The contacts of a plan from one contact of each foot are made in turns. -/
theorem plan_turns (hp : Timed p) (hm : 0 < p.minTime) {d : Plan K} (hd : PlanOf p integ left right t0 t1 left' right' d)
    {a b : Step K} (ha : d.l0.steps = [a]) (hb : d.r0.steps = [b]) : InTurn d.firstLeft left'.steps right'.steps := by
  refine ⟨d.log, hd.alternates, ?_⟩
  rcases hd.effect with ⟨hne, e1, e2⟩ | ⟨hnil, l, r, hl, hr', hre⟩
  · refine ⟨by rw [e1, extendBy, ha]; rfl, by rw [e2, extendBy, hb]; rfl, ?_⟩
    exact (along_times hp.minTime (hd.gaps hp)).2.imp fun {x y} hxy => by linarith
  · rw [hnil]
    refine ⟨?_, ?_, .nil⟩
    · rcases hre with ⟨-, e, -⟩ | ⟨-, e, -⟩ | ⟨-, ⟨older, s, e, e'⟩, -⟩
      · rw [e, ha]; rfl
      · rw [e, ha]; rfl
      · rw [ha] at e
        obtain ⟨rfl, -⟩ : older = [] ∧ _ := by
          cases older with
          | nil => exact ⟨rfl, trivial⟩
          | cons => simp at e
        rw [e']; rfl
    · rcases hre with ⟨-, -, e⟩ | ⟨-, -, older, s, e, e'⟩ | ⟨-, -, e⟩
      · rw [e, hb]; rfl
      · rw [hb] at e
        obtain ⟨rfl, -⟩ : older = [] ∧ _ := by
          cases older with
          | nil => exact ⟨rfl, trivial⟩
          | cons => simp at e
        rw [e']; rfl
      · rw [e, hb]; rfl

/-- A plan from one contact of each foot. -/
theorem plan_inTurn (hp : Timed p) (hm : 0 < p.minTime) (hr : p.resetStartingFoot = false) {d : Plan K}
    (hd : PlanOf p integ left right t0 t1 left' right' d)
    (h1 : p'.startLeft = (if p.resetStartingFoot = true ∨ d.log ≠ [] then p.startLeft else turn p d.l0 d.r0))
    {a b : Step K} (ha : d.l0.steps = [a]) (hb : d.r0.steps = [b]) (ht : d.firstLeft = turn p d.l0 d.r0) :
    InTurn (turn p d.l0 d.r0) left'.steps right'.steps ∧ dueOf p' left'.steps right'.steps = turn p d.l0 d.r0 ∧
      (a.impactTime = b.impactTime → p'.startLeft = p.startLeft) := by
  have hturn := Planner.turn_eq (p := p) (left := d.l0) (right := d.r0) (l := a) (r := b) (by rw [ha]; rfl) (by rw [hb]; rfl)
  have htie : a.impactTime = b.impactTime → p'.startLeft = p.startLeft := by
    intro e
    rw [h1, hturn, e]
    simp
  refine ⟨?_, ?_, htie⟩
  · rw [← ht]; exact plan_turns hp hm hd ha hb
  · rcases hd.effect with ⟨hne, e1, e2⟩ | ⟨hnil, l, r, hl, hr', hre⟩
    · rw [if_pos (Or.inr hne)] at h1
      rw [e1, e2, hturn, dueOf, extendBy, extendBy, ha, hb, h1]
      rfl
    · rw [hnil, hr] at h1
      simp only [Bool.false_eq_true, ne_eq, not_true_eq_false, or_self, if_false] at h1
      rw [ha] at hl
      rw [hb] at hr'
      simp at hl hr'
      subst hl; subst hr'
      have tie : ∀ x y, left'.steps.head? = some x → right'.steps.head? = some y → x.impactTime = y.impactTime →
          dueOf p' left'.steps right'.steps = turn p d.l0 d.r0 := by
        intro x y hx hy hxy
        rw [dueOf, hx, hy]
        simp [hxy, h1]
      have retimed : ∀ (fp fp' : FootPrint K) (c : Step K) (u : K), fp.steps = [c] → Retimed fp u fp' →
          ∃ x, fp'.steps.head? = some x ∧ x.impactTime = u := by
        rintro fp fp' c u hc ⟨older, s, e, rfl⟩
        rw [hc] at e
        obtain ⟨rfl, -⟩ : older = [] ∧ True := by
          cases older with
          | nil => exact ⟨rfl, trivial⟩
          | cons => simp at e
        exact ⟨_, rfl, rfl⟩
      rcases hre with ⟨he, rfl, rfl⟩ | ⟨-, rfl, hre⟩ | ⟨-, hre, rfl⟩
      · exact tie a b (by rw [ha]; rfl) (by rw [hb]; rfl) he
      · obtain ⟨x, x1, x2⟩ := retimed _ _ b _ hb hre
        exact tie a x (by rw [ha]; rfl) x1 x2.symm
      · obtain ⟨x, x1, x2⟩ := retimed _ _ a _ ha hre
        exact tie x b x1 (by rw [hb]; rfl) x2

/-- Landing times are not changed by measured poses that come without them, unless they are reset. -/
theorem editedSteps_times (q : Request K) (hq : ∀ a b, q ≠ .steps a b) (nl nr : String) (a b : Step K) :
    (editedSteps t0 (q.measuredLeft t0 nl) (q.measuredRight t0 nr) q.correction false a b).1.impactTime = a.impactTime ∧
    (editedSteps t0 (q.measuredLeft t0 nl) (q.measuredRight t0 nr) q.correction false a b).2.impactTime = b.impactTime := by
  have h1 : t0 < t0 + 1 := by linarith
  rcases q with _ | ⟨_, _⟩ | ⟨c, _, _⟩ | _
  · unfold editedSteps
    simp only [Request.correction, Correction.editsLeft, Correction.editsRight]
    simp
  · exact absurd rfl (hq _ _)
  · cases c <;> simp [editedSteps, Request.correction, Correction.editsLeft, Correction.editsRight, Request.measuredLeft, Request.measuredRight,
      editStepFromMeasured]
  · simp [editedSteps, Request.correction, Correction.editsLeft, Correction.editsRight, Request.measuredLeft, Request.measuredRight,
      editStepFromMeasured]

/-! ## The command is not changed by planning -/

/-- The commanded velocity. -/
abbrev command (p : Planner K) : Control K := p.ctrl.direct.desired

theorem setSaturations_command (p : Planner K) : command p.setSaturations.2 = command p := by
  unfold Planner.setSaturations
  simp only
  split
  · rfl
  · split
    · rfl
    · split_ifs <;> rfl

theorem chooseSwing_command (p : Planner K) : command p.chooseSwing = command p := by
  unfold Planner.chooseSwing
  simp only
  split_ifs <;> rfl

theorem initReferences_command (p : Planner K) (left right : Foot K) (u : UState K) (tf t0 : K) :
    ∀ q ∈ (p.initReferences left right u tf t0).planner, command q = command p := by
  unfold Planner.initReferences
  intro q hq
  split_ifs at hq with h1
  · cases hq; rfl
  simp only at hq
  split at hq
  · cases hq; rfl
  · split_ifs at hq
    · split at hq
      · cases hq; rfl
      · cases hq
        exact chooseSwing_command _
    · cases hq
      exact chooseSwing_command _

theorem getInitialState_command (p : Planner K) (left right : Foot K) (t0 : K) :
    ∀ q ∈ (p.getInitialStateFromFeet left right t0).planner, command q = command p := by
  unfold Planner.getInitialStateFromFeet
  intro q hq
  have key : ∀ (b f : Bool) (u : UState K) (tf : K),
      q ∈ (Planner.initReferences { p with swingLeft := b, firstStep := f } left right u tf t0).planner → command q = command p :=
    fun b f u tf hq => initReferences_command { p with swingLeft := b, firstStep := f } left right u tf t0 q hq
  split at hq
  · split at hq
    · cases hq; rfl
    · cases hq
    · cases hq
      rw [chooseSwing_command]
  · split at hq
    · cases hq; rfl
    · exact key _ _ _ _ hq
  · split at hq
    · cases hq; rfl
    · exact key _ _ _ _ hq
  · split_ifs at hq <;> split at hq <;> first | (cases hq; rfl) | exact key _ _ _ _ hq

theorem initializePlanner_command (hi : KeepsCommand integ) (p : Planner K) (left right : Foot K) :
    ∀ q ∈ (p.initializePlanner integ left right).planner, command q = command p := by
  unfold Planner.initializePlanner
  intro q hq
  split at hq
  · rename_i l r _ _
    have key := getInitialState_command p l r p.initTime
    split at hq
    · rename_i e
      rw [e] at key
      cases hq
      exact key _ rfl
    · cases hq
    · rename_i e
      rw [e] at key
      have := key _ rfl
      rename_i p1 _ _ u
      have hk := hi p1 u p1.initTime p1.endTime
      split_ifs at hq
      · cases hq; exact this
      · split at hq
        · rename_i e'
          rw [e'] at hk
          cases hq
          simp only at hk
          rw [command, hk]; exact this
        · rename_i e'
          rw [e'] at hk
          cases hq
          simp only at hk
          rw [command, hk]; exact this
  · cases hq; rfl

theorem plan_command (p : Planner K) (sol : K → UState K) (fuel : Nat) (left right : Foot K) :
    ∀ q ∈ (p.plan sol fuel left right).planner, command q = command p := by
  unfold Planner.plan
  intro q hq
  split at hq
  · cases hq; rfl
  · split at hq
    · cases hq
    · cases hq; rfl
    · rename_i s _
      unfold Planner.finish at hq
      simp only at hq
      generalize (if p.addTerminal = true then
        Planner.addTerminalStep { p with swingLeft := s.swingLeft, firstStep := s.firstStep } s.swingLeft s.left s.right (sol p.endTime)
        else (true, s.left, s.right)) = r at hq
      obtain ⟨ok, l, r⟩ := r
      cases ok with
      | false => cases hq; rfl
      | true =>
        simp only at hq
        split_ifs at hq
        · unfold Planner.alignLastSteps at hq
          split at hq
          · split_ifs at hq <;> (cases hq; rfl)
          · cases hq
        · cases hq; rfl

theorem computeNewSteps_command (hi : KeepsCommand integ) (p : Planner K) (fuel : Nat) (left right : FootPrint K) (t0 t1 : K) :
    ∀ q ∈ (p.computeNewSteps integ fuel left right t0 t1).planner, command q = command p := by
  unfold Planner.computeNewSteps
  intro q hq
  split_ifs at hq
  · cases hq; rfl
  · cases hq; rfl
  · cases hq; rfl
  have hs := setSaturations_command { p with initTime := t0, endTime := t1 }
  split at hq
  · rename_i e
    rw [e] at hs
    cases hq
    exact hs
  · rename_i p1 e
    rw [e] at hs
    have key := fun p2 => initializePlanner_command hi p2 (Foot.new left) (Foot.new right)
    split at hq
    · rename_i h'
      cases hq
      exact (key _ _ (by rw [h']; rfl)).trans hs
    · cases hq
    · rename_i h'
      rw [plan_command _ _ _ _ _ q hq]
      exact (key _ _ (by rw [h']; rfl)).trans hs

theorem forward_before (hi : KeepsCommand integ) {ok : Bool} (h : p.computeNewSteps integ fuel left right t0 t1 = .done ok p' left' right')
    (hf : Forward p') : Straight p := by
  have h1 := computeNewSteps_command hi p fuel left right t0 t1 p' (by rw [h]; rfl)
  have h2 := Planner.C59_configuration_kept h
  have h3 : p'.controller = p.controller := by unfold SameConfig at h2; rw [h2]
  unfold command at h1
  unfold Forward at hf
  rw [h1, h3] at hf
  unfold Straight
  rcases hf with e | ⟨e, e'⟩
  · rw [e]; trivial
  · rw [e]; exact e'

/-! ## Walks -/

namespace Walker
variable {sort : Sorter K} {before old new w : Walker K} {c : Call K} {k m : Nat} {q : Request K} {time : K} {legs : List (Leg K)}

theorem members_planner {w w' : Walker K} (h : w.fromMembers time dT sort = .done true w') : w'.planner = w.planner := by
  unfold fromMembers at h
  split at h
  · rename_i e
    cases h
    obtain ⟨o, t, ht, e⟩ := fromFootPrints_true e
    obtain ⟨c, m, z, d, g, -, -, -, -, -, rfl⟩ := trajectories_true.mp e
    rfl
  · cases h
  · cases h

theorem due_eq (w : Walker K) : due w = dueOf w.planner w.left.steps w.right.steps := rfl

/-- The first walk, planned with no step. -/
theorem turns_first {fuel : Nat} {t0 t1 : K} (hpi : (0 : K) ≤ Trig.pi) (hi : KeepsCommand integ) (hb : Reached integ sort before)
    (h : before.call integ fuel sort (.generate t0 dT t1) = .done true w) (hl : before.left.steps = []) (hr : before.right.steps = [])
    (hmin : 0 < w.planner.minTime) (hf : Forward w.planner) (hreset : w.planner.resetStartingFoot = false) :
    InTurn (due w) w.left.steps w.right.steps := by
  rcases next_done h with ⟨w1, e1, e2⟩ | ⟨hf, -⟩
  swap
  · cases hf
  obtain ⟨n1, n2, -⟩ := members_made_by e2
  have hp := members_planner e2
  unfold Walker.plan at e1
  split at e1
  rotate_left
  · cases e1
  · cases e1
  rename_i b p' l' r' hc
  simp only [Result.done.injEq] at e1
  obtain ⟨rfl, rfl⟩ := e1
  simp only at n1 n2 hp
  have hsame := Planner.C59_configuration_kept hc
  obtain ⟨d, hd, hst, -⟩ := Planner.C95_after (hb.timed hpi) (by intro s hs; rw [hl] at hs; cases hs) (by intro s hs; rw [hr] at hs; cases hs) hc
  rw [hp] at hmin hf hreset
  have hstraight := forward_before hi hc hf
  have hmin' : 0 < before.planner.minTime := by
    unfold SameConfig at hsame; rw [hsame] at hmin; exact hmin
  have hreset' := (Planner.plan_resets hc).symm.trans hreset
  rcases hd.begins.steps with ⟨n, -, -⟩ | ⟨-, -, u, -, s1, s2⟩
  · exact absurd ⟨hl, hr⟩ n
  have hfirst : d.firstLeft = turn before.planner d.l0 d.r0 := by
    have := hd.begins.first
    rw [hl, hr] at this
    have e : d.firstLeft = firstSwing before.planner := by
      unfold Plan.firstLeft
      generalize d.q.swingLeft = x at *
      generalize d.q.firstStep = y at *
      simp only [List.getLast?_nil] at this
      cases this
      rfl
    rw [e, Planner.straight_first hstraight, Planner.turn_eq (l := stepOf (leftFoot before.planner before.left) u t0)
      (r := stepOf (rightFoot before.planner before.right) u t0) (by rw [s1]; rfl) (by rw [s2]; rfl)]
    simp [stepOf]
  have := plan_inTurn (hb.timed hpi) hmin' hreset' hd hst (a := stepOf (leftFoot before.planner before.left) u t0)
    (b := stepOf (rightFoot before.planner before.right) u t0) (by rw [s1]) (by rw [s2]) hfirst
  rw [due_eq, n1, n2, hp, this.2.1]
  exact this.1

/-- How a walk that replaces another one is planned; without measurements, from where the feet are. -/
theorem replanned_with (hpi : (0 : K) ≤ Trig.pi) (h : Merging integ sort before old new c k m q dT) (hL : NonNeg old.left) (hR : NonNeg old.right)
    (hmin : 0 < new.planner.minTime) :
    ∃ (p2 : Planner K) (fuel : Nat) (fl fr l' r' : FootPrint K) (t1 : K) (d : Plan K) (sL sR a b : Step K) (reset : Bool),
      Present old.left.steps (timeOf c m) sL ∧ Present old.right.steps (timeOf c m) sR ∧
      (old.dcm = none → reset = false) ∧
      (∀ p o s, old.dcm = some p → p.result = some o → o.samples[m]? = some s → reset = decide (s.vel.norm < 1 / 100000)) ∧
      (reset = true → a.impactTime = b.impactTime) ∧
      (reset = false → (∀ x y, q ≠ .steps x y) → a.impactTime = sL.impactTime ∧ b.impactTime = sR.impactTime) ∧
      Timed p2 ∧ 0 < p2.minTime ∧ fl.steps = [a] ∧ fr.steps = [b] ∧
      p2.computeNewSteps integ fuel fl fr (timeOf c m) t1 = .done true new.planner l' r' ∧
      new.left.steps = l'.steps ∧ new.right.steps = r'.steps ∧
      PlanOf p2 integ fl fr (timeOf c m) t1 l' r' d ∧ d.l0 = fl ∧ d.r0 = fr ∧
      new.planner.startLeft = (if p2.resetStartingFoot = true ∨ d.log ≠ [] then p2.startLeft else turn p2 d.l0 d.r0) ∧
      0 ≤ a.impactTime ∧ 0 ≤ b.impactTime ∧
      (q = .plain → a.position = sL.position ∧ a.angle = sL.angle ∧ b.position = sR.position ∧ b.angle = sR.angle) := by
  obtain ⟨fuel0, hg⟩ := h.generated
  obtain ⟨fuel, changes, weight, pos, vel, endTime, r1, r2, r3⟩ := h.replanned
  have hro : Reached integ sort old := .call _ _ _ _ _ h.reached hg
  obtain ⟨w1, ordered, t, hmo⟩ := call_made_by hg
  obtain ⟨p2, hp2⟩ := runAll_planner changes old
  have hrun : old.runAll (changes.map .planner ++ [.zmp (.setWeightInitialState weight), .dcm (.setDCMInitialState pos vel)]) =
      { old with planner := p2, zmp := Plugin.set old.zmp fun z => z.setWeightInitialState weight,
                 dcm := Plugin.set old.dcm fun d => (d.setDCMInitialState pos vel).2 } := by
    unfold runAll at hp2 ⊢
    rw [List.foldl_append, hp2]
    rfl
  have hr2 : Reached integ sort (old.runAll (changes.map .planner ++
      [.zmp (.setWeightInitialState weight), .dcm (.setDCMInitialState pos vel)])) := Reached.runAll _ hro
  have ht2 := hr2.timed hpi
  rw [hrun] at r3 ht2
  rcases next_done r3 with ⟨w3, e1, e2⟩ | ⟨hf, -⟩
  swap
  · cases hf
  obtain ⟨n1, n2, -⟩ := members_made_by e2
  have hp := members_planner e2
  unfold Walker.replan at e1
  split at e1
  rotate_left
  · cases e1
  · cases e1
  rename_i b p' l' r' prev hre
  simp only [Result.done.injEq] at e1
  obtain ⟨rfl, rfl⟩ := e1
  simp only at hre n1 n2 hp
  obtain ⟨sL, sR, reset, cL, cR, h1, h2, h3, h4, p1, p2', h5, h6⟩ := computeNewStepsFromMeasured_true hL hR hre
  have hsame := Planner.C59_configuration_kept h5
  obtain ⟨d, hd, hst, -⟩ := Planner.C95_after ht2 (by intro s hs; simp at hs; rw [hs]; exact p1)
    (by intro s hs; simp at hs; rw [hs]; exact p2') h5
  have hmin' : 0 < p2.minTime := by
    rw [hp] at hmin
    unfold SameConfig at hsame; rw [hsame] at hmin; exact hmin
  rcases hd.begins.steps with ⟨-, s1, s2⟩ | ⟨n, -⟩
  swap
  · simp at n
  refine ⟨p2, fuel, _, _, l', r', endTime, d, sL, sR, _, _, reset, h1, h2, ?_, ?_, ?_, ?_, ht2, hmin', rfl, rfl, by rw [hp]; exact h5,
    by rw [n1], by rw [n2], hd, s1, s2, by rw [hp]; exact hst, by exact p1, by exact p2', ?_⟩
  · intro hdcm
    simp only [dcmVelocity, hdcm, Plugin.set, Option.map_none, shouldReset] at h3
    cases h3; rfl
  · intro pd o s hdcm ho hs
    obtain ⟨s', hs', -, e⟩ := r2 pd o hdcm ho
    rw [hs] at hs'
    cases hs'
    simp only [dcmVelocity, hdcm, Plugin.set, Option.map_some, shouldReset, Dcm.setDCMInitialState] at h3
    rw [e]
    exact (Out.ok.inj h3).symm
  · intro e
    rw [e] at h4
    unfold editedSteps at h4
    simp only [if_true] at h4
    obtain ⟨a1, a2⟩ := Prod.mk.inj h4
    rw [a1, a2]
  · intro e hq
    rw [e] at h4
    have times := editedSteps_times (t0 := timeOf c m) q hq old.left.footName old.right.footName
      { sL with footName := old.left.footName } { sR with footName := old.right.footName }
    rw [← h4] at times
    exact times
  · rintro rfl
    have key : ∀ (pL pR : Step K), (cL, cR) = editedSteps (timeOf c m) ((Request.plain : Request K).measuredLeft (timeOf c m) old.left.footName)
        ((Request.plain : Request K).measuredRight (timeOf c m) old.right.footName) (Request.plain : Request K).correction reset pL pR →
        cL.position = pL.position ∧ cL.angle = pL.angle ∧ cR.position = pR.position ∧ cR.angle = pR.angle := by
      intro pL pR he
      unfold editedSteps at he
      simp only [Request.correction, Correction.editsLeft, Correction.editsRight] at he
      cases reset <;> simp at he <;> (try split_ifs at he) <;> (obtain ⟨rfl, rfl⟩ := he; exact ⟨rfl, rfl, rfl, rfl⟩)
    have := key _ _ h4
    exact this

/-- How a walk that replaces another one is planned. -/
theorem replanned_as (hpi : (0 : K) ≤ Trig.pi) (h : Merging integ sort before old new c k m q dT) (hL : NonNeg old.left) (hR : NonNeg old.right)
    (hmin : 0 < new.planner.minTime) :
    ∃ (p2 : Planner K) (fuel : Nat) (fl fr l' r' : FootPrint K) (t1 : K) (d : Plan K) (sL sR a b : Step K) (reset : Bool),
      Present old.left.steps (timeOf c m) sL ∧ Present old.right.steps (timeOf c m) sR ∧
      (old.dcm = none → reset = false) ∧
      (∀ p o s, old.dcm = some p → p.result = some o → o.samples[m]? = some s → reset = decide (s.vel.norm < 1 / 100000)) ∧
      (reset = true → a.impactTime = b.impactTime) ∧
      (reset = false → (∀ x y, q ≠ .steps x y) → a.impactTime = sL.impactTime ∧ b.impactTime = sR.impactTime) ∧
      Timed p2 ∧ 0 < p2.minTime ∧ fl.steps = [a] ∧ fr.steps = [b] ∧
      p2.computeNewSteps integ fuel fl fr (timeOf c m) t1 = .done true new.planner l' r' ∧
      new.left.steps = l'.steps ∧ new.right.steps = r'.steps ∧
      PlanOf p2 integ fl fr (timeOf c m) t1 l' r' d ∧ d.l0 = fl ∧ d.r0 = fr ∧
      new.planner.startLeft = (if p2.resetStartingFoot = true ∨ d.log ≠ [] then p2.startLeft else turn p2 d.l0 d.r0) := by
  obtain ⟨p2, fuel, fl, fr, l', r', t1, d, sL, sR, a, b, reset, h1, h2, c1, c2, c3, c4, ht2, hmin', f1, f2, h5, n1, n2, hd, s1, s2, hst, -⟩ :=
    replanned_with hpi h hL hR hmin
  exact ⟨p2, fuel, fl, fr, l', r', t1, d, sL, sR, a, b, reset, h1, h2, c1, c2, c3, c4, ht2, hmin', f1, f2, h5, n1, n2, hd, s1, s2, hst⟩

/-- A walk that replaces another one: whose turn it is depends on the contacts at the time. -/
theorem turns_next (hpi : (0 : K) ≤ Trig.pi) (hi : KeepsCommand integ) (h : Merging integ sort before old new c k m q dT)
    (hL : NonNeg old.left) (hR : NonNeg old.right) (hmin : 0 < new.planner.minTime) (hf : Forward new.planner)
    (hreset : new.planner.resetStartingFoot = false) {start : K} (hk : KeepsTimes ⟨old, start, m, q⟩) :
    InTurn (due new) new.left.steps new.right.steps ∧
    ∃ sL sR, Present old.left.steps (timeOf c m) sL ∧ Present old.right.steps (timeOf c m) sR ∧
      due new = if sL.impactTime < sR.impactTime then true else if sR.impactTime < sL.impactTime then false else new.planner.startLeft := by
  obtain ⟨fuel0, hg⟩ := h.generated
  obtain ⟨w1, ordered, t, hmo⟩ := call_made_by hg
  obtain ⟨p2, fuel, fl, fr, l', r', t1, d, sL, sR, a, b, reset, h1, h2, c1, c2, -, c4, ht2, hmin', f1, f2, h5, n1, n2, hd, s1, s2, hst⟩ :=
    replanned_as hpi h hL hR hmin
  have hno : reset = false := by
    cases hdcm : old.dcm with
    | none => exact c1 hdcm
    | some pd =>
      obtain ⟨-, o, -, ho, -⟩ := hmo.dcm pd hdcm
      obtain ⟨fuel, changes, weight, pos, vel, endTime, r1, r2, r3⟩ := h.replanned
      obtain ⟨s, hs, -⟩ := r2 pd o hdcm ho
      rw [c2 pd o s hdcm ho hs]
      simpa using hk.2 pd o s hdcm ho hs
  obtain ⟨e1, e2⟩ := c4 hno hk.1
  have hstraight := forward_before hi h5 hf
  have hreset' := (Planner.plan_resets h5).symm.trans hreset
  have hfirst : d.firstLeft = turn p2 d.l0 d.r0 := by
    rw [s1, s2]
    exact Planner.firstFoot_turn hstraight (by rw [f1]; simp) (by rw [f2]; simp) hd.begins.first
  have key := plan_inTurn ht2 hmin' hreset' hd hst (by rw [s1]; exact f1) (by rw [s2]; exact f2) hfirst
  have hdue : due new = turn p2 d.l0 d.r0 := by rw [due_eq, n1, n2]; exact key.2.1
  refine ⟨by rw [hdue, n1, n2]; exact key.1, sL, sR, h1, h2, ?_⟩
  rw [hdue, Planner.turn_eq (l := a) (r := b) (by rw [s1, f1]; rfl) (by rw [s2, f2]; rfl)]
  have tie := key.2.2
  rw [e1, e2] at tie ⊢
  rcases lt_trichotomy sL.impactTime sR.impactTime with hlt | he | hlt
  · simp [hlt]
  · simp [he, tie he]
  · simp [hlt, not_lt.mpr hlt.le]

/-- A walk that replaces another one while the DCM is at rest begins with the configured foot. -/
theorem turns_at_rest (hpi : (0 : K) ≤ Trig.pi) (hi : KeepsCommand integ) (h : Merging integ sort before old new c k m q dT)
    (hL : NonNeg old.left) (hR : NonNeg old.right) (hmin : 0 < new.planner.minTime) (hf : Forward new.planner) {p : Plugin (Dcm K) (DcmOut K)}
    {o : DcmOut K} {s : DcmSample K} (hd : old.dcm = some p) (ho : p.result = some o) (hs : o.samples[m]? = some s)
    (hv : s.vel.norm < 1 / 100000) : InTurn new.planner.startLeft new.left.steps new.right.steps := by
  obtain ⟨p2, fuel, fl, fr, l', r', t1, d, sL, sR, a, b, reset, h1, h2, -, c2, c3, -, ht2, hmin', f1, f2, h5, n1, n2, hd, s1, s2, hst⟩ :=
    replanned_as hpi h hL hR hmin
  have htie := c3 (by rw [c2 p o s ‹_› ho hs]; simpa using hv)
  have hstraight := forward_before hi h5 hf
  have hturn : turn p2 d.l0 d.r0 = p2.startLeft := by
    rw [Planner.turn_eq (l := a) (r := b) (by rw [s1, f1]; rfl) (by rw [s2, f2]; rfl), htie]
    simp
  have hfirst : d.firstLeft = turn p2 d.l0 d.r0 := by
    rw [s1, s2]
    exact Planner.firstFoot_turn hstraight (by rw [f1]; simp) (by rw [f2]; simp) hd.begins.first
  have := plan_turns ht2 hmin' hd (by rw [s1]; exact f1) (by rw [s2]; exact f2)
  rw [hfirst, hturn, ← n1, ← n2] at this
  rw [hst, hturn, ite_self]
  exact this

/-- In every walk that replaces another one the contacts are made in turns. -/
theorem alternating_next (hpi : (0 : K) ≤ Trig.pi) (h : Merging integ sort before old new c k m q dT)
    (hL : NonNeg old.left) (hR : NonNeg old.right) (hmin : 0 < new.planner.minTime) : Alternating new.left.steps new.right.steps := by
  obtain ⟨p2, fuel, fl, fr, l', r', t1, d, sL, sR, a, b, reset, -, -, -, -, -, -, ht2, hmin', f1, f2, h5, n1, n2, hd, s1, s2, -⟩ :=
    replanned_as hpi h hL hR hmin
  rw [n1, n2]
  exact InTurn.alternating (plan_turns ht2 hmin' hd (by rw [s1]; exact f1) (by rw [s2]; exact f2))

theorem supports_eq {w1 : Walker K} (hm : MadeBy w1 w time dT sorted ordered t) {l r : Step K} {tt : Timetable}
    (hr : Run w.cfg w.left w.right time dT sorted ordered t l r tt) : supportsOf w = supp tt.slots tt.rest := by
  unfold supportsOf
  rw [hm.outputs, ← supp_eq, hr.built.left, hr.built.right]

/-- One walk: which feet leave the ground. -/
theorem takeoffs_walk (hs : SortedPtrs w.left w.right sorted) {w1 : Walker K} (hm : MadeBy w1 w time dT sorted ordered t)
    (hpos : t.shifts.Pairwise (· < ·)) {b : Bool} (ht : InTurn b w.left.steps w.right.steps) :
    Turns b (takeoffs (supportsOf w)) ∧ ∃ rest, supportsOf w = (true, true) :: rest := by
  obtain ⟨l, r, tt, hr⟩ := timeline_ok hm.made
  have hp : tt.Positive := positive_of_shifts (by rw [← hr.built.shifts]; exact hpos)
  rw [supports_eq hm hr, takeoffs_supp hp.1 hp.2]
  exact ⟨slots_turns hs hm.made hr ht, supp_head hp.1 hp.2⟩

/-- A walk begins with both feet on the ground. -/
theorem starts_standing {w1 : Walker K} (hm : MadeBy w1 w time dT sorted ordered t) (hpos : t.shifts.Pairwise (· < ·)) :
    ∃ rest, supportsOf w = (true, true) :: rest := by
  obtain ⟨l, r, tt, hr⟩ := timeline_ok hm.made
  have hp : tt.Positive := positive_of_shifts (by rw [← hr.built.shifts]; exact hpos)
  rw [supports_eq hm hr]
  exact supp_head hp.1 hp.2

/-- One walk: every step after the first two is a take-off of the foot that makes it. -/
theorem takeoffs_count (hs : SortedPtrs w.left w.right sorted) {w1 : Walker K} (hm : MadeBy w1 w time dT sorted ordered t)
    (hpos : t.shifts.Pairwise (· < ·)) : ∀ f : Bool, (takeoffs (supportsOf w)).countP (· == f) + 1 =
      (if f then w.left.steps else w.right.steps).length := by
  obtain ⟨l, r, tt, hr⟩ := timeline_ok hm.made
  have hp : tt.Positive := positive_of_shifts (by rw [← hr.built.shifts]; exact hpos)
  obtain ⟨-, h2, h3, -⟩ := C37_all_steps hs hm.made
  have : tt.slots.map Slot.left = (ordered.drop 2).map Ptr.left := by
    rcases hr.built.cases with ⟨h2, hn, -⟩ | ⟨-, ms, hsl, -⟩
    · rw [hn, List.drop_of_length_le (by omega)]; rfl
    · exact slots_left hsl
  intro f
  rw [supports_eq hm hr, takeoffs_supp hp.1 hp.2, this, List.countP_map]
  cases f
  · exact h3
  · exact h2

/-- One walk, up to where it is left: which feet leave the ground, and on which contacts they are then. -/
theorem takeoffs_stand (hs : SortedPtrs w.left w.right sorted) {w1 : Walker K} (hm : MadeBy w1 w time dT sorted ordered t)
    (hpos : t.shifts.Pairwise (· < ·)) {start : K}
    (hl : LeftStanding ⟨w, start, m, q⟩) {sL sR : Step K} (hL : Present w.left.steps ((m : K) * dT + time) sL)
    (hR : Present w.right.steps ((m : K) * dT + time) sR) :
    ∃ n, n ≤ (takeoffs (supportsOf w)).length ∧ takeoffs ((supportsOf w).take m) = (takeoffs (supportsOf w)).take n ∧
      ∀ f : Bool, (if f then w.left.steps else w.right.steps)[((takeoffs (supportsOf w)).take n).countP (· == f)]? =
        some (if f then sL else sR) := by
  obtain ⟨l, r, tt, hr⟩ := timeline_ok hm.made
  have hp : tt.Positive := positive_of_shifts (by rw [← hr.built.shifts]; exact hpos)
  have hsupp := supports_eq hm hr
  obtain ⟨⟨d1, d2⟩, d3⟩ := hl
  simp only at d1 d2 d3
  have hzip : ∀ j, BothDown w j → (supp tt.slots tt.rest)[j]? = some (true, true) := by
    intro j hj
    rw [← hsupp, supportsOf, List.getElem?_zip_eq_some]
    exact hj
  have hlen : m < t.left.length := by
    rw [hm.outputs] at d1
    have := (List.getElem?_eq_some_iff.mp d1).1
    simpa [contacts] using this
  have hnot : ∀ i, i + 1 = m → t.left[i]? ≠ some .swing ∧ t.right[i]? ≠ some .swing := by
    intro i hi
    obtain ⟨a, b⟩ := d3 i hi
    rw [hm.outputs] at a b
    constructor
    · intro e; simp [contacts, e] at a
    · intro e; simp [contacts, e] at b
  obtain ⟨i, i1, i2, i3, i4⟩ := takeoffs_take hp.1 hp.2 m (List.getElem?_eq_some_iff.mp (hzip m ⟨d1, d2⟩)).1 fun j hj => hzip j (d3 j hj)
  have hst := stands_after hs hm.made hpos hr m hlen hnot hL hR i i1 i3 i4
  rw [hsupp, takeoffs_supp hp.1 hp.2, i2]
  refine ⟨i, by simpa using i1, by rw [List.map_take], fun f => ?_⟩
  rw [← hst f, ← List.map_take, List.countP_map]
  rfl

/-- One walk, up to where it is left: which feet leave the ground, and whose turn it is then. -/
theorem takeoffs_left (hs : SortedPtrs w.left w.right sorted) {w1 : Walker K} (hm : MadeBy w1 w time dT sorted ordered t)
    (hpos : t.shifts.Pairwise (· < ·)) {b : Bool} (ht : InTurn b w.left.steps w.right.steps) {start : K}
    (hl : LeftStanding ⟨w, start, m, q⟩) {sL sR : Step K} (hL : Present w.left.steps ((m : K) * dT + time) sL)
    (hR : Present w.right.steps ((m : K) * dT + time) sR) :
    Turns b (takeoffs ((supportsOf w).take m)) ∧
    (takeoffs ((supportsOf w).take m) = [] → w.left.steps.head? = some sL ∧ w.right.steps.head? = some sR) ∧
    (takeoffs ((supportsOf w).take m) ≠ [] →
      if flipped b (takeoffs ((supportsOf w).take m)).length then sL.impactTime < sR.impactTime else sR.impactTime < sL.impactTime) := by
  obtain ⟨l, r, tt, hr⟩ := timeline_ok hm.made
  have hp : tt.Positive := positive_of_shifts (by rw [← hr.built.shifts]; exact hpos)
  have hsupp := supports_eq hm hr
  obtain ⟨⟨d1, d2⟩, d3⟩ := hl
  simp only at d1 d2 d3
  have hzip : ∀ j, BothDown w j → (supp tt.slots tt.rest)[j]? = some (true, true) := by
    intro j hj
    rw [← hsupp, supportsOf, List.getElem?_zip_eq_some]
    exact hj
  have hlen : m < t.left.length := by
    rw [hm.outputs] at d1
    have := (List.getElem?_eq_some_iff.mp d1).1
    simpa [contacts] using this
  have hnot : ∀ i, i + 1 = m → t.left[i]? ≠ some .swing ∧ t.right[i]? ≠ some .swing := by
    intro i hi
    obtain ⟨a, b⟩ := d3 i hi
    rw [hm.outputs] at a b
    constructor
    · intro e; simp [contacts, e] at a
    · intro e; simp [contacts, e] at b
  obtain ⟨i, i1, i2, i3, i4⟩ := takeoffs_take hp.1 hp.2 m (List.getElem?_eq_some_iff.mp (hzip m ⟨d1, d2⟩)).1 fun j hj => hzip j (d3 j hj)
  obtain ⟨c1, c2⟩ := contacts_after hs hm.made hpos hr m hlen hnot hL hR i i1 i3 i4
  have hturns := slots_turns hs hm.made hr ht
  have hlen' : ((tt.slots.take i).map Slot.left).length = i := by simp [i1]
  rw [hsupp, i2]
  refine ⟨by rw [List.map_take]; exact Turns.take i hturns, fun h0 => ?_, fun h0 => ?_⟩
  · have : i = 0 := by rw [h0] at hlen'; simpa using hlen'.symm
    obtain ⟨rfl, rfl⟩ := c1 this
    exact ⟨hr.headL, hr.headR⟩
  · rw [hlen']
    obtain ⟨n, rfl⟩ : ∃ n, i = n + 1 := ⟨i - 1, by
      have : i ≠ 0 := by rintro rfl; simp at h0
      omega⟩
    have hn : n < tt.slots.length := by omega
    have hx : tt.slots[n]? = some tt.slots[n] := List.getElem?_eq_getElem hn
    have e := Turns.get hturns (n := n) (x := tt.slots[n].left) (by rw [List.getElem?_map, hx]; rfl)
    have := c2 n _ rfl hx
    rw [e] at this
    rw [flipped]
    cases hfl : flipped b n <;> simpa [hfl] using this

theorem takeoffs_append_walk {pre l : List (Bool × Bool)} (h : l = [] ∨ ∃ rest, l = (true, true) :: rest) :
    takeoffs (pre ++ l) = takeoffs pre ++ takeoffs l := by
  rcases h with rfl | ⟨rest, rfl⟩
  · simp [takeoffs]
  · exact takeoffs_joint _ _

/-- The walks, and the feet that have left the ground before the one in execution. -/
theorem turns_everywhere (hpi : (0 : K) ≤ Trig.pi) (hi : KeepsCommand integ) (hsort : ∀ l r, SortedPtrs l r (sort l r))
    (h : Walking integ sort dT legs w time)
    (htimes : Everywhere (fun w _ => NonNeg w.left ∧ NonNeg w.right) legs w time)
    (hphases : Everywhere (fun w time => NoEmptyPhase sort w time dT) legs w time)
    (hmin : Everywhere (fun w _ => 0 < w.planner.minTime ∧ Forward w.planner ∧ w.planner.resetStartingFoot = false) legs w time)
    (hleft : ∀ l ∈ legs, LeftStanding l ∧ KeepsTimes l)
    (hstart : (legs.map (·.walk) ++ [w]).IsChain KeepsStart)
    (hfirst : InTurn (due (firstWalk legs w)) (firstWalk legs w).left.steps (firstWalk legs w).right.steps) :
    (∀ l ∈ legs, InTurn (due l.walk) l.walk.left.steps l.walk.right.steps) ∧ InTurn (due w) w.left.steps w.right.steps ∧
    Turns (due (firstWalk legs w)) (takeoffs (legs.flatMap fun l => (supportsOf l.walk).take l.count)) ∧
    due w = flipped (due (firstWalk legs w)) (takeoffs (legs.flatMap fun l => (supportsOf l.walk).take l.count)).length := by
  induction h with
  | start hr hg hd => exact ⟨by simp, hfirst, trivial, rfl⟩
  | @again legs before old new c k m q hw hd hm ih =>
    obtain ⟨t1, t2⟩ := everywhere_snoc htimes
    obtain ⟨p1, p2⟩ := everywhere_snoc hphases
    obtain ⟨m1, m2⟩ := everywhere_snoc hmin
    have hchain : (legs.map (·.walk) ++ [old]).IsChain KeepsStart := by
      rw [List.map_append, List.map_singleton] at hstart
      exact hstart.left_of_append
    have hkeep : KeepsStart old new := by
      rw [List.map_append, List.map_singleton, List.append_assoc] at hstart
      have := hstart.right_of_append
      simpa using this
    have hfw : firstWalk (legs ++ [⟨old, (timesOf c).1, m, q⟩]) new = firstWalk legs old := by
      cases legs <;> simp [firstWalk]
    rw [hfw] at hfirst ⊢
    obtain ⟨i1, i2, i3, i4⟩ := ih t1 p1 m1 (fun l hl => hleft l (by simp [hl])) hchain hfirst
    obtain ⟨l1, l2⟩ := hleft ⟨old, (timesOf c).1, m, q⟩ (by simp)
    obtain ⟨n1, sL, sR, n2, n3, n4⟩ := turns_next hpi hi hm t1.2.1 t1.2.2 m2.1 m2.2.1 m2.2.2 l2
    obtain ⟨w1, ordered, t, hro, hmo⟩ := walking_made hw
    have hpos := p1.2 _ _ hmo.made
    have e : timeOf c m = (m : K) * dT + (timesOf c).1 := by unfold timeOf; rw [hd]
    rw [e] at n2 n3
    obtain ⟨a1, a2, a3⟩ := takeoffs_left (hsort _ _) hmo hpos i2 l1 n2 n3
    obtain ⟨-, rest, hrest⟩ := takeoffs_walk (hsort _ _) hmo hpos i2
    have hsplit : takeoffs ((legs ++ [(⟨old, (timesOf c).1, m, q⟩ : Leg K)]).flatMap fun l => (supportsOf l.walk).take l.count) =
        takeoffs (legs.flatMap fun l => (supportsOf l.walk).take l.count) ++ takeoffs ((supportsOf old).take m) := by
      rw [List.flatMap_append, List.flatMap_singleton]
      refine takeoffs_append_walk ?_
      cases m with
      | zero => left; simp
      | succ m => right; rw [hrest, List.take_succ_cons]; exact ⟨_, rfl⟩
    rw [hsplit, List.length_append, flipped_add, ← i4]
    refine ⟨fun l hl => ?_, n1, Turns.append i3 (by rw [← i4]; exact a1), ?_⟩
    · rcases List.mem_append.mp hl with hl | hl
      · exact i1 l hl
      · simp at hl; rw [hl]; exact i2
    · rw [n4]
      by_cases h0 : takeoffs ((supportsOf old).take m) = []
      · obtain ⟨b1, b2⟩ := a2 h0
        rw [h0, List.length_nil, flipped, due, b1, b2]
        simp only
        rcases lt_trichotomy sL.impactTime sR.impactTime with hlt | he | hlt
        · simp [hlt]
        · have := hkeep fun l r hl hr => by
            rw [b1] at hl; rw [b2] at hr; cases hl; cases hr; exact he
          simp [he, this]
        · simp [hlt, not_lt.mpr hlt.le]
      · have := a3 h0
        cases hfl : flipped (due old) (takeoffs ((supportsOf old).take m)).length with
        | true => rw [hfl] at this; simp only [if_true] at this; simp [this]
        | false =>
          rw [hfl] at this
          simp only [Bool.false_eq_true, if_false] at this
          simp [this, not_lt.mpr this.le]

end Walker
end

end Uni
