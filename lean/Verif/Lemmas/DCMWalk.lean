import Verif.Lemmas.DCM
import Verif.Lemmas.ZMPSteps

/-! # The trajectory of the DCM over a timeline -/

set_option autoImplicit false
set_option linter.unusedSectionVars false

namespace Uni
open Spec Gen
namespace Dcm

variable {K : Type} [Field K] [LinearOrder K] [IsStrictOrderedRing K] [FloorRing K] [Trig K]
variable {cfg : GenSettings K} {left right : FootPrint K} {initTime dT : K} {sorted ordered : List (Ptr K)} {t : Timing K}

theorem slot_ptr {l r : Step K} {tt : Timetable} (hr : Run cfg left right initTime dT sorted ordered t l r tt) {k : Nat} {x : Slot}
    (hk : tt.slots[k]? = some x) : ∃ q : Ptr K, ordered[k + 2]? = some q ∧ q.left = x.left := by
  rcases hr.built.cases with ⟨-, hn, -⟩ | ⟨-, ms, hsl, -⟩
  · rw [hn] at hk; simp at hk
  have : (tt.slots.map Slot.left)[k]? = some x.left := by rw [List.getElem?_map, hk]; rfl
  rw [slots_left hsl, List.getElem?_map, Option.map_eq_some_iff] at this
  obtain ⟨q, q1, q2⟩ := this
  exact ⟨q, by rw [List.getElem?_drop, Nat.add_comm] at q1; exact q1, q2⟩

theorem slots_length (hs : SortedPtrs left right sorted) {l r : Step K} {tt : Timetable} (hr : Run cfg left right initTime dT sorted ordered t l r tt) :
    ordered.length = tt.slots.length + 2 := by
  rcases hr.built.cases with ⟨h2, hn, -⟩ | ⟨h2, ms, hsl, -⟩
  · rw [h2, hn]; rfl
  have := congrArg List.length (slots_left hsl)
  rw [List.length_map, List.length_map, List.length_drop] at this
  have h3 : (ordered.take 2).length = 2 := by rcases hr.front hs with hf | hf <;> rw [hf] <;> rfl
  rw [List.length_take] at h3
  omega

theorem slots_count_steps (hs : SortedPtrs left right sorted) {l r : Step K} {tt : Timetable}
    (hr : Run cfg left right initTime dT sorted ordered t l r tt) (f : Bool) :
    tt.slots.countP (fun x => x.left == f) + 1 = (if f then left.steps else right.steps).length := by
  have hcnt := hr.counts hs
  rcases hr.built.cases with ⟨h2, h3, -⟩ | ⟨-, ms, hsl, -⟩
  · rw [h3, List.countP_nil]
    rw [List.drop_of_length_le (by omega)] at hcnt
    cases f
    · exact hcnt.2
    · exact hcnt.1
  · rw [slots_count hsl f]
    cases f
    · exact hcnt.2
    · exact hcnt.1

theorem ordered_le (hs : SortedPtrs left right sorted) (h : timeline cfg left right initTime dT sorted = .ok (ordered, t))
    {i j : Nat} {a b : Ptr K} (hi : ordered[i]? = some a) (hj : ordered[j]? = some b) (hij : i ≤ j) :
    a.step.impactTime ≤ b.step.impactTime := by
  obtain ⟨-, hsort, -⟩ := C39_ordered hs h
  obtain ⟨a1, a2⟩ := List.getElem?_eq_some_iff.mp hi
  obtain ⟨b1, b2⟩ := List.getElem?_eq_some_iff.mp hj
  rcases Nat.eq_or_lt_of_le hij with rfl | hlt
  · rw [← a2, ← b2]
  · rw [← a2, ← b2]; exact List.pairwise_iff_getElem.mp hsort i j a1 b1 hlt

/-- If the first two impact times coincide, the second and the third step are not of the same foot. -/
theorem orderSteps_tie {sorted : List (Ptr K)} {a b c : Ptr K} {rest : List (Ptr K)}
    (h : orderSteps sorted = .ok (a :: b :: c :: rest)) (he : a.step.impactTime = b.step.impactTime)
    (hn : a.step.footName ≠ b.step.footName) : b.step.footName ≠ c.step.footName := by
  intro hbc
  unfold orderSteps at h
  split at h
  · cases h
  · cases h
  · split_ifs at h
    split at h
    · cases h
    · split_ifs at h with h2
      · cases h
        exact hn (hbc.trans h2.2.symm).symm
      · cases h
        exact h2 ⟨he, hbc⟩

/-- The two feet of the first single support: the step before the first one to land is of the other foot. -/
theorem first_other (hs : SortedPtrs left right sorted) (h : timeline cfg left right initTime dT sorted = .ok (ordered, t))
    (hl : Named left) (hrn : Named right) (ha : TakeTurns left.steps right.steps) {p q : Ptr K} (hp : ordered[1]? = some p)
    (hq : ordered[2]? = some q) : p.left ≠ q.left := by
  intro hpq
  obtain ⟨l, r, tt, hr⟩ := timeline_ok h
  obtain ⟨hperm, -⟩ := C39_ordered hs h
  obtain ⟨h1, -⟩ := C37_all_steps hs h
  obtain ⟨b1, b2⟩ := h1 0 q hq
  simp only [List.take_zero, List.countP_nil, Nat.add_zero] at b1
  rw [b1] at b2
  have hr0 := hr.headR
  have hl0 := hr.headL
  rw [List.head?_eq_getElem?] at hr0 hl0
  match hord : ordered, hp, hq with
  | o :: p' :: q' :: rest, hp, hq =>
    simp only [List.getElem?_cons_succ, List.getElem?_cons_zero, Option.some.injEq] at hp hq
    subst hp hq
    -- the first two steps tie
    have tie : (∃ s ∈ (o :: p' :: q' :: rest).map Ptr.step, p'.step.impactTime ≤ s.impactTime ∧
        s.impactTime < q'.step.impactTime ∧ s ∈ (if q'.left then right.steps else left.steps)) →
        (o.step ∈ (if q'.left then right.steps else left.steps)) → p'.step ∈ (if q'.left then left.steps else right.steps) →
        q'.step ∈ (if q'.left then left.steps else right.steps) → False := by
      rintro ⟨s, s1, s2, s3, s4⟩ ho hp hq
      have hnames : ∀ x ∈ (if q'.left then left.steps else right.steps), x.footName = if q'.left then left.footName else right.footName := by
        cases q'.left
        · exact hrn
        · exact hl
      have hnames' : ∀ x ∈ (if q'.left then right.steps else left.steps), x.footName = if q'.left then right.footName else left.footName := by
        cases q'.left
        · exact hl
        · exact hrn
      have hne : (if q'.left then right.footName else left.footName) ≠ (if q'.left then left.footName else right.footName) := by
        cases q'.left
        · exact hr.names
        · exact hr.names.symm
      obtain ⟨y, y1, rfl⟩ := List.mem_map.mp s1
      obtain ⟨i, hi⟩ := List.getElem?_of_mem y1
      have hop : o.step.impactTime = p'.step.impactTime := by
        refine le_antisymm (ordered_le hs h (i := 0) (j := 1) rfl rfl (by omega)) ?_
        rcases Nat.lt_or_ge i 1 with h0 | h0
        · rw [show i = 0 by omega] at hi
          simp only [List.getElem?_cons_zero, Option.some.injEq] at hi
          rw [hi]; exact s2
        · rcases Nat.lt_or_ge i 2 with h0' | h0'
          · rw [show i = 1 by omega] at hi
            simp only [List.getElem?_cons_zero, List.getElem?_cons_succ, Option.some.injEq] at hi
            exfalso
            rw [← hi] at s4
            exact hne ((hnames' _ s4).symm.trans (hnames _ hp))
          · exact absurd (ordered_le hs h (i := 2) (j := i) rfl hi h0') (not_le.mpr s3)
      refine orderSteps_tie hr.order hop ?_ ?_
      · rw [hnames' _ ho, hnames _ hp]; exact hne
      · rw [hnames _ hp, hnames _ hq]
    rcases hr.front hs with hf | hf
    · simp only [List.take_succ_cons, List.take_zero, List.cons.injEq, and_true] at hf
      obtain ⟨f1, f2⟩ := hf
      have e : q'.left = false := by rw [← hpq, f2]
      rw [e, f1, f2] at tie
      rw [e] at b2
      simp only [Bool.false_eq_true, if_false] at tie b2
      obtain ⟨s, s1, s2, s3⟩ := ha.firstR r q'.step hr0 b2
      exact tie ⟨s, by rw [← f1, ← f2, hperm.mem_iff, List.mem_append]; exact Or.inl s1, s2, s3, s1⟩ (List.mem_of_getElem? hl0)
        (List.mem_of_getElem? hr0) (List.mem_of_getElem? b2)
    · simp only [List.take_succ_cons, List.take_zero, List.cons.injEq, and_true] at hf
      obtain ⟨f1, f2⟩ := hf
      have e : q'.left = true := by rw [← hpq, f2]
      rw [e, f1, f2] at tie
      rw [e] at b2
      simp only [if_true] at tie b2
      obtain ⟨s, s1, s2, s3⟩ := ha.firstL l q'.step hl0 b2
      exact tie ⟨s, by rw [← f1, ← f2, hperm.mem_iff, List.mem_append]; exact Or.inr s1, s2, s3, s1⟩ (List.mem_of_getElem? hr0)
        (List.mem_of_getElem? hl0) (List.mem_of_getElem? b2)

/-- The step before the one that lands at the end of a single support is the contact on which the other foot stands. -/
theorem stance_step (hs : SortedPtrs left right sorted) (h : timeline cfg left right initTime dT sorted = .ok (ordered, t))
    {l r : Step K} {tt : Timetable} (hr : Run cfg left right initTime dT sorted ordered t l r tt)
    (hl : Named left) (hrn : Named right) (ha : TakeTurns left.steps right.steps) {k : Nat} {x : Slot}
    (hk : tt.slots[k]? = some x) {p : Ptr K} (hp : ordered[k + 1]? = some p) :
    p.left = !x.left ∧
    (if x.left then right.steps else left.steps)[(tt.slots.take k).countP (fun y => y.left == !x.left)]? = some p.step := by
  obtain ⟨q, q1, q2⟩ := slot_ptr hr hk
  obtain ⟨h1, -⟩ := C37_all_steps hs h
  cases k with
  | zero =>
    have hne := first_other hs h hl hrn ha hp q1
    rw [q2] at hne
    have e : p.left = !x.left := by
      revert hne; cases p.left <;> cases x.left <;> simp
    refine ⟨e, ?_⟩
    have hr0 := hr.headR
    have hl0 := hr.headL
    rw [List.head?_eq_getElem?] at hr0 hl0
    simp only [List.take_zero, List.countP_nil]
    have hp' : (ordered.take 2)[1]? = some p := by rw [List.getElem?_take]; simpa using hp
    rcases hr.front hs with hf | hf
    · rw [hf] at hp'
      simp only [List.getElem?_cons_zero, List.getElem?_cons_succ, Option.some.injEq] at hp'
      rw [← hp'] at e ⊢
      simp only [Bool.false_eq, Bool.not_eq_false'] at e
      rw [e]; exact hr0
    · rw [hf] at hp'
      simp only [List.getElem?_cons_zero, List.getElem?_cons_succ, Option.some.injEq] at hp'
      rw [← hp'] at e ⊢
      simp only [Bool.true_eq, Bool.not_eq_true'] at e
      rw [e]; exact hl0
  | succ k =>
    have hkl : k < tt.slots.length := by have := (List.getElem?_eq_some_iff.mp hk).1; omega
    have hky : tt.slots[k]? = some tt.slots[k] := List.getElem?_eq_getElem hkl
    have hne := Zmp.slots_alternate hs h hr ha.later k _ x hky hk
    obtain ⟨q', q1', q2'⟩ := slot_ptr hr hky
    rw [show k + 1 + 1 = k + 2 by omega, q1'] at hp
    cases hp
    obtain ⟨a1, a2⟩ := h1 k p q1'
    have e : p.left = !x.left := by
      rw [q2']; revert hne; cases tt.slots[k].left <;> cases x.left <;> simp
    refine ⟨e, ?_⟩
    have hc : (tt.slots.take (k + 1)).countP (fun y => y.left == !x.left) = p.index := by
      rw [← e, q2', countP_take_succ (fun y : Slot => y.left == tt.slots[k].left) tt.slots hky (by simp), a1, q2', Nat.add_comm]
      congr 1
      rcases hr.built.cases with ⟨-, hn, -⟩ | ⟨-, ms, hsl, -⟩
      · rw [hn] at hkl; simp at hkl
      have := congrArg (fun l : List Bool => (l.take k).countP (fun y => y == tt.slots[k].left)) (slots_left hsl)
      simp only [← List.map_take, List.countP_map] at this
      exact this
    rw [hc]
    rw [e] at a2
    revert a2
    cases x.left <;> simp

/-! ## The weights -/

/-- The weights over the slots of a timetable, when the feet have made `a` and `b` steps. -/
theorem weights_run (d : Dcm K) (zmps : List (Vec2 K)) (ls rs : List (Step K)) (last : Seg)
    (hlast : last.1 = .switchIn ∨ last.1 = .switchOut) (slots : List Slot) (phase start a b : Nat)
    (ha : a + slots.countP (fun x => x.left == true) < ls.length) (hb : b + slots.countP (fun x => x.left == false) < rs.length)
    (hz : start + slotStart slots slots.length + last.2 ≤ zmps.length) :
    ∃ s out, runSegs (d.weightBody zmps) (slotSegs true slots ++ [last]) phase start (ls.drop a, rs.drop b) = .ok (s, out) ∧
      out.length = slotStart slots slots.length + last.2 ∧
      (∀ (k : Nat) (x : Slot), slots[k]? = some x → ∀ j, j < x.ss →
        out[slotStart slots k + x.ds + j]? = some (if x.left then (0, 1) else (1, 0))) ∧
      ∀ k, k ≤ slots.length → ∀ j, j < (match slots[k]? with | some x => x.ds | none => last.2) →
        ∃ l r z w, ls[a + (slots.take k).countP (fun x => x.left == true)]? = some l ∧
          rs[b + (slots.take k).countP (fun x => x.left == false)]? = some r ∧
          zmps[start + slotStart slots k + j]? = some z ∧ out[slotStart slots k + j]? = some (w, 1 - w) ∧
          w = leftWeight (footZmp d.leftDelta l) (footZmp d.rightDelta r) z := by
  have double : ∀ (ph : Nat) (la : Bool) (p : Phase) (s n a b : Nat), (p = .switchIn ∨ p = .switchOut) → ∀ (l r : Step K),
      ls[a]? = some l → rs[b]? = some r → s + n ≤ zmps.length →
      ∃ out, d.weightBody zmps ph la p s (s + n) (ls.drop a, rs.drop b) = .ok ((ls.drop a, rs.drop b), out) ∧ out.length = n ∧
        ∀ j, j < n → ∃ z, zmps[s + j]? = some z ∧ out[j]? = some
          (leftWeight (footZmp d.leftDelta l) (footZmp d.rightDelta r) z,
            1 - leftWeight (footZmp d.leftDelta l) (footZmp d.rightDelta r) z) := by
    intro ph la p s n a b hp l r hl hr hn
    obtain ⟨l1, l2⟩ := List.getElem?_eq_some_iff.mp hl
    obtain ⟨r1, r2⟩ := List.getElem?_eq_some_iff.mp hr
    have el : ls.drop a = l :: ls.drop (a + 1) := by rw [List.drop_eq_getElem_cons l1, l2]
    have er : rs.drop b = r :: rs.drop (b + 1) := by rw [List.drop_eq_getElem_cons r1, r2]
    have hlen : ((zmps.drop s).take n).length = n := by
      rw [List.length_take, List.length_drop]; omega
    have : d.weightBody zmps ph la p s (s + n) (ls.drop a, rs.drop b) = .ok ((ls.drop a, rs.drop b),
        ((zmps.drop s).take n).map fun z => (leftWeight (footZmp d.leftDelta l) (footZmp d.rightDelta r) z,
          1 - leftWeight (footZmp d.leftDelta l) (footZmp d.rightDelta r) z)) := by
      rcases hp with rfl | rfl <;>
      · simp only [weightBody, Nat.add_sub_cancel_left, el, er]
        rw [if_neg (by omega)]
    refine ⟨_, this, by rw [List.length_map, hlen], fun j hj => ?_⟩
    refine ⟨zmps[s + j], List.getElem?_eq_getElem (by omega), ?_⟩
    rw [List.getElem?_map, List.getElem?_take, if_pos hj, List.getElem?_drop, List.getElem?_eq_getElem (by omega)]
    rfl
  induction slots generalizing phase start a b with
  | nil =>
    simp only [List.countP_nil, Nat.add_zero] at ha hb
    have h0 : slotStart [] 0 = 0 := rfl
    simp only [List.length_nil, h0, Nat.add_zero] at hz
    obtain ⟨out, o1, o2, o3⟩ := double phase true last.1 start last.2 a b hlast _ _ (List.getElem?_eq_getElem ha)
      (List.getElem?_eq_getElem hb) hz
    refine ⟨(ls.drop a, rs.drop b), out, ?_, ?_, by simp, ?_⟩
    · simp only [slotSegs, List.flatMap_nil, List.nil_append, runSegs, List.isEmpty_nil, o1, Out.bind_ok, List.append_nil]
    · simp [o2, h0]
    · intro k hk j hj
      obtain rfl : k = 0 := by simpa using hk
      obtain ⟨z, z1, z2⟩ := o3 j (by simpa using hj)
      exact ⟨ls[a], rs[b], z, _, by simp, by simp,
        by simpa [h0] using z1, by simpa [h0] using z2, rfl⟩
  | cons x xs ih =>
    have hst : ∀ k, slotStart (x :: xs) (k + 1) = x.ds + x.ss + slotStart xs k := by
      intro k
      unfold slotStart slotSegs
      rw [List.take_succ_cons, List.flatMap_cons, total_append, total_segs]
    have h0 : slotStart (x :: xs) 0 = 0 := rfl
    rw [List.length_cons, hst] at hz
    rw [List.countP_cons] at ha hb
    have ha0 : a < ls.length := by omega
    have hb0 : b < rs.length := by omega
    set p0 : Phase := if x.left = true then .switchOut else .switchIn with hp0
    set p1 : Phase := if x.left = true then .swing else .stance with hp1
    have hseg : slotSegs true (x :: xs) = (p0, x.ds) :: (p1, x.ss) :: slotSegs true xs := by
      unfold slotSegs
      rw [List.flatMap_cons]
      unfold Slot.segs
      cases hx : x.left <;> simp [hp0, hp1, hx]
    obtain ⟨o1, u1, u2, u3⟩ := double phase false p0 start x.ds a b (by rw [hp0]; split_ifs <;> simp) _ _
      (List.getElem?_eq_getElem ha0) (List.getElem?_eq_getElem hb0) (by omega)
    have swing : ∃ a' b', a' = a + (if (x.left == true) = true then 1 else 0) ∧ b' = b + (if (x.left == false) = true then 1 else 0) ∧
        d.weightBody zmps (phase + 1) false p1 (start + x.ds) (start + x.ds + x.ss) (ls.drop a, rs.drop b) =
          .ok ((ls.drop a', rs.drop b'), List.replicate x.ss (if x.left then (0, 1) else (1, 0))) := by
      cases hx : x.left
      · refine ⟨a, b + 1, by simp, by simp, ?_⟩
        rw [hx] at hb
        simp only [beq_self_eq_true, if_true] at hb
        have e1 : rs.drop b = rs[b] :: rs.drop (b + 1) := List.drop_eq_getElem_cons hb0
        have e2 : rs.drop (b + 1) = rs[b + 1]'(by omega) :: rs.drop (b + 2) := List.drop_eq_getElem_cons (by omega)
        rw [hp1, hx, e1, e2]
        simp [weightBody]
      · refine ⟨a + 1, b, by simp, by simp, ?_⟩
        rw [hx] at ha
        simp only [beq_self_eq_true, if_true] at ha
        have e1 : ls.drop a = ls[a] :: ls.drop (a + 1) := List.drop_eq_getElem_cons ha0
        have e2 : ls.drop (a + 1) = ls[a + 1]'(by omega) :: ls.drop (a + 2) := List.drop_eq_getElem_cons (by omega)
        rw [hp1, hx, e1, e2]
        simp [weightBody]
    obtain ⟨a', b', ea, eb, sw⟩ := swing
    obtain ⟨s', out, v1, v2, v3, v4⟩ := ih (phase + 2) (start + x.ds + x.ss) a' b' (by omega) (by omega) (by omega)
    have hcons : ∃ g gs, slotSegs true xs ++ [last] = g :: gs := by
      cases hxs : slotSegs true xs with
      | nil => exact ⟨_, _, rfl⟩
      | cons g gs => exact ⟨_, _, rfl⟩
    refine ⟨s', o1 ++ (List.replicate x.ss (if x.left then (0, 1) else (1, 0)) ++ out), ?_, ?_, ?_, ?_⟩
    · rw [hseg]
      have hne : (slotSegs true xs ++ [last]).isEmpty = false := by
        obtain ⟨g, gs, hg⟩ := hcons
        rw [hg]; rfl
      rw [List.cons_append, List.cons_append]
      generalize slotSegs true xs ++ [last] = L at *
      simp only [runSegs, List.isEmpty_cons, hne]
      rw [u1, Out.bind_ok]
      simp only
      rw [sw, Out.bind_ok]
      simp only
      rw [show phase + 1 + 1 = phase + 2 by omega, v1]
      rfl
    · rw [List.length_append, List.length_append, u2, List.length_replicate, v2, List.length_cons, hst]; omega
    · intro k y hk j hj
      cases k with
      | zero =>
        simp only [List.getElem?_cons_zero, Option.some.injEq] at hk; subst hk
        rw [h0, List.getElem?_append_right (by omega), u2, List.getElem?_append_left (by rw [List.length_replicate]; omega),
          List.getElem?_replicate, if_pos (by omega)]
      | succ k =>
        have := v3 k y (by simpa using hk) j hj
        rw [← this, hst, List.getElem?_append_right (by omega), u2, List.getElem?_append_right (by rw [List.length_replicate]; omega),
          List.length_replicate]
        congr 1; omega
    · intro k hk j hj
      cases k with
      | zero =>
        obtain ⟨z, z1, z2⟩ := u3 j (by simpa using hj)
        refine ⟨ls[a], rs[b], z, _, by simp, by simp,
          by simpa [h0] using z1, ?_, rfl⟩
        rw [h0, Nat.zero_add, List.getElem?_append_left (by rw [u2]; simpa using hj)]
        exact z2
      | succ k =>
        obtain ⟨l, r, z, w, w1, w2, w3, w4, w5⟩ := v4 k (by simpa using hk) j (by simpa using hj)
        refine ⟨l, r, z, w, ?_, ?_, ?_, ?_, w5⟩
        · rw [← w1, List.take_succ_cons, List.countP_cons, ea]
          congr 1; omega
        · rw [← w2, List.take_succ_cons, List.countP_cons, eb]
          congr 1; omega
        · rw [← w3, hst]
          congr 1; omega
        · rw [← w4, hst, List.getElem?_append_right (by omega), u2, List.getElem?_append_right (by rw [List.length_replicate]; omega),
            List.length_replicate]
          congr 1; omega

/-! ## A successful call -/

variable {d d' : Dcm K} {o : DcmOut K} {steps : List (Step K)} {shifts : List Nat} {lp : List Phase}

/-- The initial state of the DCM: the one that was given, or the middle of the first contacts of the feet, at rest. -/
def start (d : Dcm K) (l r : Step K) : Option (Vec2 K × Vec2 K) :=
  if d.specified then d.initial else some (middle (l.position + d.leftDelta) (r.position + d.rightDelta), 0)

/-- The generator after the first statements of a call. -/
def ready (d : Dcm K) (cfg : GenSettings K) (dT : K) (init : Vec2 K × Vec2 K) : Dcm K :=
  { d with
    initial := some init, dT := dT, pauseActive := cfg.pauseActive, maxSwitch := cfg.switchPercentage * cfg.maxStepTime
    nominalSwitch := cfg.switchPercentage * cfg.nominalStepTime, endSwitch := cfg.endSwitch }

theorem compute_inv (ho : d.computeNewTrajectories cfg initTime dT steps shifts lp left right = .ok (true, d', some o)) :
    ∃ l r init, left.steps.head? = some l ∧ right.steps.head? = some r ∧ d.start l r = some init ∧
      (d.ready cfg dT init).generate steps lp left.steps right.steps init shifts = .ok o ∧
      d' = { d.ready cfg dT init with specified := false } := by
  unfold computeNewTrajectories at ho
  rw [Out.bind_eq_ok] at ho
  obtain ⟨d1, h1, ho⟩ := ho
  cases hl : left.steps with
  | nil => rw [hl] at ho; simp at ho
  | cons l ls =>
    cases hr : right.steps with
    | nil => rw [hl, hr] at ho; simp at ho
    | cons r rs =>
      rw [hl, hr] at ho h1
      simp only at ho
      by_cases c1 : dT ≤ 0
      · rw [if_pos c1] at ho; simp at ho
      rw [if_neg c1] at ho
      by_cases c2 : initTime < max l.impactTime r.impactTime
      · rw [if_pos c2] at ho; simp at ho
      rw [if_neg c2] at ho
      have hi : d1 = { d with initial := d.start l r } := by
        unfold setInitial at h1
        unfold start
        by_cases hsp : d.specified = true
        · rw [if_pos hsp] at h1 ⊢; cases h1; rfl
        · rw [if_neg hsp] at h1 ⊢; cases h1; rfl
      split at ho
      · cases ho
      · rename_i d2 hpc
        have hd2 : d2 = { d with
            initial := d.start l r, dT := dT, pauseActive := cfg.pauseActive, maxSwitch := cfg.switchPercentage * cfg.maxStepTime
            nominalSwitch := cfg.switchPercentage * cfg.nominalStepTime, endSwitch := cfg.endSwitch } := by
          rw [hi] at hpc
          unfold setPauseConditions at hpc
          simp only at hpc
          by_cases c3 : cfg.switchPercentage * cfg.maxStepTime < 0
          · rw [if_pos c3] at hpc; simp at hpc
          rw [if_neg c3] at hpc
          by_cases c4 : cfg.pauseActive = true ∧ (cfg.switchPercentage * cfg.nominalStepTime ≤ 0 ∨ cfg.endSwitch < 0)
          · rw [if_pos c4] at hpc; simp at hpc
          rw [if_neg c4] at hpc
          simp only [Prod.mk.injEq, true_and] at hpc
          exact hpc.symm
        split at ho
        · cases ho
        · rename_i init hin
          have hst : d.start l r = some init := by rw [← hin, hd2]
          have hd3 : d2 = d.ready cfg dT init := by rw [hd2, hst]; rfl
          split at ho
          · rename_i o' hg
            simp only [Out.ok.injEq, Prod.mk.injEq, true_and, Option.some.injEq] at ho
            obtain ⟨e1, e2⟩ := ho
            subst e2
            refine ⟨l, r, init, rfl, rfl, hst, ?_, ?_⟩
            · rw [← hd3]; exact hg
            · rw [← hd3]; exact e1.symm
          · cases ho
          · cases ho

theorem compute_eq (hv : ValidTimings cfg) (hd : 0 < dT) {l r : Step K} (hl : left.steps.head? = some l)
    (hr : right.steps.head? = some r) (h1 : l.impactTime ≤ initTime) (h2 : r.impactTime ≤ initTime) {init : Vec2 K × Vec2 K}
    (hi : d.start l r = some init) :
    d.computeNewTrajectories cfg initTime dT steps shifts lp left right =
      match (d.ready cfg dT init).generate steps lp left.steps right.steps init shifts with
      | .ok o => .ok (true, { d.ready cfg dT init with specified := false }, some o)
      | .fail => .ok (false, d.ready cfg dT init, none)
      | .ub w => .ub w := by
  cases hls : left.steps with
  | nil => rw [hls] at hl; simp at hl
  | cons l' ls =>
    cases hrs : right.steps with
    | nil => rw [hrs] at hr; simp at hr
    | cons r' rs =>
      rw [hls] at hl; rw [hrs] at hr
      simp only [List.head?_cons, Option.some.injEq] at hl hr
      subst hl hr
      have e : d.setInitial left.steps right.steps = .ok { d with initial := some init } := by
        unfold setInitial
        unfold start at hi
        by_cases hsp : d.specified = true
        · rw [if_pos hsp] at hi ⊢; rw [← hi]
        · rw [if_neg hsp] at hi ⊢; rw [hls, hrs]; simp only; rw [hi]
      unfold computeNewTrajectories
      rw [e, Out.bind_ok]
      simp only [hls, hrs]
      rw [if_neg (not_le.mpr hd), if_neg (not_lt.mpr (max_le h1 h2))]
      have hpc : ({ d with initial := some init, dT := dT } : Dcm K).setPauseConditions cfg.pauseActive
          (cfg.switchPercentage * cfg.maxStepTime) (cfg.switchPercentage * cfg.nominalStepTime) cfg.endSwitch =
          (true, d.ready cfg dT init) := by
        unfold setPauseConditions
        have hm : 0 < cfg.maxStepTime := hv.nominal_pos.trans_le hv.nominal_le
        rw [if_neg (not_lt.mpr (mul_pos hv.switch_pos hm).le)]
        simp only
        rw [if_neg]
        · rfl
        · rintro ⟨-, h | h⟩
          · exact absurd h (not_le.mpr (mul_pos hv.switch_pos hv.nominal_pos))
          · exact absurd h (not_lt.mpr hv.end_pos.le)
      rw [hpc]
      simp only
      have : (d.ready cfg dT init).initial = some init := rfl
      rw [this]
      simp only
      cases (d.ready cfg dT init).generate steps lp (l' :: ls) (r' :: rs) init shifts <;> rfl

theorem compute_ok (hv : ValidTimings cfg) (hd : 0 < dT) {l r : Step K} (hl : left.steps.head? = some l)
    (hr : right.steps.head? = some r) (h1 : l.impactTime ≤ initTime) (h2 : r.impactTime ≤ initTime) {init : Vec2 K × Vec2 K}
    (hi : d.start l r = some init)
    (hg : (d.ready cfg dT init).generate steps lp left.steps right.steps init shifts = .ok o) :
    d.computeNewTrajectories cfg initTime dT steps shifts lp left right =
      .ok (true, { d.ready cfg dT init with specified := false }, some o) := by
  rw [compute_eq hv hd hl hr h1 h2 hi, hg]

theorem compute_fail (hv : ValidTimings cfg) (hd : 0 < dT) {l r : Step K} (hl : left.steps.head? = some l)
    (hr : right.steps.head? = some r) (h1 : l.impactTime ≤ initTime) (h2 : r.impactTime ≤ initTime) {init : Vec2 K × Vec2 K}
    (hi : d.start l r = some init)
    (hg : (d.ready cfg dT init).generate steps lp left.steps right.steps init shifts = .fail) :
    d.computeNewTrajectories cfg initTime dT steps shifts lp left right = .ok (false, d.ready cfg dT init, none) := by
  rw [compute_eq hv hd hl hr h1 h2 hi, hg]

theorem generate_inv {init : Vec2 K × Vec2 K} {ls rs : List (Step K)} (h : d.generate steps lp ls rs init shifts = .ok o) :
    d.pieces steps lp init shifts = .ok o.pieces ∧ shifts.headD 0 ≤ shifts.getLastD 0 ∧
    d.evaluate (shifts.getLastD 0 - shifts.headD 0) (shifts.headD 0) o.pieces = .ok o.samples ∧
    d.feetWeights lp shifts ls rs (o.samples.map DcmSample.zmp) = .ok o.weights := by
  unfold generate at h
  simp only [Out.bind_eq_ok] at h
  obtain ⟨tr, h1, n, h2, sm, h3, w, h4, h⟩ := h
  cases h
  unfold subSize at h2
  split_ifs at h2 with hc
  cases h2
  exact ⟨h1, by omega, h3, h4⟩

/-! ## The pieces over a timeline -/

/-- The steps at the two ends of a walk, and those around the single supports. -/
theorem pieces_whole (hexp : Trig.exp (0 : K) = 1) (hv : ValidTimings cfg) (hs : SortedPtrs left right sorted)
    (h : timeline cfg left right initTime dT sorted = .ok (ordered, t)) (hpos : t.shifts.Pairwise (· < ·))
    (hn : LeftRight left right) (hs0 : 0 ≤ d.stillness) (hs1 : d.stillness < 1) (init : Vec2 K × Vec2 K)
    {l r : Step K} {tt : Timetable} (hr : Run cfg left right initTime dT sorted ordered t l r tt)
    {x y u v : Ptr K} (ex : ordered[tt.slots.length]? = some x) (ey : ordered[tt.slots.length + 1]? = some y)
    (eu : ordered[0]? = some u) (ev : ordered[1]? = some v) {p : Phase} (hp : t.left[0]? = some p)
    {R : Prop} (hR : R → Roomy cfg d.stillness dT tt.rest) :
    ∃ tr, (d.ready cfg dT init).pieces (ordered.map Ptr.step) t.left init t.shifts = .ok tr ∧
      Whole (d.ready cfg dT init) R init (d.zmpAt (firstSwing p u.step v.step)) ((t.left.length : K) * dT)
        (middle (d.zmpAt y.step) (d.zmpAt x.step))
        ((1 - d.lastOffset) * d.zmpAt x.step + d.lastOffset * d.zmpAt y.step)
        (if tt.slots.length = 0 then [] else (d.ready cfg dT init).slots t.shifts (ordered.map Ptr.step)) tr := by
  obtain ⟨-, p2, p3, -⟩ := C34_partition h
  obtain ⟨-, -, -, hlen⟩ := C37_all_steps hs h
  obtain ⟨hperm, -⟩ := C39_ordered hs h
  have hol := slots_length hs hr
  have hsl : t.shifts.length = 2 * tt.slots.length + 2 := by rw [hlen, List.length_drop, hol]; omega
  have hdT := hr.dT_pos
  have hPos : tt.Positive := positive_of_shifts (by rw [← hr.built.shifts]; exact hpos)
  have hnm : ∀ s ∈ ordered.map Ptr.step, s.footName = "left" ∨ s.footName = "right" := by
    intro s hs
    rw [hperm.mem_iff, List.mem_append] at hs
    rcases hs with hs | hs
    · exact Or.inl ((hn.left_steps s hs).trans hn.left_name)
    · exact Or.inr ((hn.right_steps s hs).trans hn.right_name)
  have hN : t.left.length = slotStart tt.slots tt.slots.length + tt.rest := by
    rw [hr.built.left, tt.length_phases, total_eq]
  have hc : t.shifts[2 * tt.slots.length + 1]? = some t.left.length := by
    rw [List.getLast?_eq_getElem?, hsl] at p2; exact p2
  have hpp : (d.ready cfg dT init).PausePos := fun _ => ⟨hv.end_pos, mul_pos hv.switch_pos hv.nominal_pos⟩
  have gm : ∀ (i : Nat) (q : Ptr K), ordered[i]? = some q → (ordered.map Ptr.step)[i]? = some q.step := by
    intro i q hq; rw [List.getElem?_map, hq]; rfl
  by_cases h0 : tt.slots.length = 0
  · rw [if_pos h0]
    rw [h0] at ex ey hol
    rw [ex] at eu; cases eu
    rw [ey] at ev; cases ev
    have hN0 : 0 < t.left.length := by have := hPos.2; omega
    have ho : ordered.map Ptr.step = [x.step, y.step] := by
      match ordered, hol with
      | [a, b], _ =>
        simp only [List.getElem?_cons_zero, List.getElem?_cons_succ, Option.some.injEq, Nat.zero_add] at ex ey
        rw [ex, ey]; rfl
    obtain ⟨tr, t1, t2⟩ := stand_whole (d := d.ready cfg dT init) hdT R hN0 (hnm x.step (by rw [ho]; simp))
      (hnm y.step (by rw [ho]; simp)) init (d.zmpAt (firstSwing p x.step y.step))
      ((1 - d.lastOffset) * d.zmpAt x.step + d.lastOffset * d.zmpAt y.step)
    refine ⟨tr, ?_, ?_⟩
    · unfold pieces
      rw [ho, p2, p3]
      exact t1
    · have : middle (d.zmpAt y.step) (d.zmpAt x.step) = middle (d.zmpAt x.step) (d.zmpAt y.step) := by
        unfold middle; ext <;> simp [add_comm]
      rw [this]; exact t2
  · rw [if_neg h0]
    have hk : tt.slots[tt.slots.length - 1]? = some tt.slots[tt.slots.length - 1] := List.getElem?_eq_getElem (by omega)
    have hb : t.shifts[2 * tt.slots.length]? = some (slotStart tt.slots tt.slots.length) := by
      have e1 := (shifts_slot tt _ _ hk).2.2
      have e2 := slotStart_succ tt.slots _ _ hk
      rw [hr.built.shifts, show 2 * tt.slots.length = 2 * (tt.slots.length - 1) + 2 by omega, e1, ← e2,
        show tt.slots.length - 1 + 1 = tt.slots.length by omega]
    obtain ⟨tr, t1, t2⟩ := walk_whole hexp (d := d.ready cfg dT init) hdT hpp hs0 hs1 (R := R) (fun hr' hpa => (hR hr').pause hpa)
      (shifts := t.shifts) (ordered := ordered.map Ptr.step) hsl (by rw [List.length_map, hol]) (by omega) hpos hb hc
      (fun hr' => by
        have := (hR hr').final
        rw [hN]; push_cast
        show dT ≤ _
        calc dT ≤ (tt.rest : K) * dT * (1 - d.stillness) := this
          _ = _ := by ring_nf; rfl)
      (gm _ _ ex) (gm _ _ ey) (gm _ _ eu) (gm _ _ ev) hnm hp init
    refine ⟨tr, ?_, t2⟩
    unfold pieces
    rw [p2, p3]
    match hord : ordered.map Ptr.step, t1 with
    | [], _ => have := congrArg List.length hord; rw [List.length_map, hol] at this; simp only [List.length_cons, List.length_nil] at this; omega
    | [_], _ => have := congrArg List.length hord; rw [List.length_map, hol] at this; simp only [List.length_cons, List.length_nil] at this; omega
    | [_, _], _ => have := congrArg List.length hord; rw [List.length_map, hol] at this; simp only [List.length_cons, List.length_nil] at this; omega
    | a :: b :: c :: rest, t1 => exact t1

end Dcm
end Uni
