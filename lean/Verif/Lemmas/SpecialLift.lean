import Verif.Lemmas.Special

/-! # Numbers that do not overflow -/

set_option autoImplicit false
set_option linter.unusedSectionVars false

namespace Uni.Special
open Spec Dbl
variable {K : Type} [Field K] [LinearOrder K] {f : K → K}

/-- The same outcome, but for numbers of samples that are too large for a `size_t`. -/
def Agree {A B : Type} (g : B → A) (a : Out A) (b : Out B) : Prop := a = .ub .notRepresentable ∨ a = outMap g b

theorem Agree.bind {A B C D : Type} {g : B → A} {g' : D → C} {a : Out A} {b : Out B} {k : A → Out C} {k' : B → Out D}
    (h : Agree g a b) (hk : ∀ x, b = .ok x → Agree g' (k (g x)) (k' x)) : Agree g' (a >>= k) (b >>= k') := by
  rcases h with rfl | rfl
  · exact Or.inl rfl
  · cases b with
    | ok x => exact hk x rfl
    | fail => exact Or.inr rfl
    | ub w => exact Or.inr rfl

theorem Agree.bindSame {A C D : Type} {g' : D → C} {a : Out A} {k : A → Out C} {k' : A → Out D}
    (hk : ∀ x, a = .ok x → Agree g' (k x) (k' x)) : Agree g' (a >>= k) (a >>= k') := by
  cases a with
  | ok x => exact hk x rfl
  | fail => exact Or.inr rfl
  | ub w => exact Or.inr rfl

theorem Agree.refl' {A B : Type} {g : B → A} (b : Out B) : Agree g (outMap g b) b := Or.inr rfl

/-- The rounding of a number, without overflow. -/
abbrev up (f : K → K) : K → Dbl K := fun x => num (f x)

theorem div_up {x y : K} (h : y ≠ 0) : div (up f) (num x) (num y) = num (f (x / y)) := by simp only [div, if_neg h]

theorem switchTime_up [CharZero K] (c : GenSettings K) (half : Bool) (x : K)
    (h : half = true → f (1 - f (c.switchPercentage / 2)) ≠ 0) :
    switchTime (up f) (cfgDbl c) half (num x) = num (Rounded.switchTime f c half x) := by
  unfold switchTime Rounded.switchTime
  cases half with
  | true =>
    simp only [if_true, cfgDbl]
    rw [div_up two_ne_zero]
    show div (up f) (mul (up f) (div (up f) (num _) (num (f (1 - f (c.switchPercentage / 2))))) (num x)) (num 2) = _
    rw [div_up (h rfl)]
    show div (up f) (num _) (num 2) = _
    rw [div_up two_ne_zero]
  | false =>
    simp only [Bool.false_eq_true, if_false, cfgDbl, lt, decide_eq_true_eq]
    split_ifs <;> rfl

variable [FloorRing K]

theorem sizeOf_agree {n : ℤ} : Agree id (Dbl.sizeOf n) (if 0 ≤ n then .ok n.toNat else .ub .negativeToUnsigned) := by
  unfold Dbl.sizeOf
  by_cases h0 : n < 0
  · rw [if_pos h0, if_neg (not_le.mpr h0)]; exact Or.inr rfl
  · rw [if_neg h0, if_pos (not_lt.mp h0)]
    split_ifs
    · exact Or.inl rfl
    · exact Or.inr rfl

theorem roundSize_agree (x : K) : Agree id (Dbl.roundSize (num x)) (Uni.roundSize x) := sizeOf_agree

theorem stepMerges_agree (c : GenSettings K) {d : K} (hd : d ≠ 0) (first : Bool) (w : K) (back : Nat) :
    Agree id (stepMerges (up f) (cfgDbl c) (num d) first (num w) back) (Rounded.stepMerges f c d first w back) := by
  unfold stepMerges Rounded.stepMerges
  cases first with
  | true => exact Or.inr rfl
  | false =>
    simp only [Bool.false_eq_true, if_false]
    have e1 : div (up f) (mul (up f) (num w) (sub (up f) (num 1) (cfgDbl c).mergeBegin)) (num d) =
        num (f (f (w * f (1 - c.mergeBegin)) / d)) := div_up hd
    have e2 : div (up f) (mul (up f) (num w) (sub (up f) (num 1) (cfgDbl c).mergeEnd)) (num d) =
        num (f (f (w * f (1 - c.mergeEnd)) / d)) := div_up hd
    rw [e1, e2]
    refine (roundSize_agree _).bind fun a _ => Agree.bindSame fun i _ => ?_
    exact (roundSize_agree _).bind fun b _ => Agree.bindSame fun j _ => Or.inr rfl

theorem addStep_agree [CharZero K] (c : GenSettings K) {d : K} (hd : d ≠ 0) (nl nr : Nat) (first half : Bool) (q : Ptr K) (s : Timing K)
    (h : half = true → f (1 - f (c.switchPercentage / 2)) ≠ 0) :
    Agree timingDbl (addStep (up f) (cfgDbl c) (num d) nl nr first half (ptrDbl q) (timingDbl s))
      (Rounded.addStep f c d nl nr first half q s) := by
  unfold addStep Rounded.addStep
  have e0 : sub (up f) (ptrDbl q).step.impactTime (timingDbl s).prevTime = num (f (q.step.impactTime - s.prevTime)) := rfl
  simp only [e0, lt, decide_eq_true_eq]
  by_cases hn : f (q.step.impactTime - s.prevTime) < 0
  · rw [if_pos hn, if_pos hn]; exact Or.inr rfl
  · rw [if_neg hn, if_neg hn, div_up hd, switchTime_up c half _ h, div_up hd]
    refine (roundSize_agree _).bind fun n1 _ => (roundSize_agree _).bind fun n2 _ => Agree.bindSame fun n3 _ => ?_
    show Agree timingDbl (Gen.whichSwings q s.leftIndex s.rightIndex >>= _) _
    exact Agree.bindSame fun sl _ => (stepMerges_agree c hd first _ _).bind fun m _ => Or.inr rfl

theorem addSteps_agree [CharZero K] (c : GenSettings K) {d : K} (hd : d ≠ 0) (nl nr : Nat) (half : Bool)
    (h : f (1 - f (c.switchPercentage / 2)) ≠ 0) : ∀ (l : List (Ptr K)) (first : Bool) (s : Timing K),
    Agree timingDbl (addSteps (up f) (cfgDbl c) (num d) nl nr first half (l.map ptrDbl) (timingDbl s))
      (Rounded.addSteps f c d nl nr first half l s)
  | [], _, _ => Or.inr rfl
  | q :: l, first, s => by
    rw [List.map_cons]
    unfold addSteps Rounded.addSteps
    exact (addStep_agree c hd nl nr first _ q s fun _ => h).bind fun s1 _ => addSteps_agree c hd nl nr half h l false s1

theorem addLast_agree (c : GenSettings K) {d : K} (hd : d ≠ 0) (s : Timing K) :
    Agree timingDbl (addLast (up f) (cfgDbl c) (num d) (timingDbl s)) (Rounded.addLast f c d s) := by
  unfold addLast Rounded.addLast
  have e : div (up f) (cfgDbl c).endSwitch (num d) = num (f (c.endSwitch / d)) := div_up hd
  rw [e]
  refine (roundSize_agree _).bind fun n _ => ?_
  show Agree timingDbl (subSize (s.shifts.getLastD 0 + n) 1 >>= _) _
  exact Agree.bindSame fun m _ => Or.inr rfl

theorem create_agree [CharZero K] (c : GenSettings K) {i d : K} (hd : d ≠ 0) (h : f (1 - f (c.switchPercentage / 2)) ≠ 0)
    (left right : List (Step K)) (ordered : List (Ptr K)) :
    Agree timingDbl (createPhasesTimings (up f) (cfgDbl c) (num i) (num d) (left.map stepDbl) (right.map stepDbl)
      (ordered.map ptrDbl)) (Rounded.createPhasesTimings f c i d left right ordered) := by
  cases left with
  | nil => exact Or.inr rfl
  | cons l ls =>
    cases right with
    | nil => exact Or.inr rfl
    | cons r rs =>
      cases hlast : ordered.getLast? with
      | none =>
        have : ordered = [] := List.getLast?_eq_none_iff.mp hlast
        subst this
        exact Or.inr rfl
      | some last =>
        have hlast' : (ordered.map ptrDbl).getLast? = some (ptrDbl last) := by rw [List.getLast?_map, hlast]; rfl
        simp only [createPhasesTimings, Rounded.createPhasesTimings, List.map_cons, hlast, hlast', List.length_map]
        by_cases h2 : ordered.length = 2
        · rw [if_pos h2, if_pos h2]
          have e : div (up f) (cfgDbl c).endSwitch (num d) = num (f (c.endSwitch / d)) := div_up hd
          rw [e]
          exact (roundSize_agree _).bind fun n _ => Or.inr rfl
        · rw [if_neg h2, if_neg h2]
          have e : div (up f) (add (up f) (sub (up f) (ptrDbl last).step.impactTime (num i)) (cfgDbl c).endSwitch) (num d) =
            num (f (f (f (last.step.impactTime - i) + c.endSwitch) / d)) := div_up hd
          rw [e]
          have hc : ∀ a : ℤ, ∀ {C : Type} (k : Out C), (if a < 0 then (Out.ub .negativeToUnsigned : Out C) else k) =
              ((if 0 ≤ a then (Out.ok a.toNat : Out Nat) else .ub .negativeToUnsigned) >>= fun _ => k) := by
            intro a C k
            by_cases ha : a < 0
            · rw [if_pos ha, if_neg (not_le.mpr ha)]; rfl
            · rw [if_neg ha, if_pos (not_lt.mp ha)]; rfl
          rw [hc]
          refine sizeOf_agree.bind fun _ _ => ?_
          have hh : (!eq (stepDbl l).impactTime (stepDbl r).impactTime) = decide (l.impactTime ≠ r.impactTime) :=
            (decide_not).symm
          rw [hh, ← List.map_drop]
          simp only [List.length_cons, List.length_map]
          exact (addSteps_agree c hd _ _ _ h _ _ ⟨[], [], [0], [0], 1, 1, i, false, false⟩).bind fun s _ => addLast_agree c hd s

theorem adjacentDup_up : ∀ (l : List (Ptr K)), adjacentDup (l.map ptrDbl) = Gen.adjacentDup l
  | [] => rfl
  | [_] => rfl
  | a :: b :: l => by
    have ih := adjacentDup_up (b :: l)
    simp only [List.map_cons] at ih ⊢
    unfold Gen.adjacentDup adjacentDup
    rw [ih]
    rfl

theorem orderSteps_up (sorted : List (Ptr K)) :
    orderSteps (sorted.map ptrDbl) = outMap (List.map ptrDbl) (Gen.orderSteps sorted) := by
  unfold orderSteps
  rw [if_neg (by
    rintro ⟨h, -⟩
    rw [List.any_eq_true] at h
    obtain ⟨p, hp, h⟩ := h
    obtain ⟨p', -, rfl⟩ := List.mem_map.mp hp
    simp [ptrDbl, stepDbl] at h)]
  match sorted with
  | [] => rfl
  | [a] => rfl
  | [a, b] => simp [adjacentDup, Gen.orderSteps, Gen.adjacentDup, outMap]
  | a :: b :: c :: rest =>
    have h1 := adjacentDup_up (c :: rest)
    simp only [List.map_cons] at h1 ⊢
    unfold Gen.orderSteps
    simp only
    rw [h1]
    have e : eq (ptrDbl a).step.impactTime (ptrDbl b).step.impactTime = decide (a.step.impactTime = b.step.impactTime) := rfl
    rw [e]
    by_cases g1 : Gen.adjacentDup (c :: rest) = true
    · rw [if_pos g1, if_pos g1]; rfl
    · rw [if_neg g1, if_neg g1]
      by_cases g2 : a.step.impactTime = b.step.impactTime ∧ b.step.footName = c.step.footName
      · rw [if_pos g2, if_pos ⟨decide_eq_true g2.1, g2.2⟩]; rfl
      · rw [if_neg g2, if_neg (fun hh => g2 ⟨of_decide_eq_true hh.1, hh.2⟩)]; rfl

/-- Numbers whose operations do not overflow: the rounded model, but for numbers of samples too large for a `size_t`. -/
theorem timeline_agree [CharZero K] (c : GenSettings K) (left right : FootPrint K) (i d : K) (sorted : List (Ptr K))
    (h : f (1 - f (c.switchPercentage / 2)) ≠ 0) :
    Agree (fun r : List (Ptr K) × Timing K => (r.1.map ptrDbl, timingDbl r.2))
      (timeline (up f) (cfgDbl c) (footDbl left) (footDbl right) (num i) (num d) (sorted.map ptrDbl))
      (Rounded.timeline f c left right i d sorted) := by
  unfold timeline Rounded.timeline
  cases hl : left.steps with
  | nil => simp only [footDbl, hl, List.map_nil]; exact Or.inr rfl
  | cons l ls =>
    cases hr : right.steps with
    | nil => simp only [footDbl, hl, hr, List.map_nil, List.map_cons]; exact Or.inr rfl
    | cons r rs =>
      simp only [footDbl, hl, hr, List.map_cons]
      by_cases h1 : left.footName = right.footName
      · rw [if_pos h1, if_pos h1]; exact Or.inr rfl
      · rw [if_neg h1, if_neg h1]
        by_cases h2 : d ≤ 0
        · rw [if_pos (show le (num d) (num 0) = true from decide_eq_true h2), if_pos h2]; exact Or.inr rfl
        · rw [if_neg (by simpa [le] using h2), if_neg h2]
          have e : lt (num i) (max' (stepDbl l).impactTime (stepDbl r).impactTime) =
              decide (i < max l.impactTime r.impactTime) := by
            unfold max'
            show lt (num i) (if decide (l.impactTime < r.impactTime) = true then num r.impactTime else num l.impactTime) = _
            by_cases hlt : l.impactTime < r.impactTime
            · rw [if_pos (decide_eq_true hlt), max_eq_right hlt.le]; rfl
            · rw [if_neg (by simpa using hlt), max_eq_left (not_lt.mp hlt)]; rfl
          rw [e]
          by_cases h3 : i < max l.impactTime r.impactTime
          · rw [if_pos (decide_eq_true h3), if_pos h3]; exact Or.inr rfl
          · rw [if_neg (by simpa using h3), if_neg h3, orderSteps_up]
            refine Agree.bind (Agree.refl' _) fun o _ => ?_
            have hcr := create_agree (f := f) (i := i)
              { c with nominalSwitchTime := f (c.switchPercentage * c.nominalStepTime) } (not_le.mp h2).ne' h (l :: ls) (r :: rs) o
            exact Agree.bind hcr fun t _ => Or.inr rfl

end Uni.Special
