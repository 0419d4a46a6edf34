import Verif.Lemmas.PlannerCall
import Verif.Spec.Feasible

/-! # What a planning call does not change -/

set_option autoImplicit false
set_option linter.unusedSectionVars false

namespace Uni.Planner
open Spec
variable {K : Type*} [Field K] [LinearOrder K] [Trig K]

theorem SameConfig.refl (p : Planner K) : SameConfig p p := rfl

theorem SameConfig.trans {p q r : Planner K} (h1 : SameConfig p q) (h2 : SameConfig q r) : SameConfig p r := by
  obtain ⟨⟩ := p
  obtain ⟨⟩ := q
  obtain ⟨⟩ := r
  simp only [SameConfig, Planner.mk.injEq, true_and, and_true] at h1 h2 ⊢
  simp_all

/-- Only the controllers and the working variables of a planning call differ; the foot configured to start is the same too. -/
def Unchanged (p q : Planner K) : Prop :=
  q = { p with
    ctrl := q.ctrl, initTime := q.initTime, endTime := q.endTime, swingLeft := q.swingLeft, firstStep := q.firstStep }

theorem Unchanged.trans {p q r : Planner K} (h1 : Unchanged p q) (h2 : Unchanged q r) : Unchanged p r := by
  obtain ⟨⟩ := p
  obtain ⟨⟩ := q
  obtain ⟨⟩ := r
  simp only [Unchanged, Planner.mk.injEq, true_and, and_true] at h1 h2 ⊢
  simp_all

theorem Unchanged.same {p q : Planner K} (h : Unchanged p q) : SameConfig p q := by
  obtain ⟨⟩ := p
  obtain ⟨⟩ := q
  simp only [Unchanged, SameConfig, Planner.mk.injEq, true_and, and_true] at h ⊢
  simp_all

theorem Unchanged.startLeft {p q : Planner K} (h : Unchanged p q) : q.startLeft = p.startLeft := by rw [h]

theorem setSaturations_keep (p : Planner K) : Unchanged p p.setSaturations.2 := by
  unfold setSaturations
  simp only
  split
  · rfl
  · split
    · rfl
    · split_ifs <;> rfl

theorem chooseSwing_keep (p : Planner K) : Unchanged p p.chooseSwing := by
  unfold chooseSwing
  simp only
  split_ifs <;> rfl

/-- The planner left by an initialisation. -/
def InitResult.planner : InitResult K → Option (Planner K)
  | .failed p _ _ => some p
  | .ok p _ _ _ => some p
  | .ub _ => none

theorem initReferences_keep (p : Planner K) (left right : Foot K) (u : UState K) (tf t0 : K) :
    ∀ q ∈ (p.initReferences left right u tf t0).planner, Unchanged p q := by
  unfold initReferences
  intro q hq
  split_ifs at hq with h1
  · cases hq; rfl
  simp only at hq
  split at hq
  · cases hq; rfl
  · split_ifs at hq
    · split at hq
      · cases hq; rfl
      · cases hq
        exact Unchanged.trans (by rfl) (chooseSwing_keep _)
    · cases hq
      exact Unchanged.trans (by rfl) (chooseSwing_keep _)

theorem getInitialState_keep (p : Planner K) (left right : Foot K) (t0 : K) :
    ∀ q ∈ (p.getInitialStateFromFeet left right t0).planner, Unchanged p q := by
  unfold getInitialStateFromFeet
  intro q hq
  have key : ∀ (b f : Bool) (u : UState K) (tf : K),
      q ∈ (initReferences { p with swingLeft := b, firstStep := f } left right u tf t0).planner → Unchanged p q :=
    fun b f u tf h => Unchanged.trans (by rfl) (initReferences_keep _ left right u tf t0 q h)
  split at hq
  · split at hq
    · cases hq; rfl
    · cases hq
    · cases hq
      exact Unchanged.trans (by rfl) (chooseSwing_keep _)
  · split at hq
    · cases hq; rfl
    · exact key _ _ _ _ hq
  · split at hq
    · cases hq; rfl
    · exact key _ _ _ _ hq
  · split_ifs at hq <;> split at hq <;> first | (cases hq; rfl) | exact key _ _ _ _ hq

/-- The planner left by `initializePlanner`. -/
def SetupResult.planner : SetupResult K → Option (Planner K)
  | .failed p _ _ => some p
  | .ok p _ _ _ => some p
  | .ub _ => none

theorem initializePlanner_keep (p : Planner K) (integ : Integrator K) (left right : Foot K) :
    ∀ q ∈ (p.initializePlanner integ left right).planner, Unchanged p q := by
  unfold initializePlanner
  intro q hq
  split at hq
  · rename_i l r _ _
    have key := getInitialState_keep p l r p.initTime
    split at hq
    · rename_i h
      rw [h] at key
      cases hq
      exact key _ rfl
    · cases hq
    · rename_i h
      rw [h] at key
      have := key _ rfl
      split_ifs at hq
      · cases hq; exact this
      · split at hq
        · cases hq; exact Unchanged.trans this (by rfl)
        · cases hq; exact Unchanged.trans this (by rfl)
  · cases hq; rfl

/-- The planner left by a call. -/
def _root_.Uni.PlanResult.planner : PlanResult K → Option (Planner K)
  | .done _ p _ _ => some p
  | .ub _ => none
  | .outOfFuel => none

theorem alignLastSteps_keep (p : Planner K) (left right : FootPrint K) :
    ∀ q ∈ (p.alignLastSteps left right).planner, SameConfig p q := by
  unfold alignLastSteps
  intro q hq
  split at hq
  · split_ifs at hq <;> (cases hq; rfl)
  · cases hq

theorem plan_keep (p : Planner K) (sol : K → UState K) (fuel : Nat) (left right : Foot K) :
    ∀ q ∈ (p.plan sol fuel left right).planner, SameConfig p q := by
  unfold plan
  intro q hq
  split at hq
  · cases hq; rfl
  · split at hq
    · cases hq
    · cases hq; rfl
    · rename_i s _
      unfold finish at hq
      simp only at hq
      generalize hr : (if p.addTerminal = true then
        addTerminalStep { p with swingLeft := s.swingLeft, firstStep := s.firstStep } s.swingLeft s.left s.right (sol p.endTime)
        else (true, s.left, s.right)) = r at hq
      obtain ⟨ok, l, r⟩ := r
      cases ok with
      | false => cases hq; rfl
      | true =>
        simp only at hq
        split_ifs at hq
        · exact SameConfig.trans (by rfl) (alignLastSteps_keep _ _ _ q hq)
        · cases hq; rfl

theorem alignLastSteps_true {p : Planner K} {left right : FootPrint K} {ok : Bool} {q : Planner K} {l r : FootPrint K}
    (h : p.alignLastSteps left right = .done ok q l r) : ok = true := by
  unfold alignLastSteps at h
  split at h
  · split_ifs at h <;> (cases h; rfl)
  · cases h

theorem plan_false {p : Planner K} {sol : K → UState K} {fuel : Nat} {left right : Foot K} {q : Planner K} {l r : FootPrint K}
    (h : p.plan sol fuel left right = .done false q l r) : Unchanged p q := by
  unfold plan at h
  split at h
  · cases h; rfl
  · split at h
    · cases h
    · cases h; rfl
    · rename_i s _
      unfold finish at h
      simp only at h
      generalize hr : (if p.addTerminal = true then
        addTerminalStep { p with swingLeft := s.swingLeft, firstStep := s.firstStep } s.swingLeft s.left s.right (sol p.endTime)
        else (true, s.left, s.right)) = r at h
      obtain ⟨ok, l, r⟩ := r
      cases ok with
      | false => cases h; rfl
      | true =>
        simp only at h
        split_ifs at h
        · exact absurd (alignLastSteps_true h) (by simp)
        · cases h

/-- A call that fails leaves the configuration as it is, the foot configured to start included. -/
theorem computeNewSteps_false {p : Planner K} {integ : Integrator K} {fuel : Nat} {left right : FootPrint K} {t0 t1 : K}
    {q : Planner K} {l r : FootPrint K} (hq : p.computeNewSteps integ fuel left right t0 t1 = .done false q l r) :
    Unchanged p q := by
  unfold computeNewSteps at hq
  split_ifs at hq
  · cases hq; rfl
  · cases hq; rfl
  · cases hq; rfl
  have hs := setSaturations_keep { p with initTime := t0, endTime := t1 }
  split at hq
  · rename_i h
    rw [h] at hs
    cases hq
    exact Unchanged.trans (by rfl) hs
  · rename_i h
    rw [h] at hs
    have hs := Unchanged.trans (p := p) (by rfl) hs
    have key := fun p1 : Planner K => initializePlanner_keep p1 integ (Foot.new left) (Foot.new right)
    split at hq
    · rename_i h'
      cases hq
      exact Unchanged.trans hs (key _ _ (by rw [h']; rfl))
    · cases hq
    · rename_i h'
      exact Unchanged.trans hs (Unchanged.trans (key _ _ (by rw [h']; rfl)) (plan_false hq))

theorem computeNewSteps_keep (p : Planner K) (integ : Integrator K) (fuel : Nat) (left right : FootPrint K) (t0 t1 : K) :
    ∀ q ∈ (p.computeNewSteps integ fuel left right t0 t1).planner, SameConfig p q := by
  unfold computeNewSteps
  intro q hq
  split_ifs at hq
  · cases hq; rfl
  · cases hq; rfl
  · cases hq; rfl
  have hs := setSaturations_keep { p with initTime := t0, endTime := t1 }
  split at hq
  · rename_i h
    rw [h] at hs
    cases hq
    exact (Unchanged.trans (by rfl) hs).same
  · rename_i h
    rw [h] at hs
    have hs := Unchanged.trans (p := p) (by rfl) hs
    have key := fun p1 : Planner K => initializePlanner_keep p1 integ (Foot.new left) (Foot.new right)
    split at hq
    · rename_i h'
      cases hq
      exact (Unchanged.trans hs (key _ _ (by rw [h']; rfl))).same
    · cases hq
    · rename_i h'
      exact SameConfig.trans hs.same (SameConfig.trans (key _ _ (by rw [h']; rfl)).same (plan_keep _ _ _ _ _ q hq))

theorem plan_reset {p : Planner K} (hr : p.resetStartingFoot = true) (sol : K → UState K) (fuel : Nat) (left right : Foot K) :
    ∀ q ∈ (p.plan sol fuel left right).planner, Unchanged p q := by
  unfold plan
  intro q hq
  split at hq
  · cases hq; rfl
  · split at hq
    · cases hq
    · cases hq; rfl
    · rename_i s _
      unfold finish at hq
      simp only at hq
      generalize (if p.addTerminal = true then
        addTerminalStep { p with swingLeft := s.swingLeft, firstStep := s.firstStep } s.swingLeft s.left s.right (sol p.endTime)
        else (true, s.left, s.right)) = r at hq
      obtain ⟨ok, l, r⟩ := r
      cases ok with
      | false => cases hq; rfl
      | true =>
        simp only at hq
        split_ifs at hq
        · unfold alignLastSteps at hq
          split at hq
          · split_ifs at hq <;> (cases hq; rfl)
          · cases hq
        · cases hq; rfl

/-- If the starting foot is reset whenever the robot stands, planning does not change it. -/
theorem computeNewSteps_reset {p : Planner K} (hr : p.resetStartingFoot = true) {integ : Integrator K} {fuel : Nat}
    {left right : FootPrint K} {t0 t1 : K} {q : Planner K}
    (hq : q ∈ (p.computeNewSteps integ fuel left right t0 t1).planner) : Unchanged p q := by
  unfold computeNewSteps at hq
  split_ifs at hq
  · cases hq; rfl
  · cases hq; rfl
  · cases hq; rfl
  have hs := setSaturations_keep { p with initTime := t0, endTime := t1 }
  split at hq
  · rename_i h
    rw [h] at hs
    cases hq
    exact Unchanged.trans (by rfl) hs
  · rename_i h
    rw [h] at hs
    have hs := Unchanged.trans (p := p) (by rfl) hs
    have key := fun p1 : Planner K => initializePlanner_keep p1 integ (Foot.new left) (Foot.new right)
    split at hq
    · rename_i h'
      cases hq
      exact Unchanged.trans hs (key _ _ (by rw [h']; rfl))
    · cases hq
    · rename_i h'
      have hu := Unchanged.trans hs (key _ _ (by rw [h']; rfl))
      exact Unchanged.trans hu (plan_reset (by rw [hu]; exact hr) _ _ _ _ q hq)

end Uni.Planner
