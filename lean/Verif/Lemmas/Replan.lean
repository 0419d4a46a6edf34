import Verif.Spec.Replan
import Verif.Props.FootPrint
import Verif.Lemmas.PlannerPlan

/-! # Facts about re-planning -/

set_option autoImplicit false
set_option linter.unusedSectionVars false

namespace Uni.Gen
open Spec

section
variable {K : Type} [Field K] [LinearOrder K] [IsStrictOrderedRing K]

theorem keepOnly_true {fp fp' : FootPrint K} {t : K} (hn : NonNeg fp) (h : fp.keepOnlyPresentStep t = (true, fp')) :
    ∃ s, Present fp.steps t s ∧ 0 ≤ s.impactTime ∧ fp' = ⟨[{ s with footName := fp.footName }], fp.footName⟩ := by
  rcases FootPrint.C02_exhaustive fp t with h1 | ⟨older, s, newer, e, h1, h2⟩
  · rw [FootPrint.C02_none fp t h1] at h; cases h
  · have h0 : 0 ≤ s.impactTime := hn s (by rw [e]; simp)
    rw [FootPrint.C02_some fp t older newer s e h1 h2 h0] at h
    refine ⟨s, ⟨older, newer, e, h1, h2⟩, h0, ?_⟩
    exact (Prod.mk.inj h).2.symm

theorem keepOnly_false {fp fp' : FootPrint K} {t : K} (hn : NonNeg fp) (h : fp.keepOnlyPresentStep t = (false, fp')) :
    fp' = fp ∧ ∀ s ∈ fp.steps, t < s.impactTime := by
  rcases FootPrint.C02_exhaustive fp t with h1 | ⟨older, s, newer, e, h1, h2⟩
  · rw [FootPrint.C02_none fp t h1] at h; exact ⟨(Prod.mk.inj h).2.symm, h1⟩
  · have h0 : 0 ≤ s.impactTime := hn s (by rw [e]; simp)
    rw [FootPrint.C02_some fp t older newer s e h1 h2 h0] at h
    cases h

theorem keepOnly_present {fp : FootPrint K} {t : K} {s : Step K} (hn : NonNeg fp) (h : Present fp.steps t s) :
    fp.keepOnlyPresentStep t = (true, ⟨[{ s with footName := fp.footName }], fp.footName⟩) := by
  obtain ⟨older, newer, e, h1, h2⟩ := h
  exact FootPrint.C02_some fp t older newer s e h1 h2 (hn s (by rw [e]; simp))

theorem replaceStep_true {edit : Bool} {fp fp' : FootPrint K} {s : Step K} (h : replaceStep edit fp s = (true, fp')) :
    (edit = false ∧ fp' = fp) ∨
    (edit = true ∧ 0 ≤ s.impactTime ∧ fp' = ⟨[{ s with footName := fp.footName }], fp.footName⟩) := by
  unfold replaceStep at h
  cases edit with
  | false => exact .inl ⟨rfl, (Prod.mk.inj h).2.symm⟩
  | true =>
    simp only [if_true, FootPrint.addStep, FootPrint.addStepRaw, FootPrint.clearSteps] at h
    split_ifs at h with h1
    · cases h
    exact .inr ⟨rfl, not_lt.mp h1, (Prod.mk.inj h).2.symm⟩

variable [Trig K]

theorem planFrom_true {p p' : Planner K} {integ : Integrator K} {fuel : Nat} {left right left' right' : FootPrint K} {t0 t1 : K}
    {prev prev' : Option (Step K × Step K)} (h : planFrom p integ fuel left right t0 t1 prev = .done true p' left' right' prev') :
    p.computeNewSteps integ fuel left right t0 t1 = .done true p' left' right' ∧ prev' = prev := by
  unfold planFrom at h
  split at h
  · cases h; exact ⟨by assumption, rfl⟩
  · cases h
  · cases h
  · cases h

/-- A foot that is not edited is given back its own step. -/
theorem editedSteps_left {initTime : K} {mL mR : Step K} {c : Correction} {prevL prevR : Step K}
    (h : c.editsLeft = false) : (editedSteps initTime mL mR c false prevL prevR).1 = prevL := by
  unfold editedSteps
  rw [h]
  simp only [Bool.false_eq_true, if_false]
  split_ifs <;> rfl

theorem editedSteps_right {initTime : K} {mL mR : Step K} {c : Correction} {prevL prevR : Step K}
    (h : c.editsRight = false) : (editedSteps initTime mL mR c false prevL prevR).2 = prevR := by
  unfold editedSteps
  rw [h]
  simp only [Bool.false_eq_true, if_false]
  split_ifs <;> rfl

/-- The contacts from which a successful call plans. -/
theorem computeNewStepsFromMeasured_true {p p' : Planner K} {integ : Integrator K} {fuel : Nat} {dcm : DcmVelocity K}
    {left right left' right' : FootPrint K} {t0 t1 : K} {mL mR : Step K} {c : Correction} {prev : Option (Step K × Step K)}
    (hL : NonNeg left) (hR : NonNeg right)
    (h : computeNewStepsFromMeasured p integ fuel dcm left right t0 t1 mL mR c = .done true p' left' right' prev) :
    ∃ sL sR reset cL cR, Present left.steps t0 sL ∧ Present right.steps t0 sR ∧ shouldReset dcm = .ok reset ∧
      (cL, cR) = editedSteps t0 mL mR c reset { sL with footName := left.footName } { sR with footName := right.footName } ∧
      0 ≤ cL.impactTime ∧ 0 ≤ cR.impactTime ∧
      p.computeNewSteps integ fuel ⟨[{ cL with footName := left.footName }], left.footName⟩
        ⟨[{ cR with footName := right.footName }], right.footName⟩ t0 t1 = .done true p' left' right' ∧
      prev = (if c ≠ .none ∨ reset = true then
        some ({ sL with footName := left.footName }, { sR with footName := right.footName }) else none) := by
  unfold computeNewStepsFromMeasured at h
  split at h
  · cases h
  · rename_i lp hl
    obtain ⟨sL, pL, nL, rfl⟩ := keepOnly_true hL hl
    simp only at h
    split at h
    · cases h
    · rename_i rp hr
      obtain ⟨sR, pR, nR, rfl⟩ := keepOnly_true hR hr
      split at h
      · cases h
      · cases h
      · rename_i reset hreset
        split_ifs at h with hc
        · simp only [FootPrint.getLastStep, List.getLast?_singleton] at h
          generalize he : editedSteps t0 mL mR c reset { sL with footName := left.footName }
            { sR with footName := right.footName } = e at h
          obtain ⟨cL, cR⟩ := e
          simp only at h
          split at h
          · cases h
          · rename_i lq hlq
            split at h
            · cases h
            · rename_i rq hrq
              obtain ⟨hplan, hprev⟩ := planFrom_true h
              have kl : 0 ≤ cL.impactTime ∧ lq = ⟨[{ cL with footName := left.footName }], left.footName⟩ := by
                rcases replaceStep_true hlq with ⟨e1, e2⟩ | ⟨-, e1, e2⟩
                · rw [Bool.or_eq_false_iff] at e1
                  obtain ⟨e3, rfl⟩ := e1
                  have := editedSteps_left (initTime := t0) (mL := mL) (mR := mR) (prevL := { sL with footName := left.footName })
                    (prevR := { sR with footName := right.footName }) e3
                  rw [he] at this
                  simp only at this
                  rw [this]
                  exact ⟨nL, e2⟩
                · exact ⟨e1, e2⟩
              have kr : 0 ≤ cR.impactTime ∧ rq = ⟨[{ cR with footName := right.footName }], right.footName⟩ := by
                rcases replaceStep_true hrq with ⟨e1, e2⟩ | ⟨-, e1, e2⟩
                · rw [Bool.or_eq_false_iff] at e1
                  obtain ⟨e3, rfl⟩ := e1
                  have := editedSteps_right (initTime := t0) (mL := mL) (mR := mR) (prevL := { sL with footName := left.footName })
                    (prevR := { sR with footName := right.footName }) e3
                  rw [he] at this
                  simp only at this
                  rw [this]
                  exact ⟨nR, e2⟩
                · exact ⟨e1, e2⟩
              refine ⟨sL, sR, reset, cL, cR, pL, pR, by assumption, he.symm, kl.1, kr.1, ?_, ?_⟩
              · rw [← kl.2, ← kr.2]; exact hplan
              · rw [if_pos hc]; exact hprev
        · rw [not_or, not_not, Bool.not_eq_true] at hc
          obtain ⟨rfl, rfl⟩ := hc
          obtain ⟨hplan, hprev⟩ := planFrom_true h
          have e1 := editedSteps_left (initTime := t0) (mL := mL) (mR := mR) (c := .none) (prevL := { sL with footName := left.footName })
                    (prevR := { sR with footName := right.footName }) rfl
          have e2 := editedSteps_right (initTime := t0) (mL := mL) (mR := mR) (c := .none) (prevL := { sL with footName := left.footName })
                    (prevR := { sR with footName := right.footName }) rfl
          refine ⟨sL, sR, false, { sL with footName := left.footName }, { sR with footName := right.footName }, pL, pR,
            by assumption, ?_, nL, nR, hplan, by simp [hprev]⟩
          rw [Prod.ext_iff]
          exact ⟨e1.symm, e2.symm⟩

end
end Uni.Gen
