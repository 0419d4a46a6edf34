import Verif.Model.Walker
import Verif.Spec.Fine
import Verif.Spec.Dcm
import Verif.Spec.Feet
import Verif.Spec.Replan

/-! # What the whole generator has to deliver -/

set_option autoImplicit false

namespace Uni.Spec
variable {K : Type}

/-- Every attached generator has a trajectory with `n` samples, and so have the phases and the contacts. -/
structure Complete (w : Walker K) (n : Nat) : Prop where
  phases : ∃ l r, w.outputs.getStepPhases = .ok (l, r) ∧ l.length = n ∧
    SameHorizon l r w.outputs.leftContact w.outputs.rightContact w.outputs.leftFixed
  cubic : ∀ p, w.cubic = some p → ∃ l r, p.result = some (l, r) ∧ l.length = n ∧ r.length = n
  minJerk : ∀ p, w.minJerk = some p → ∃ l r, p.result = some (l, r) ∧ l.length = n ∧ r.length = n
  zmp : ∀ p, w.zmp = some p → ∃ o, p.result = some o ∧ o.weightL.length = n ∧ o.weightR.length = n ∧ o.localL.length = n ∧
    o.localR.length = n ∧ o.world.length = n
  dcm : ∀ p, w.dcm = some p → ∃ o, p.result = some o ∧ o.samples.length = n ∧ o.weights.length = n
  height : ∀ p, w.height = some p → ∃ o, p.result = some o ∧ o.length = n

/-- Settings with which walks whose steps last at least `gap` can be generated with sampling period `dT`: every phase has room for
a sample, the heights have been given, and so have parameters of the DCM within their ranges; the pieces of the double supports
of the DCM last a sample. -/
structure Usable [Field K] [LinearOrder K] (w : Walker K) (gap dT : K) : Prop where
  fine : FineFor w.cfg gap dT
  cubic : ∀ p, w.cubic = some p → 0 ≤ p.state.stepHeight
  minJerk : ∀ p, w.minJerk = some p → 0 ≤ p.state.stepHeight
  zmp : w.zmp ≠ none → w.cfg.pauseActive = true → dT / 2 ≤ w.cfg.switchPercentage * w.cfg.nominalStepTime
  dcm : ∀ p, w.dcm = some p → ValidDcm p.state ∧ dT ≤ (w.cfg.endSwitch - dT / 2) * (1 - p.state.stillness) ∧
    (w.cfg.pauseActive = true → dT ≤ w.cfg.endSwitch ∧ dT ≤ w.cfg.switchPercentage * w.cfg.nominalStepTime ∧
      w.cfg.endSwitch + w.cfg.switchPercentage * w.cfg.nominalStepTime + dT ≤ w.cfg.switchPercentage * w.cfg.maxStepTime)
  height : ∀ p, w.height = some p → 0 ≤ p.state.height

/-- The names of the footprints: different; the DCM generator insists on "left" and "right". -/
structure Names (w : Walker K) (left right : FootPrint K) : Prop where
  left_steps : Named left
  right_steps : Named right
  differ : left.footName ≠ right.footName
  dcm : w.dcm ≠ none → left.footName = "left" ∧ right.footName = "right"

/-- The robot stands on both feet: there are no steps yet, or one contact per foot, established at the same time. -/
def StandsStill (left right : FootPrint K) : Prop :=
  (left.steps = [] ∧ right.steps = []) ∨ ∃ l r, left.steps = [l] ∧ right.steps = [r] ∧ l.impactTime = r.impactTime

/-- The motion of a foot follows its steps: in contact it is at rest on the step it landed on last; it starts from the first step
and arrives on the last one. -/
structure FeetFollow (phases : List Phase) (steps : List (Step K)) (out : List (FootSample K)) [Field K] : Prop where
  contact : ∀ (j : Nat) (p : Phase), phases[j]? = some p → p ≠ .swing →
    ∃ s o, steps[landings phases j]? = some s ∧ out[j]? = some o ∧ AtRestOn s o
  starts : ∃ s o, steps.head? = some s ∧ out.head? = some o ∧ AtRestOn s o
  arrives : ∃ s o, steps.getLast? = some s ∧ out.getLast? = some o ∧ AtRestOn s o

/-- A re-planning request at time `t` that does not come late: the contacts from which the new plan starts (C52) are
simultaneous, or the latest of them will last at least `gap` more, since a step takes at least `minTime`. -/
def Timely (q : Gen.Request ℝ) (t : ℝ) (dcm : Gen.DcmVelocity ℝ) (left right : List (Step ℝ)) (gap minTime : ℝ) : Prop :=
  ∀ sL sR cL cR, Present left t sL → Present right t sR → TimesAfter q t dcm sL sR cL cR →
    cL.impactTime = cR.impactTime ∨ t + gap ≤ max cL.impactTime cR.impactTime + minTime

end Uni.Spec
