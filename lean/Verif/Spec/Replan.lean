import Verif.Model.Replan
import Verif.Spec.PlanRun

/-! # What re-planning must do with the contacts -/

set_option autoImplicit false

namespace Uni.Spec

/-- `s` is the step on the ground at time `t`: the newest one landed by then. -/
def Present {K : Type} [LE K] [LT K] (steps : List (Step K)) (t : K) (s : Step K) : Prop :=
  ∃ older newer, steps = older ++ s :: newer ∧ s.impactTime ≤ t ∧ ∀ x ∈ newer, t < x.impactTime

/-- Same place on the ground. -/
def SamePlace (s out : Step ℝ) : Prop := out.position = s.position ∧ out.angle = s.angle

/-- The step is moved to the measured position; its angle is the measured one, written in the turn closest to the planned
angle. -/
def MovedTo (planned : Step ℝ) (position : Vec2 ℝ) (angle : ℝ) (out : Step ℝ) : Prop :=
  out.position = position ∧ (∃ n : ℤ, out.angle = angle + n * (2 * Real.pi)) ∧ |out.angle - planned.angle| ≤ Real.pi

/-- Where the contacts are after a request. -/
def PlacesAfter (q : Gen.Request ℝ) (sL sR cL cR : Step ℝ) : Prop :=
  match q with
  | .plain => SamePlace sL cL ∧ SamePlace sR cR
  | .steps mL mR => MovedTo sL mL.position mL.angle cL ∧ MovedTo sR mR.position mR.angle cR
  | .oneFoot true p a => MovedTo sL p a cL ∧ SamePlace sR cR
  | .oneFoot false p a => SamePlace sL cL ∧ MovedTo sR p a cR
  | .twoFeet pL aL pR aR => MovedTo sL pL aL cL ∧ MovedTo sR pR aR cR

/-- The robot is at rest according to the DCM generator. -/
def AtRest (dcm : Gen.DcmVelocity ℝ) : Prop := ∃ v, dcm = .known v ∧ Real.sqrt (v.x ^ 2 + v.y ^ 2) < 1 / 100000

/-- The landing times of the contacts after a request at time `t`: the same, except that they are aligned to the latest if the
robot is at rest, and that two measured steps that have both landed give their own times. -/
def TimesAfter (q : Gen.Request ℝ) (t : ℝ) (dcm : Gen.DcmVelocity ℝ) (sL sR cL cR : Step ℝ) : Prop :=
  (AtRest dcm → cL.impactTime = max sL.impactTime sR.impactTime ∧ cR.impactTime = max sL.impactTime sR.impactTime) ∧
  (¬ AtRest dcm →
    (∀ mL mR, q = .steps mL mR → mL.impactTime ≤ t → mR.impactTime ≤ t →
      cL.impactTime = mL.impactTime ∧ cR.impactTime = mR.impactTime) ∧
    ((∀ mL mR, q = .steps mL mR → t < mL.impactTime ∨ t < mR.impactTime) →
      cL.impactTime = sL.impactTime ∧ cR.impactTime = sR.impactTime))

end Uni.Spec
