import Verif.Spec.Plane
import Verif.Model.Integrate
import Mathlib.Analysis.SpecialFunctions.Sqrt

/-! # Following a point: vocabulary (over ℝ) -/

set_option autoImplicit false

namespace Uni.Spec

/-- How far the followed point, which the unicycle carries at `d` in its frame, is from where it should be. -/
noncomputable def offBy (d : Vec2 ℝ) (target : Vec2 ℝ) (s : UState ℝ) : ℝ := dist (inFrame s.position s.angle d) target

/-- The part of the gain that is left at worst by the limits of the velocities, at a distance up to `r` from the target. -/
noncomputable def effective (b : BaseCtrl ℝ) (gain dx r : ℝ) : ℝ :=
  min 1 (min (min 1 b.backFactor * (b.maxLinear / (1 + b.turnGain * b.maxAngular)) / (gain * r))
    (b.maxAngular * dx / (gain * r)))

/-- The integration step is short for a gain and a distance from the target. -/
def Short (gain dx r h : ℝ) : Prop := 0 ≤ h ∧ h * gain ≤ 1 / 2 ∧ h * gain * r ≤ dx

/-- A planner that follows a fixed target from a time on: the person-following controller is in use, the followed point is
straight ahead of the unicycle, the velocities are limited, motion in all directions is allowed, and the free space does not
interfere. -/
structure Follows (p : Planner ℝ) (target : Vec2 ℝ) (from_ : ℝ) : Prop where
  controller : p.controller = .personFollowing
  ahead : 0 < p.ctrl.person.personDistance.x
  straight : p.ctrl.person.personDistance.y = 0
  gain : 0 < p.ctrl.person.gain
  linear : 0 < p.ctrl.person.base.maxLinear
  angular : 0 < p.ctrl.person.base.maxAngular
  turn : 0 ≤ p.ctrl.person.base.turnGain
  back : 0 < p.ctrl.person.base.backFactor
  free : (p.ctrl.person.inner.isSet = false ∧ p.ctrl.person.outer.isSet = false) ∨
    (p.ctrl.person.inner.isSet = true ∧ p.ctrl.person.inner.isPointInside target = true)
  fixed : ∀ t, from_ ≤ t → p.ctrl.person.getDesiredPoint t = .ok (target, 0)

end Uni.Spec
