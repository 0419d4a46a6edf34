import Verif.Spec.PlanRun
import Verif.Spec.Plane
import Verif.Spec.Trajectory

/-! # The limits of the planned motion: vocabulary (over ℝ) -/

set_option autoImplicit false

namespace Uni.Spec

/-- The settings of the controller in use that limit the velocities. -/
def baseOf (p : Planner ℝ) : BaseCtrl ℝ :=
  match p.controller with
  | .personFollowing => p.ctrl.person.base
  | .direct => p.ctrl.directBase
  | .navigation => p.ctrl.nav.base

/-- The largest speed of the unicycle: forward or backward, and sideways at the same time. -/
noncomputable def topSpeed (p : Planner ℝ) : ℝ :=
  Real.sqrt ((max 1 (baseOf p).backFactor * speedLimit p) ^ 2 + ((baseOf p).sideFactor * speedLimit p) ^ 2)

/-- From one state to another within a time `s`, with a speed of at most `v` and an angular velocity of at most `w`. -/
def InReach (v w s : ℝ) (a b : UState ℝ) : Prop := dist b.position a.position ≤ v * s ∧ |b.angle - a.angle| ≤ w * s

/-- The configuration of the controller in use is one that the setters accept, the navigation controller is not in use, and the
desired points are in the order of time (as they always are). -/
structure Limited (p : Planner ℝ) : Prop where
  controller : p.controller ≠ .navigation
  linear : 0 ≤ speedLimit p
  angular : 0 ≤ turnLimit p
  turn : 0 ≤ (baseOf p).turnGain
  back : 0 ≤ (baseOf p).backFactor
  side : 0 ≤ (baseOf p).sideFactor
  ordered : InTimeOrder p.ctrl.person.traj

end Uni.Spec
