import Verif.Spec.Follow
import Verif.Spec.Trajectory
import Verif.Spec.PlanRun

/-! # Going to a person: vocabulary (over ℝ) -/

set_option autoImplicit false

namespace Uni.Spec

/-- The free space does not interfere with a reference: there is none, or the reference is inside the inner ellipse. -/
def Unhindered (c : PersonCtrl ℝ) (y : Vec2 ℝ) : Prop :=
  (c.inner.isSet = false ∧ c.outer.isSet = false) ∨ (c.inner.isSet = true ∧ c.inner.isPointInside y = true)

/-- A planner configured to follow a person, who is to be at `target` from the time `T` on; `T` is later than the time `t0` at
which the plan begins and than the time at which the first step may end. -/
structure GoesTo (p : Planner ℝ) (target : Vec2 ℝ) (T t0 : ℝ) : Prop where
  controller : p.controller = .personFollowing
  ahead : 0 < p.ctrl.person.personDistance.x
  straight : p.ctrl.person.personDistance.y = 0
  gain : 0 < p.ctrl.person.gain
  linear : 0 < speedLimit p
  angular : 0 < turnLimit p
  turn : 0 ≤ p.ctrl.person.base.turnGain
  back : 0 < p.ctrl.person.base.backFactor
  free : Unhindered p.ctrl.person target
  ordered : InTimeOrder p.ctrl.person.traj
  wanted : ∃ x ∈ p.ctrl.person.traj, x.initTime = T
  fixed : ∀ x ∈ p.ctrl.person.traj, T ≤ x.initTime → x.y = target ∧ x.yDot = 0
  later : t0 < T
  afterHold : t0 + p.nominalTime - p.minTime < T

/-- A planner configured to follow a person, all of whose desired points have a time before `t0`. -/
structure OnlyPast (p : Planner ℝ) (t0 : ℝ) : Prop where
  controller : p.controller = .personFollowing
  linear : 0 ≤ speedLimit p
  angular : 0 ≤ turnLimit p
  turn : 0 ≤ p.ctrl.person.base.turnGain
  back : 0 ≤ p.ctrl.person.base.backFactor
  side : 0 ≤ p.ctrl.person.base.sideFactor
  past : ∀ x ∈ p.ctrl.person.traj, x.initTime < t0

/-- How far the point carried by the unicycle is from the target at a landing: the unicycle is where the foot belongs to it. -/
noncomputable def offAt (p : Planner ℝ) (left right : FootPrint ℝ) (target : Vec2 ℝ) (e : Landing ℝ) : ℝ :=
  offBy p.ctrl.person.personDistance target (stateFor (if e.left then leftFoot p left else rightFoot p right) e.step)

end Uni.Spec
