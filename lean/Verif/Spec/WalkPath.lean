import Verif.Spec.PlanRun

/-! # Walking along a path: vocabulary (over ℝ) -/

set_option autoImplicit false

namespace Uni.Spec

/-- A planner configured to navigate, whose path is to be followed from its beginning. -/
structure Navigates (p : Planner ℝ) (path : List (UState ℝ)) : Prop where
  controller : p.controller = .navigation
  given : p.ctrl.nav.path = path
  fresh : p.ctrl.nav.newPath = some true
  first : p.ctrl.nav.poseIndex = 1
  long : 2 ≤ path.length
  headings : ∀ g ∈ path, |g.angle| ≤ Real.pi
  step : 0 < p.integratorStep
  period : p.ctrl.nav.dt = p.integratorStep
  turn : 0 ≤ p.ctrl.nav.base.turnGain
  back : 0 < p.ctrl.nav.base.backFactor
  linear : 2 * NavCtrl.zeroTolerance ≤ speedLimit p
  lateral : 2 * NavCtrl.zeroTolerance ≤ speedLimit p * p.ctrl.nav.base.sideFactor
  angular : 0 < turnLimit p
  short : p.integratorStep * (turnLimit p / (1 + p.ctrl.nav.base.turnGain)) ≤ Real.pi

/-- The unicycle is at a pose, up to the motion in one or two integration steps. -/
def AtPose (p : Planner ℝ) (g s : UState ℝ) : Prop :=
  (g.position - s.position).normSq ≤
      2 * p.integratorStep ^ 2 * (speedLimit p ^ 2 + (speedLimit p * p.ctrl.nav.base.sideFactor) ^ 2) ∧
    ∃ k : ℤ, |g.angle - s.angle + 2 * Real.pi * k| ≤ p.integratorStep * (turnLimit p / (1 + p.ctrl.nav.base.turnGain))

/-- A planner configured to navigate that takes its path for completed. -/
structure PathDone (p : Planner ℝ) : Prop where
  controller : p.controller = .navigation
  path : p.ctrl.nav.path ≠ []
  last : p.ctrl.nav.poseIndex = p.ctrl.nav.path.length - 1
  old : p.ctrl.nav.newPath = some false
  eta : ∃ e, p.ctrl.nav.eta = some e ∧ e < p.ctrl.nav.dt
  command : p.ctrl.nav.desired = ⟨0, 0, 0⟩
  turn : 0 ≤ p.ctrl.nav.base.turnGain
  back : 0 ≤ p.ctrl.nav.base.backFactor
  side : 0 ≤ p.ctrl.nav.base.sideFactor
  linear : 0 ≤ speedLimit p
  angular : 0 ≤ turnLimit p

end Uni.Spec
