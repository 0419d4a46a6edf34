import Verif.Spec.PlanRun
import Verif.Model.Integrate
import Mathlib.Data.Real.Basic

/-! # A constant command -/

set_option autoImplicit false

namespace Uni.Spec

/-- Where the unicycle is after moving with the velocities `v`, in its own frame, for a time `s`, if it goes straight or turns on the
spot. -/
noncomputable def goOn (u : UState ℝ) (v : Control ℝ) (s : ℝ) : UState ℝ :=
  ⟨u.position + s * rot u.angle ⟨v.forward, v.lateral⟩, u.angle + s * v.angular⟩

/-- A command to go straight or to turn on the spot. -/
def Plain (v : Control ℝ) : Prop := v.angular = 0 ∨ (v.forward = 0 ∧ v.lateral = 0)

/-- A command within the velocity limits that come from the configuration of the planner. -/
structure WithinLimits (p : Planner ℝ) (v : Control ℝ) : Prop where
  speed_nonneg : 0 ≤ speedLimit p
  turn_nonneg : 0 ≤ p.ctrl.directBase.turnGain
  back_nonneg : 0 ≤ p.ctrl.directBase.backFactor
  side_nonneg : 0 ≤ p.ctrl.directBase.sideFactor
  angular : |v.angular| ≤ turnLimit p
  forward : v.forward ≤ speedLimit p / (1 + p.ctrl.directBase.turnGain * |v.angular|)
  backward : -(p.ctrl.directBase.backFactor * (speedLimit p / (1 + p.ctrl.directBase.turnGain * |v.angular|))) ≤ v.forward
  lateral : |v.lateral| ≤ p.ctrl.directBase.sideFactor * speedLimit p

/-- The integration steps: all of the maximum size, except the last one, which may be shorter (iDynTree's fixed step integrator,
external contract). -/
def FixedStep (durations : ℝ → ℝ → List ℝ) : Prop := ∀ len h : ℝ, 0 < len → 0 < h →
  ∃ (n : Nat) (r : ℝ), durations len h = List.replicate n h ++ [r] ∧ 0 < r ∧ r ≤ h ∧ n * h + r = len

/-- When a new command is executed: after the deactivation; if the robot stands with its feet together, when the first step may
end. -/
def executedFrom (p : Planner ℝ) (t0 : ℝ) (hadSteps together : Bool) : ℝ :=
  max t0 (if hadSteps && together then t0 + p.nominalTime - p.minTime else p.ctrl.direct.deactivationEnd)

/-- The unicycle state for which the foot is where it stands, if the feet are parallel. -/
def FeetParallel (p : Planner ℝ) (left right : FootPrint ℝ) : Prop :=
  ∀ l r, left.steps.getLast? = some l → right.steps.getLast? = some r → stateFor (leftFoot p left) l = stateFor (rightFoot p right) r

end Uni.Spec
