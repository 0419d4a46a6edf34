import Verif.Spec.Steady
import Verif.Spec.Turns

/-! # Told to stop -/

set_option autoImplicit false

namespace Uni.Spec

/-- The robot is driven directly, with zero velocities; steps take time and have a minimum size below which they are not made. -/
structure ToldToStop (p : Planner ℝ) : Prop where
  controller : p.controller = .direct
  command : p.ctrl.direct.desired = ⟨0, 0, 0⟩
  minTime : 0 < p.minTime
  minLength : 0 < p.minLength
  minAngle : 0 < p.minAngle
  integratorStep : 0 < p.integratorStep
  limits : WithinLimits p ⟨0, 0, 0⟩

/-- The two contacts are beside each other: they belong to the same pose of the unicycle. -/
def SideBySide (p : Planner ℝ) (l r : Step ℝ) : Prop := stateFor (leftFoot p ⟨[], ""⟩) l = stateFor (rightFoot p ⟨[], ""⟩) r

/-- The feet are to stand in the same way with respect to the unicycle. -/
def SameStance (p q : Planner ℝ) : Prop := q.nominalWidth = p.nominalWidth ∧ q.leftYaw = p.leftYaw ∧ q.rightYaw = p.rightYaw

/-- For controllers driven directly, the integrator is iDynTree's fixed step integrator (external contract). -/
def Integrates (integ : Integrator ℝ) : Prop := ∃ durations garbage, FixedStep durations ∧
  ∀ q u a b, q.controller = .direct → integ q u a b = Planner.euler durations garbage q u a b

end Uni.Spec
