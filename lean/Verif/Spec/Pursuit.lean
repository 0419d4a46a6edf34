import Verif.Spec.GoTo
import Verif.Spec.Feasible

/-! # A person followed from plan to plan: vocabulary -/

set_option autoImplicit false

namespace Uni.Spec
section
variable {K : Type*} [Field K] [LinearOrder K] [Trig K]

/-- Integrating a trajectory feeds the controller with states of the unicycle and changes nothing else of the controller that follows
the person (src/ControlledUnicycle.cpp:25-59: the dynamics calls `setStateFeedback` and `doControl` of the controller). -/
def OnlyFeeds (integ : Integrator K) : Prop :=
  ∀ q u a b, ∃ t x θ y, (integ q u a b).1.person =
    { q.ctrl.person with time := t, unicyclePosition := x, theta := θ, y := y }

/-- `n` successful planning requests in a row, each with at least one step already in the footprints. -/
inductive PlansInARow (integ : Integrator K) : Planner K → Nat → Planner K → Prop
  | none (p : Planner K) : PlansInARow integ p 0 p
  | next {p q r : Planner K} {n fuel : Nat} {left right left' right' : FootPrint K} {t0 t1 : K} :
      PlansInARow integ p n q → NonNeg left → NonNeg right → ¬ (left.steps = [] ∧ right.steps = []) →
      q.computeNewSteps integ fuel left right t0 t1 = .done true r left' right' → PlansInARow integ p (n + 1) r

end
end Uni.Spec
