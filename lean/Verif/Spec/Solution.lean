import Verif.Model.Integrate
import Mathlib.Data.Real.Basic

/-! # The motion stored by the integrator -/

set_option autoImplicit false

namespace Uni.Spec

/-- States at `t0`, `t0 + h`, `t0 + 2 h`, …; the last one may come earlier, at the end of the interval (iDynTree's fixed step
integrator, external contract). -/
structure Sampled (solution : List (ℝ × UState ℝ)) (t0 h : ℝ) : Prop where
  step : 0 < h
  nonempty : solution ≠ []
  regular : ∀ (i : Nat) (x : ℝ × UState ℝ), i + 1 < solution.length → solution[i]? = some x → x.1 = t0 + i * h
  final : ∀ x, solution.getLast? = some x →
    (if solution.length = 1 then x.1 = t0
     else t0 + ((solution.length : ℝ) - 2) * h < x.1 ∧ x.1 ≤ t0 + ((solution.length : ℝ) - 1) * h)

/-- Two motions that coincide on an interval. -/
def AgreeOn {K : Type*} [LE K] (t0 t1 : K) (f g : K → UState K) : Prop := ∀ t, t0 ≤ t → t ≤ t1 → f t = g t

/-- Two integrators that give the same verdict, leave the same controllers and find motions that coincide on the interval. -/
def SameInside {K : Type*} [LE K] (a b : Integrator K) : Prop := ∀ (p : Planner K) (u : UState K) (t0 t1 : K),
  (a p u t0 t1).1 = (b p u t0 t1).1 ∧
  (match (a p u t0 t1).2, (b p u t0 t1).2 with
    | some f, some g => AgreeOn t0 t1 f g
    | none, none => True
    | _, _ => False)

end Uni.Spec
