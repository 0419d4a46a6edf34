import Verif.Model.Integrate

/-! # The integrator with the navigation controller

The navigation controller remembers its progress along the path between two evaluations, and keeps it when the integration is over.
The numerical integrator is iDynTree's (external): forward Euler, as in `Verif.Model.Integrate`. -/

set_option autoImplicit false

namespace Uni
variable {K : Type*} [Field K] [LinearOrder K] [FloorRing K] [Trig K]

omit [FloorRing K] in
/-- The states at the ends of the integration steps with the given durations, and the controller after them: every step evaluates
`ControlledUnicycle::dynamics` (src/ControlledUnicycle.cpp:25-59) once. -/
def NavCtrl.trajectory : List K → K → UState K → NavCtrl K → Out (List (UState K) × NavCtrl K)
  | [], _, s, c => .ok ([s], c)
  | d :: ds, t, s, c => do
    let r ← c.unicycleStep d t s
    let q ← NavCtrl.trajectory ds (t + d) r.1 r.2
    .ok (s :: q.1, q.2)

/-- The integrator (src/UnicyclePlanner.cpp:205-210, 290-308) with the navigation controller.  An integration with undefined behaviour is one
that fails; C50 and C121 tell when there is none. -/
def Planner.navEuler (durations : K → K → List K) : Integrator K := fun p u t₀ t₁ =>
  match NavCtrl.trajectory (durations (t₁ - t₀) p.integratorStep) t₀ u p.ctrl.nav with
  | .ok (l, c) => ({ p.ctrl with nav := c }, some (solutionAt l t₀ p.integratorStep u))
  | _ => (p.ctrl, none)

end Uni
