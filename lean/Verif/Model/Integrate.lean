import Verif.Model.Planner

/-! # The integrator with the controllers of the planner

The numerical integrator is iDynTree's (external).  Here it is a fixed-step forward Euler scheme; the durations of its steps are
a parameter.  `getIntegratorSolution` is code of this repository. -/

set_option autoImplicit false

namespace Uni.Planner
variable {K : Type*} [Field K] [LinearOrder K] [FloorRing K] [Trig K]

/-- `setUnicycleStateFeedback` and `doControl` of the controller in use, as `ControlledUnicycle::dynamics` calls them,
src/ControlledUnicycle.cpp:41-49; `none` if one of them fails.  `garbage` is the element read uninitialised by
`getTangentVector`.  The navigation controller, which remembers its progress between two evaluations, is not covered: it
fails. -/
def controlAt (p : Planner K) (garbage : K) (t : K) (s : UState K) : Option (Control K) :=
  match p.controller with
  | .direct => p.ctrl.direct.control p.ctrl.directBase t
  | .personFollowing =>
    match (p.ctrl.person.setFeedback t s.position s.angle).doUnicycleControl garbage with
    | .ok u => p.ctrl.person.base.doControl (some u)
    | _ => none
  | .navigation => none

/-- The states at the ends of the integration steps with the given durations (external contract: forward Euler). -/
def trajectory (control : K → UState K → Option (Control K)) : List K → K → UState K → Option (List (UState K))
  | [], _, s => some [s]
  | d :: ds, t, s => (control t s).bind fun u => (trajectory control ds (t + d) (eulerStep d s u)).map (s :: ·)

/-- `getIntegratorSolution`, src/UnicyclePlanner.cpp:290-308, for a non-empty solution and a time that is not before its
beginning: the nearest of the stored states. -/
def solutionAt (solution : List (UState K)) (initTime maxStep : K) (default : UState K) (t : K) : UState K :=
  solution.getD (min (stdRound ((t - initTime) / maxStep)).toNat (solution.length - 1)) default

/-- `getIntegratorSolution` on the stored solution (instants and states), src/UnicyclePlanner.cpp:290-308.  The checks that
there is a solution and that the time is in its range are `assert`s: this is the function without them (`NDEBUG`); with them the
program is aborted instead.  The step size is the one the integrator has at the moment of the query. -/
def getIntegratorSolution (solution : List (K × UState K)) (maxStep t : K) : Out (UState K) :=
  match solution with
  | [] => .ub .badIterator
  | first :: rest =>
    if maxStep = 0 then .ub .divByZero
    else
      match roundSize ((t - first.1) / maxStep) with
      | .ok index => .ok ((first :: rest).getD (min index rest.length) first).2
      | .fail => .fail
      | .ub w => .ub w

/-- `getPersonPosition`, src/UnicyclePlanner.cpp:985-998. -/
def getPersonPosition (p : Planner K) (solution : List (K × UState K)) (t : K) : Out (Vec2 K) := do
  let u ← getIntegratorSolution solution p.integratorStep t
  .ok (p.ctrl.person.getPersonPosition u.position u.angle)

/-- The integrator; `durations` gives the integration steps for an interval of a given length and a maximum step. -/
def euler (durations : K → K → List K) (garbage : K) : Integrator K := fun p u t₀ t₁ =>
  (p.ctrl,
    (trajectory (p.controlAt garbage) (durations (t₁ - t₀) p.integratorStep) t₀ u).map fun l =>
      solutionAt l t₀ p.integratorStep u)

end Uni.Planner
