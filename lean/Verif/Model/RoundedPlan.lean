import Verif.Model.Planner

/-! # The loop of the planner with rounded arithmetic (src/UnicyclePlanner.cpp:796-937)

The loop of `Verif.Model.Planner`, with the result of every floating point operation on times rounded by `fl` (once, to the same
format).  Nothing is assumed of the geometry: where the unicycle is, what a tiny step is, which steps are feasible and what they cost
are parameters, so that their rounding errors are covered.  Overflow is not modelled: `fl` is defined everywhere. -/

set_option autoImplicit false

namespace Uni

/-- What the loop asks about the places. -/
structure Geometry (K : Type) where
  /-- `swingFoot->isTinyStep(unicycleState)`, src/UnicyclePlanner.cpp:838 -/
  tiny : Loop K → Bool
  /-- `swingFoot->isTinyStep` beside the stance foot, src/UnicyclePlanner.cpp:868-872; nothing if the body executes `return false` -/
  tinyBack : Loop K → Option Bool
  /-- `swingFoot->addStepFromUnicycle(unicycleState, tOptim)`, src/UnicyclePlanner.cpp:847 -/
  land : Loop K → K → Bool × Foot K
  /-- `swingFoot->addParallelStep(*stanceFoot, t)`, src/UnicyclePlanner.cpp:875 -/
  parallel : Loop K → K → Bool × Foot K
  /-- constraints and cost of the step at the present time, given its duration, src/UnicyclePlanner.cpp:901-919; nothing if the body
  executes `return false`, no cost if the constraints are not satisfied -/
  weigh : Loop K → K → Option (Option K)

namespace RoundedPlan
variable {K : Type} [Field K] [LinearOrder K] (fl : K → K) (p : Planner K)

/-- The advance of the time cursor, src/UnicyclePlanner.cpp:932-936. -/
def nextTime (t : K) : K := if p.endTime < fl (t + p.dT) ∧ t < p.endTime then p.endTime else fl (t + p.dT)

/-- End of an iteration. -/
def advance (s : Loop K) : Loop K := { s with t := nextTime fl p s.t }

/-- Feet and previous step refreshed, then the end of the iteration, src/UnicyclePlanner.cpp:891-897, 932-936. -/
def refresh (s : Loop K) : Bool × Loop K :=
  match s.stance.getLastStep with
  | none => (false, s)
  | some prevStep => (true, advance fl p { s with prevStep := prevStep })

/-- The body of the `while` loop, src/UnicyclePlanner.cpp:829-936; the boolean is false if the body executes `return false`. -/
def body (g : Geometry K) (s : Loop K) : Bool × Loop K :=
  let deltaTime := fl (s.t - s.prevStep.impactTime)
  if p.minTime ≤ deltaTime ∧ fl (p.initTime + s.timeOffset) < s.t then
    if g.tiny s then (true, advance fl p { s with pauseTime := fl (s.pauseTime + p.dT) })
    else
      let deltaTime := fl (deltaTime - s.pauseTime)
      if p.maxTime < deltaTime ∨ s.t = p.endTime then
        if 0 < s.tOptim then
          match g.land s s.tOptim with
          | (false, f) => (false, s.setSwing f)
          | (true, f) =>
            refresh fl p { s.setSwing f with
              t := s.tOptim, pauseTime := 0, tOptim := -1, firstStep := false, timeOffset := 0, swingLeft := !s.swingLeft }
        else
          match g.tinyBack s with
          | none => (false, s)
          | some true => refresh fl p { s with pauseTime := fl (s.t - s.prevStep.impactTime) }
          | some false =>
            match g.parallel s s.t with
            | (false, f) => (false, s.setSwing f)
            | (true, f) =>
              refresh fl p { s.setSwing f with pauseTime := 0, firstStep := false, timeOffset := 0, swingLeft := !s.swingLeft }
      else
        match g.weigh s deltaTime with
        | none => (false, s)
        | some none => (true, advance fl p s)
        | some (some cost) =>
          if 0 < deltaTime ∧ (s.tOptim < 0 ∨ cost ≤ s.minCost) then
            (true, advance fl p { s with tOptim := s.t, minCost := cost })
          else (true, advance fl p s)
  else (true, advance fl p s)

/-- The `while` loop, src/UnicyclePlanner.cpp:828-937. -/
def loop (g : Geometry K) : Nat → Loop K → Planner.LoopResult K
  | 0, _ => .outOfFuel
  | n + 1, s =>
    if s.t ≤ p.endTime then
      match body fl p g s with
      | (true, s') => loop g n s'
      | (false, s') => .failed s'
    else .exit s

/-- The state of the loop at its first iteration, src/UnicyclePlanner.cpp:796-826. -/
def initialLoop (left right : Foot K) (prev : Step K) : Loop K :=
  ⟨p.initTime, -1, 10 ^ 10, fl (p.initTime - prev.impactTime), if p.firstStep then p.nominalTime else 0, prev,
    p.swingLeft, p.firstStep, left, right⟩

/-- The geometry of `Verif.Model.Planner`, without rounding. -/
def exact [Trig K] (sol : K → UState K) : Geometry K where
  tiny := fun s => s.swing.isTinyStep (sol s.t)
  tinyBack := fun s => (s.stance.getUnicycleStateFromStep s.prevStep).map fun u => s.swing.isTinyStep u
  land := fun s t => s.swing.addStepFromUnicycle (sol t) t
  parallel := fun s t => s.swing.addParallelStep s.stance t
  weigh := fun s deltaTime => (Planner.candidate s (sol s.t) deltaTime).map fun d =>
    if p.problem.areConstraintsSatisfied d = true then some (p.problem.cost d) else none

end RoundedPlan
end Uni
