import Verif.Model.Spline

/-! # `FeetCubicSplineGenerator` (src/FeetCubicSplineGenerator.cpp)

Setters and initial values are the same as those of `FeetMinimumJerkGenerator` (`FeetSettings.new`, `FeetSettings.run`):
src/FeetCubicSplineGenerator.cpp:20, 236-274. -/

set_option autoImplicit false

namespace Uni.CubicFeet

variable {K : Type} [Field K] [LinearOrder K] [Trig K]

/-- The samples of a swing of `n` samples, src/FeetCubicSplineGenerator.cpp:83-183.  `z0` is `zPositionsBuffer(0)`, which no
statement ever writes: it is a parameter of the model (a `VectorDynSize` is not required to be initialised).  The final
conditions of the pitch spline are never set either (line 129 sets the initial ones twice); `CubicSpline` is constructed
with zero ones. -/
def swing (c : FeetSettings K) (z0 dT : K) (s s' : Step K) (n : Nat) : Out (List (FootSample K)) := do
  let swingLength := (n : K) * dT
  let apex := c.swingApex * swingLength
  let x ← spline2 s.position.x 0 s'.position.x 0 swingLength
  let y ← spline2 s.position.y 0 s'.position.y 0 swingLength
  let z ← spline3 z0 0 c.stepHeight 0 c.landingVelocity apex swingLength
  let yaw ← spline2 s.angle 0 s'.angle 0 swingLength
  let pitch ← spline3 0 0 c.pitchDelta 0 0 apex swingLength
  .ok ((List.range n).map fun (j : Nat) =>
    let t := (j : K) * dT
    sampleOf (x t) (y t) (z t) (pitch t) (yaw t))

/-- `interpolateFoot`, src/FeetCubicSplineGenerator.cpp:49-202. -/
def interpolateFoot (c : FeetSettings K) (z0 dT : K) (shifts : List Nat) (phases : List Phase) (steps : List (Step K)) :
    Out (List (FootSample K)) :=
  if c.stepHeight < 0 then .fail
  else do
    let r ← overPhases (footBody (swing c z0 dT)) phases shifts steps
    .ok r.2

/-- `computeNewTrajectories`, src/FeetCubicSplineGenerator.cpp:215-230. -/
def computeNewTrajectories (c : FeetSettings K) (z0 dT : K) (left right : FootPrint K) (lp rp : List Phase)
    (shifts : List Nat) : Out (List (FootSample K) × List (FootSample K)) := do
  let l ← interpolateFoot c z0 dT shifts lp left.steps
  let r ← interpolateFoot c z0 dT shifts rp right.steps
  .ok (l, r)

end Uni.CubicFeet
