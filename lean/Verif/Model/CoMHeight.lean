import Verif.Model.Loop
import Verif.Model.Spline

/-! # `CoMHeightTrajectoryGenerator` (src/CoMHeightTrajectoryGenerator.cpp) -/

set_option autoImplicit false

namespace Uni

variable {K : Type} [Field K] [LinearOrder K]

/-- The settings, src/CoMHeightTrajectoryGenerator.cpp:21. -/
@[ext] structure HeightSettings (K : Type*) where
  height : K
  delta : K
  deriving DecidableEq, Repr

namespace CoMHeight

/-- The statements executed for a phase, src/CoMHeightTrajectoryGenerator.cpp:61-102. -/
def body (c : HeightSettings K) (dT : K) (_phase : Nat) (_last : Bool) (p : Phase) (start stop : Nat) (s : Unit) :
    Out (Unit × List (Motion K)) :=
  match p with
  | .switchIn | .switchOut => .ok (s, List.replicate (stop - start) ⟨c.height, 0, 0⟩)
  | .stance | .swing => do
    let stanceLength := ((stop - start : Nat) : K) * dT
    let f ← spline3 c.height 0 (c.height + c.delta) c.height 0 (stanceLength / 2) stanceLength
    .ok (s, (List.range (stop - start)).map fun (j : Nat) => f ((j : K) * dT))

/-- `computeNewTrajectories`, src/CoMHeightTrajectoryGenerator.cpp:34-105: heights, velocities and accelerations. -/
def computeNewTrajectories (c : HeightSettings K) (dT : K) (leftPhases : List Phase) (shifts : List Nat) :
    Out (List (Motion K)) :=
  if c.height < 0 then .fail
  else do
    let r ← overPhases (body c dT) leftPhases shifts ()
    .ok r.2

end CoMHeight

namespace HeightSettings

/-- Initial values, src/CoMHeightTrajectoryGenerator.cpp:21. -/
def new : HeightSettings K := ⟨-1, 0⟩

/-- `setCoMHeightSettings`, src/CoMHeightTrajectoryGenerator.cpp:117-135. -/
def set (c : HeightSettings K) (comHeight comHeightStanceDelta : K) : Bool × HeightSettings K :=
  if comHeight < 0 then (false, c)
  else if comHeight + comHeightStanceDelta < 0 then (false, c)
  else (true, ⟨comHeight, comHeightStanceDelta⟩)

/-- A sequence of calls. -/
def runAll (c : HeightSettings K) (l : List (K × K)) : HeightSettings K := l.foldl (fun c a => (c.set a.1 a.2).2) c

end HeightSettings
end Uni
