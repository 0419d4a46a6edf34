import Verif.Model.CubicFeet
import Verif.Model.CoMHeight

/-! # What a call of a trajectory generator leaves in its vectors

The vectors that the getters return are members: they are resized at the beginning of a call and then overwritten sample after
sample.  `phaseLoop` gives the samples of a call that succeeds; here is what is in the vectors after any call.  Modelled for
the CoM height and for the two generators of the feet. -/

set_option autoImplicit false

namespace Uni

/-- `std::vector::resize`; `d` is a new element. -/
def resized {O : Type} (d : O) (n : Nat) (old : List O) : List O := old.take n ++ List.replicate (n - old.length) d

/-- The first elements are assigned, the others stay. -/
def overwrite {O : Type} (new old : List O) : List O := new ++ old.drop new.length

/-- The samples assigned by `phaseLoop` before it ends or stops; `part` are those that a phase that fails has assigned before
it fails. -/
def phaseWrites {S O : Type} (body : Nat → Bool → Phase → Nat → Nat → S → Out (S × List O))
    (part : Nat → Bool → Phase → Nat → Nat → S → List O) (phases : List Phase) : List Nat → Nat → Nat → S → List O
  | [], _, _, _ => []
  | stop :: rest, phase, start, s =>
    match phases[start]? with
    | none => []
    | some p =>
      if phases.length < stop then []
      else if stop < start then []
      else
        match body phase rest.isEmpty p start stop s with
        | .ok a => a.2 ++ phaseWrites body part phases rest (phase + 1) stop a.1
        | _ => part phase rest.isEmpty p start stop s

/-- The vectors after the loop. -/
def afterPhases {S O : Type} (body : Nat → Bool → Phase → Nat → Nat → S → Out (S × List O))
    (part : Nat → Bool → Phase → Nat → Nat → S → List O) (phases : List Phase) (shifts : List Nat) (s : S) (d : O)
    (old : List O) : List O :=
  overwrite (phaseWrites body part phases shifts.tail 1 0 s) (resized d phases.length old)

namespace CoMHeight
variable {K : Type} [Field K] [LinearOrder K]

/-- What `getCoMHeightTrajectory`, `getCoMHeightVelocity` and `getCoMHeightAccelerationProfile` return after
`computeNewTrajectories`, src/CoMHeightTrajectoryGenerator.cpp:34-105, if they returned `old` before: the vectors are resized
(new elements are zero) once the settings have been found acceptable; a spline that cannot be set up stops the call before
the samples of its phase are assigned. -/
def after (c : HeightSettings K) (dT : K) (leftPhases : List Phase) (shifts : List Nat) (old : List (Motion K)) :
    List (Motion K) :=
  if c.height < 0 then old
  else afterPhases (body c dT) (fun _ _ _ _ _ _ => []) leftPhases shifts () ⟨0, 0, 0⟩ old

end CoMHeight

namespace CubicFeet
variable {K : Type} [Field K] [LinearOrder K] [Trig K]

/-- The vectors of one foot after `interpolateFoot`, src/FeetCubicSplineGenerator.cpp:49-202; `d` is a pose, twist and
acceleration as the default constructors of iDynTree leave them.  All splines of a swing are set up before its first sample. -/
def footAfter (c : FeetSettings K) (z0 dT : K) (shifts : List Nat) (phases : List Phase) (steps : List (Step K))
    (d : FootSample K) (old : List (FootSample K)) : List (FootSample K) :=
  if c.stepHeight < 0 then old
  else afterPhases (footBody (swing c z0 dT)) (fun _ _ _ _ _ _ => []) phases shifts steps d old

/-- The vectors of both feet after `computeNewTrajectories`, src/FeetCubicSplineGenerator.cpp:215-230: those of the right foot
are not touched if the left foot fails. -/
def after (c : FeetSettings K) (z0 dT : K) (left right : FootPrint K) (lp rp : List Phase) (shifts : List Nat)
    (d : FootSample K) (old : List (FootSample K) × List (FootSample K)) : List (FootSample K) × List (FootSample K) :=
  (footAfter c z0 dT shifts lp left.steps d old.1,
    match interpolateFoot c z0 dT shifts lp left.steps with
    | .ok _ => footAfter c z0 dT shifts rp right.steps d old.2
    | _ => old.2)

end CubicFeet

namespace MinJerk
variable {K : Type} [Field K] [LinearOrder K] [FloorRing K] [Trig K]

/-- The samples assigned before the first failure. -/
def collectWrites {α : Type} (f : Nat → Out α) : List Nat → List α
  | [] => []
  | j :: l =>
    match f j with
    | .ok a => a :: collectWrites f l
    | _ => []

/-- The samples of a swing that are assigned before `minimumJerk` fails, src/FeetMinimumJerkGenerator.cpp:138-265. -/
def swingWrites (cfg : FeetSettings K) (dT : K) (s s' : Step K) (n : Nat) : List (FootSample K) :=
  let swingLength := (n : K) * dT
  let m := rising cfg n
  let up := swingSample dT s s' n 0 cfg.stepHeight 0 cfg.pitchDelta (swingLength * cfg.swingApex) 0
  match collect up (List.range m) with
  | .ok l => l ++ collectWrites (swingSample dT s s' n cfg.stepHeight 0 cfg.pitchDelta 0 (swingLength * (1 - cfg.swingApex)) m)
      (List.range' m (n - m))
  | _ => collectWrites up (List.range m)

/-- A phase that fails: a swing, whose next step is missing (then nothing is assigned) or one of whose samples fails. -/
def footWrites (cfg : FeetSettings K) (dT : K) (_phase : Nat) (_last : Bool) (_p : Phase) (start stop : Nat)
    (steps : List (Step K)) : List (FootSample K) :=
  match steps with
  | s :: s' :: _ => swingWrites cfg dT s s' (stop - start)
  | _ => []

/-- The vectors of one foot after `interpolateFoot`, src/FeetMinimumJerkGenerator.cpp:69-286. -/
def footAfter (c : FeetSettings K) (dT : K) (shifts : List Nat) (phases : List Phase) (steps : List (Step K))
    (d : FootSample K) (old : List (FootSample K)) : List (FootSample K) :=
  if c.stepHeight < 0 then old
  else afterPhases (footBody (swing c dT)) (footWrites c dT) phases shifts steps d old

/-- The vectors of both feet after `computeNewTrajectories`, src/FeetMinimumJerkGenerator.cpp:295-310. -/
def after (c : FeetSettings K) (dT : K) (left right : FootPrint K) (lp rp : List Phase) (shifts : List Nat)
    (d : FootSample K) (old : List (FootSample K) × List (FootSample K)) : List (FootSample K) × List (FootSample K) :=
  (footAfter c dT shifts lp left.steps d old.1,
    match interpolateFoot c dT shifts lp left.steps with
    | .ok _ => footAfter c dT shifts rp right.steps d old.2
    | _ => old.2)

end MinJerk
end Uni
