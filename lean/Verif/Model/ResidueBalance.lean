import Verif.Model.Residue
import Verif.Model.ZMP
import Verif.Model.DCM

/-! # What a call of the ZMP or of the DCM generator leaves in its vectors

As `Model/Residue`, for the generators that produce several vectors one after the other. -/

set_option autoImplicit false

namespace Uni

namespace Zmp
variable {K : Type} [Field K] [LinearOrder K] [FloorRing K]

/-- The weights assigned in a phase that fails, src/ZMPTrajectoryGenerator.cpp:98-172: a spline is set up before its samples are
assigned, so only a pause that has been reached leaves samples. -/
def weightWrites (c : ZmpTimes K) (init : Motion K) (dT : K) (phase : Nat) (_last : Bool) (p : Phase) (start stop : Nat)
    (_ : Unit) : List (Motion K) :=
  let n := stop - start
  let y0 := if phase = 1 then init.pos else if p = .switchIn then 0 else 1
  let v0 := if phase = 1 then init.vel else 0
  if c.pauses dT n then
    match spline2 y0 v0 (1 / 2) 0 c.endSwitch with
    | .ok f =>
      let a := (stdRound (c.endSwitch / dT)).toNat
      samples dT f a ++ List.replicate ((n : ℤ) - stdRound (c.nominalSwitch / dT) - a).toNat ⟨1 / 2, 0, 0⟩
    | _ => []
  else []

/-- The weights on the left foot after `computeFootWeightPortion`, src/ZMPTrajectoryGenerator.cpp:59-196. -/
def weightsAfter (c : ZmpTimes K) (init : Motion K) (dT : K) (phases : List Phase) (shifts : List Nat) (old : List (Motion K)) :
    List (Motion K) :=
  afterPhases (weightBody c init phases dT) (weightWrites c init dT) phases shifts () ⟨0, 0, 0⟩ old

/-- What `getInitialStatesAtMergePoints` returns after `computeFootWeightPortion`, lines 71-72 and 88-95 (126-133, 143-150,
178-185): the samples at the merge points are stored as they are assigned. -/
def statesAfter (c : ZmpTimes K) (init : Motion K) (dT : K) (merges : List Nat) (phases : List Phase) (shifts : List Nat)
    (states : List (Motion K)) : Out (List (Motion K)) :=
  recordStates merges (phaseWrites (weightBody c init phases dT) (weightWrites c init dT) phases shifts.tail 1 0 ()) 0 0
    (resizeStates states merges.length)

/-- The ZMP in the frame of a foot after `computeLocalZMP`, src/ZMPTrajectoryGenerator.cpp:223-355: the splines of a phase are
set up before its first sample.  `g` is a point, a velocity and an acceleration as the default constructor of
`iDynTree::Vector2` leaves them. -/
def localAfter (c : ZmpTimes K) (stance switch : Vec2 K) (dT : K) (phases : List Phase) (shifts : List Nat) (g : Motion2 K)
    (old : List (Motion2 K)) : List (Motion2 K) :=
  afterPhases (localBody c stance switch dT) (fun _ _ _ _ _ _ => []) phases shifts () g old

variable [Trig K]

/-- All the vectors after `computeNewTrajectories`, src/ZMPTrajectoryGenerator.cpp:509-572: each one is begun only when the
one before is complete. -/
def after (z : Zmp K) (cfg : GenSettings K) (initTime dT : K) (left right : FootPrint K) (ordered : List (Step K))
    (leftPhases rightPhases : List Phase) (shifts : List Nat) (g : Motion2 K) (old : ZmpOut K) : ZmpOut K :=
  let c := ZmpTimes.of cfg
  let o := { old with weightL := weightsAfter c z.start dT leftPhases shifts old.weightL }
  match weights c z.start dT leftPhases shifts with
  | .ok wl =>
    let o := { o with weightR := mirror wl, localL := localAfter c z.leftStance z.leftSwitch dT leftPhases shifts g old.localL }
    match localZmp c z.leftStance z.leftSwitch dT leftPhases shifts with
    | .ok zl =>
      let o := { o with localR := localAfter c z.rightStance z.rightSwitch dT rightPhases shifts g old.localR }
      match localZmp c z.rightStance z.rightSwitch dT rightPhases shifts with
      | .ok zr =>
        match z.previousSteps left right with
        | .ok p =>
          match world p.1 p.2 initTime dT shifts ordered left.footName right.footName zl zr wl (mirror wl) with
          | .ok w => { o with world := w }
          | _ => o
        | _ => o
      | _ => o
    | _ => o
  | _ => o

end Zmp

namespace Dcm
variable {K : Type} [Field K] [LinearOrder K] [Trig K]

/-- The vector of the pieces when the loop of src/DCMTrajectoryGeneratorHelper.cpp:1260-1295 ends or stops (`addSteps`). -/
def addStepsAfter (d : Dcm K) : List Nat → List (Step K) → List (Piece K) → List (Piece K)
  | e :: s :: x :: shifts, step :: steps, next :: tr =>
    match d.zmpOf step with
    | .ok z =>
      let bTime := (next.start + (e : K) * d.dT) * d.alpha
      match d.addNewStep ((s : K) * d.dT) ((e : K) * d.dT) z bTime (next.pos d.omega bTime) (next :: tr) with
      | .ok tr => addStepsAfter d (x :: shifts) steps tr
      | _ => next :: tr
    | _ => next :: tr
  | _, _, tr => tr

/-- The vector of the pieces, in the order of time, after lines 1200-1353: it is emptied first (line 1200), and pieces are
added from the end of the walk on. -/
def piecesAfter (d : Dcm K) (ordered : List (Step K)) (phases : List Phase) (init : Vec2 K × Vec2 K) (shifts : List Nat) :
    List (Piece K) :=
  match d.pieces ordered phases init shifts with
  | .ok tr => tr
  | _ =>
    match shifts.reverse, ordered.reverse with
    | dsEnd :: ssEnd :: ssStart :: rest, last :: other :: steps =>
      match d.zmpOf last, d.zmpOf other with
      | .ok zl, .ok zo =>
        match d.addLastStep ((ssStart : K) * d.dT) ((ssEnd : K) * d.dT) ((dsEnd : K) * d.dT) zo ((ssEnd : K) * d.dT)
            ((1 - d.lastOffset) * zo + d.lastOffset * zl) (middle zl zo) with
        | .ok tr => if 2 < ordered.length then d.addStepsAfter rest steps tr else []
        | _ => []
      | _, _ => []
    | _, _ => []

/-- The samples after `evaluateDCMTrajectory`, lines 1371-1417: the vectors are emptied, then filled sample after sample. -/
def evaluateAfter (d : Dcm K) : Nat → Nat → List (Piece K) → List (DcmSample K)
  | 0, _, _ => []
  | _ + 1, _, [] => []
  | n + 1, t, p :: ps =>
    let time := (t : K) * d.dT
    match (if p.stop < time then ps else p :: ps) with
    | [] => []
    | q :: qs =>
      match q.sample d.omega time (d.dT / 2) with
      | .ok s => s :: evaluateAfter d n (t + 1) (q :: qs)
      | _ => []

/-- The weights assigned in a phase that fails, lines 836-858: the samples of a single support are assigned before the steps
are found missing. -/
def weightWrites (_phase : Nat) (_last : Bool) (p : Phase) (start stop : Nat) (_ : List (Step K) × List (Step K)) :
    List (K × K) :=
  List.replicate (stop - start) (if p = .stance then (1, 0) else (0, 1))

/-- The weights after `computeFeetWeight`, lines 807-887; `n` is the number of samples of the ZMP. -/
def weightsAfter (d : Dcm K) (phases : List Phase) (shifts : List Nat) (left right : List (Step K)) (zmps : List (Vec2 K))
    (old : List (K × K)) : List (K × K) :=
  overwrite (phaseWrites (d.weightBody zmps) weightWrites phases shifts.tail 1 0 (left, right)) (resized (0, 0) zmps.length old)

/-- All the vectors after `generateDCMTrajectory`, src/DCMTrajectoryGeneratorHelper.cpp:1182-1368. -/
def generateAfter (d : Dcm K) (ordered : List (Step K)) (phases : List Phase) (left right : List (Step K))
    (init : Vec2 K × Vec2 K) (shifts : List Nat) (old : DcmOut K) : DcmOut K :=
  if ordered.length < 2 then old
  else
    let o := { old with pieces := d.piecesAfter ordered phases init shifts }
    match d.pieces ordered phases init shifts with
    | .ok tr =>
      let n := shifts.getLastD 0 - shifts.headD 0
      let o := { o with samples := d.evaluateAfter n (shifts.headD 0) tr }
      match d.evaluate n (shifts.headD 0) tr with
      | .ok s => { o with weights := d.weightsAfter phases shifts left right (s.map DcmSample.zmp) old.weights }
      | _ => o
    | _ => o

/-- All the vectors after `computeNewTrajectories`, src/DCMTrajectoryGenerator.cpp:41-117: a call that is refused before
`generateDCMTrajectory` does not touch them. -/
def after (d : Dcm K) (cfg : GenSettings K) (initTime dT : K) (ordered : List (Step K)) (shifts : List Nat)
    (leftPhases : List Phase) (left right : FootPrint K) (old : DcmOut K) : DcmOut K :=
  match d.setInitial left.steps right.steps, left.steps, right.steps with
  | .ok d, l :: _, r :: _ =>
    if dT ≤ 0 then old
    else if initTime < max l.impactTime r.impactTime then old
    else
      match { d with dT := dT }.setPauseConditions cfg.pauseActive (cfg.switchPercentage * cfg.maxStepTime)
          (cfg.switchPercentage * cfg.nominalStepTime) cfg.endSwitch with
      | (false, _) => old
      | (true, d) =>
        match d.initial with
        | none => old
        | some init => d.generateAfter ordered leftPhases left.steps right.steps init shifts old
  | _, _, _ => old

end Dcm
end Uni
