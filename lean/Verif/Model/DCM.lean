import Verif.Model.Loop

/-! # `DCMTrajectoryGenerator` (src/DCMTrajectoryGenerator.cpp, src/DCMTrajectoryGeneratorHelper.cpp)

`computeNewTrajectories` is private and called only by `UnicycleGenerator` (src/UnicycleGenerator.cpp:439-446), after the
timings have been computed.  The assertions of the constructors of the pieces (src/DCMTrajectoryGeneratorHelper.cpp:31-32) are
not executed by the model (they are disabled in release builds); that they hold is a theorem.  A polynomial over an interval
of length zero has coefficients that are not numbers, which is noticed only if it is evaluated. -/

set_option autoImplicit false

namespace Uni

/-- `DCMTrajectoryPoint`, include/DCMTrajectoryGeneratorHelper.h:31-36. -/
@[ext] structure DcmPoint (K : Type*) where
  time : K
  pos : Vec2 K
  vel : Vec2 K
  deriving DecidableEq, Repr

/-- `GeneralSupportTrajectory` and its three subclasses, src/DCMTrajectoryGeneratorHelper.cpp:26-694. -/
inductive Piece (K : Type*)
  /-- `SingleSupportTrajectory`: domain, ZMP, time and value of the boundary condition, lines 140-150. -/
  | single (start stop : K) (zmp : Vec2 K) (time : K) (pos : Vec2 K)
  /-- `DoubleSupportTrajectory`, lines 384-422. -/
  | cubic (init final : DcmPoint K)
  /-- `DoubleSupportTrajectoryMinJerk`, lines 533-579. -/
  | quintic (init final : DcmPoint K) (acc jerk : Vec2 K)
  deriving DecidableEq, Repr

variable {K : Type} [Field K] [LinearOrder K]

/-! ## Polynomials -/

/-- `DoubleSupportTrajectory::polinominalInterpolation`, lines 424-454: `[a3, a2, a1, a0]`. -/
def cubicCoeffs (p0 v0 p1 v1 T : K) : K × K × K × K :=
  (2 / T ^ 3 * p0 + 1 / T ^ 2 * v0 + -2 / T ^ 3 * p1 + 1 / T ^ 2 * v1,
   -3 / T ^ 2 * p0 + -2 / T * v0 + 3 / T ^ 2 * p1 + -1 / T * v1, v0, p0)

/-- `tVector` of `getDCMPosition`, lines 467-478. -/
def cubicPos (c : K × K × K × K) (t : K) : K := t ^ 3 * c.1 + t ^ 2 * c.2.1 + t * c.2.2.1 + c.2.2.2

/-- `tVector` of `getDCMVelocity`, lines 494-505. -/
def cubicVel (c : K × K × K × K) (t : K) : K := 3 * t ^ 2 * c.1 + 2 * t * c.2.1 + c.2.2.1

/-- `DoubleSupportTrajectoryMinJerk::polinominalInterpolation`, lines 581-614: `[a5, a4, a3, a2, a1, a0]`.  The entries `1/6`
and `1/2` of the third and fourth row are integer divisions: they are zero. -/
def quinticCoeffs (p0 v0 a0 j0 p1 v1 T : K) : K × K × K × K × K × K :=
  (4 / T ^ 5 * p0 + 3 / T ^ 4 * v0 + 1 / T ^ 3 * a0 + 1 / (6 * T ^ 2) * j0 + -4 / T ^ 5 * p1 + 1 / T ^ 4 * v1,
   -5 / T ^ 4 * p0 + -4 / T ^ 3 * v0 + -3 / (2 * T ^ 2) * a0 + -1 / (3 * T) * j0 + 5 / T ^ 4 * p1 + -1 / T ^ 3 * v1,
   0 * j0, 0 * a0, v0, p0)

/-- `tVector` of `getDCMPosition`, lines 627-640. -/
def quinticPos (c : K × K × K × K × K × K) (t : K) : K :=
  t ^ 5 * c.1 + t ^ 4 * c.2.1 + t ^ 3 * c.2.2.1 + t ^ 2 * c.2.2.2.1 + t * c.2.2.2.2.1 + c.2.2.2.2.2

/-- `tVector` of `getDCMVelocity`, lines 656-669. -/
def quinticVel (c : K × K × K × K × K × K) (t : K) : K :=
  5 * t ^ 4 * c.1 + 4 * t ^ 3 * c.2.1 + 3 * t ^ 2 * c.2.2.1 + 2 * t * c.2.2.2.1 + c.2.2.2.2.1

/-- A sample: position and velocity of the DCM, position of the ZMP. -/
@[ext] structure DcmSample (K : Type*) where
  pos : Vec2 K
  vel : Vec2 K
  zmp : Vec2 K
  deriving DecidableEq, Repr

namespace Piece
variable [Trig K]

/-- `getTrajectoryDomain().first`. -/
def start : Piece K → K
  | single a _ _ _ _ => a
  | cubic i _ => i.time
  | quintic i _ _ _ => i.time

/-- `getTrajectoryDomain().second`. -/
def stop : Piece K → K
  | single _ b _ _ _ => b
  | cubic _ f => f.time
  | quintic _ f _ _ => f.time

/-- The DCM at a time, for a polynomial over an interval that is not empty, lines 168-185, 456-481, 616-643. -/
def pos (ω : K) : Piece K → K → Vec2 K
  | single _ _ z b p, t => z + Trig.exp (ω * (t - b)) * (p - z)
  | cubic i f, t =>
    ⟨cubicPos (cubicCoeffs i.pos.x i.vel.x f.pos.x f.vel.x (f.time - i.time)) (t - i.time),
     cubicPos (cubicCoeffs i.pos.y i.vel.y f.pos.y f.vel.y (f.time - i.time)) (t - i.time)⟩
  | quintic i f a j, t =>
    ⟨quinticPos (quinticCoeffs i.pos.x i.vel.x a.x j.x f.pos.x f.vel.x (f.time - i.time)) (t - i.time),
     quinticPos (quinticCoeffs i.pos.y i.vel.y a.y j.y f.pos.y f.vel.y (f.time - i.time)) (t - i.time)⟩

/-- The velocity of the DCM at a time, lines 187-202, 483-508, 645-672. -/
def vel (ω : K) : Piece K → K → Vec2 K
  | single _ _ z b p, t => (ω * Trig.exp (ω * (t - b))) * (p - z)
  | cubic i f, t =>
    ⟨cubicVel (cubicCoeffs i.pos.x i.vel.x f.pos.x f.vel.x (f.time - i.time)) (t - i.time),
     cubicVel (cubicCoeffs i.pos.y i.vel.y f.pos.y f.vel.y (f.time - i.time)) (t - i.time)⟩
  | quintic i f a j, t =>
    ⟨quinticVel (quinticCoeffs i.pos.x i.vel.x a.x j.x f.pos.x f.vel.x (f.time - i.time)) (t - i.time),
     quinticVel (quinticCoeffs i.pos.y i.vel.y a.y j.y f.pos.y f.vel.y (f.time - i.time)) (t - i.time)⟩

/-- The ZMP at a time, lines 152-166, 510-530, 674-694. -/
def zmp (ω : K) (p : Piece K) (t : K) : Vec2 K :=
  match p with
  | single _ _ z _ _ => z
  | _ => p.pos ω t - (1 / ω) * p.vel ω t

/-- Whether position and velocity can be computed: a polynomial has been divided by the length of its interval. -/
def finite : Piece K → Bool
  | single _ _ _ _ _ => true
  | cubic i f => decide (f.time ≠ i.time)
  | quintic i f _ _ => decide (f.time ≠ i.time)

/-- Whether the ZMP can be computed: for the polynomials there is a division by `ω`. -/
def zmpFinite (ω : K) : Piece K → Bool
  | single _ _ _ _ _ => true
  | p => p.finite && decide (ω ≠ 0)

/-- `timeBelongsToDomain`, lines 46-57. -/
def inDomain (p : Piece K) (t tol : K) : Bool := decide (p.start - tol ≤ t ∧ t ≤ p.stop + tol)

/-- `getDCMPosition` and `getDCMVelocity` with the check of the domain. -/
def state (ω : K) (p : Piece K) (t tol : K) : Out (Vec2 K × Vec2 K) :=
  if p.inDomain t tol then
    if p.finite then .ok (p.pos ω t, p.vel ω t) else .ub .divByZero
  else .fail

/-- The three calls of lines 1397-1410. -/
def sample (ω : K) (p : Piece K) (t tol : K) : Out (DcmSample K) := do
  let s ← p.state ω t tol
  if p.zmpFinite ω then .ok ⟨s.1, s.2, p.zmp ω t⟩ else .ub .divByZero

end Piece

/-- The members of `DCMTrajectoryGeneratorImplementation` and `DCMTrajectoryGeneratorHelper` that keep their value between two
calls.  `initial` is `none` as long as `initialState` has not been written.  `leftDelta`, `rightDelta` are `offsetInLeftFoot`,
`offsetInRightFoot`, copied to the helper at every call (src/DCMTrajectoryGenerator.cpp:99). -/
@[ext] structure Dcm (K : Type*) where
  initial : Option (Vec2 K × Vec2 K)
  specified : Bool
  leftDelta : Vec2 K
  rightDelta : Vec2 K
  dT : K
  omega : K
  alpha : K
  stillness : K
  lastOffset : K
  maxSwitch : K
  nominalSwitch : K
  endSwitch : K
  pauseActive : Bool
  /-- `m_firstDCMTrajectoryMode` is `FifthOrderPoly` -/
  quintic : Bool
  deriving DecidableEq, Repr

/-- What a successful call computes. -/
@[ext] structure DcmOut (K : Type*) where
  /-- `getDCMSubTrajectories()`, in the order of time (the vector of the code is in the opposite order) -/
  pieces : List (Piece K)
  samples : List (DcmSample K)
  /-- weights on the left and on the right foot -/
  weights : List (K × K)
  deriving DecidableEq, Repr

namespace Dcm

/-- Constructors, src/DCMTrajectoryGenerator.cpp:26-38, src/DCMTrajectoryGeneratorHelper.cpp:696-706. -/
def new : Dcm K where
  initial := none
  specified := false
  leftDelta := 0
  rightDelta := 0
  dT := 1 / 100
  omega := 981 / 100 / (1 / 2)
  alpha := 1 / 2
  stillness := 1 / 10
  lastOffset := 0
  maxSwitch := -1
  nominalSwitch := -1
  endSwitch := -1
  pauseActive := false
  quintic := false

/-- `setDCMInitialState`, src/DCMTrajectoryGenerator.cpp:122-129. -/
def setDCMInitialState (d : Dcm K) (pos vel : Vec2 K) : Bool × Dcm K :=
  (true, { d with initial := some (pos, vel), specified := true })

/-- `setOmega`, src/DCMTrajectoryGeneratorHelper.cpp:708-718. -/
def setOmega (d : Dcm K) (x : K) : Bool × Dcm K := if x < 0 then (false, d) else (true, { d with omega := x })

/-- `setAlpha`, src/DCMTrajectoryGeneratorHelper.cpp:720-730. -/
def setAlpha (d : Dcm K) (x : K) : Bool × Dcm K := if x < 0 ∧ 1 < x then (false, d) else (true, { d with alpha := x })

/-- `setStillnessPercentage`, src/DCMTrajectoryGeneratorHelper.cpp:732-742. -/
def setStillnessPercentage (d : Dcm K) (x : K) : Bool × Dcm K :=
  if x < 0 ∧ 1 < x then (false, d) else (true, { d with stillness := x })

/-- `setLastStepDCMOffsetPercentage`, src/DCMTrajectoryGeneratorHelper.cpp:769-781. -/
def setLastStepDCMOffsetPercentage (d : Dcm K) (x : K) : Bool × Dcm K :=
  if 1 < x ∨ x < 0 then (false, d) else (true, { d with lastOffset := x })

/-- `setFootOriginOffset`, src/DCMTrajectoryGenerator.cpp:174-181. -/
def setFootOriginOffset (d : Dcm K) (l r : Vec2 K) : Bool × Dcm K := (true, { d with leftDelta := l, rightDelta := r })

/-- `setFirstDCMTrajectoryMode`, src/DCMTrajectoryGenerator.cpp:146-151. -/
def setFirstDCMTrajectoryMode (d : Dcm K) (fifth : Bool) : Dcm K := { d with quintic := fifth }

/-- `setPauseConditions`, src/DCMTrajectoryGeneratorHelper.cpp:1445-1485; the warning is not modelled. -/
def setPauseConditions (d : Dcm K) (active : Bool) (maxDS nominalDS endSwitch : K) : Bool × Dcm K :=
  if maxDS < 0 then (false, { d with pauseActive := false })
  else
    let d := { d with pauseActive := active, maxSwitch := maxDS }
    if active = true ∧ (nominalDS ≤ 0 ∨ endSwitch < 0) then (false, { d with pauseActive := false })
    else (true, { d with nominalSwitch := nominalDS, endSwitch := endSwitch })

variable [Trig K]

/-- `getZMPGlobalPosition`, src/DCMTrajectoryGeneratorHelper.cpp:783-805: the foot is recognised by the name of the step. -/
def zmpOf (d : Dcm K) (s : Step K) : Out (Vec2 K) :=
  if s.footName = "left" then .ok (s.position + rot s.angle d.leftDelta)
  else if s.footName = "right" then .ok (s.position + rot s.angle d.rightDelta)
  else .fail

/-- Half of the sum of two points. -/
def middle (a b : Vec2 K) : Vec2 K := (1 / 2 : K) * (a + b)

/-- `addLastStep`, src/DCMTrajectoryGeneratorHelper.cpp:889-953; in all the functions that build it the trajectory is listed in
the order of time. -/
def addLastStep (d : Dcm K) (ssStart ssEnd dsEnd : K) (z : Vec2 K) (bTime : K) (bPos target : Vec2 K) :
    Out (List (Piece K)) := do
  let p := Piece.single ssStart ssEnd z bTime bPos
  let s ← p.state d.omega ssEnd (d.dT / 2)
  let tEnd := ssEnd + (dsEnd - ssEnd) * (1 - d.stillness)
  .ok [p, .cubic ⟨ssEnd, bPos, s.2⟩ ⟨tEnd, target, 0⟩, .cubic ⟨tEnd, target, 0⟩ ⟨dsEnd, target, 0⟩]

/-- The condition for a pause, lines 1006-1010, 1094-1098. -/
def pauses (d : Dcm K) (duration : K) : Bool :=
  d.pauseActive && decide (max d.maxSwitch (d.endSwitch + d.nominalSwitch) < duration)

/-- The pieces that bring the DCM from `init` to `final` with a stop at `rest`, lines 1016-1047, 1104-1154; `first` makes
the first piece. -/
def pausePieces (d : Dcm K) (first : DcmPoint K → DcmPoint K → Piece K) (init final : DcmPoint K) (rest : Vec2 K) :
    List (Piece K) :=
  let a : DcmPoint K := ⟨init.time + d.endSwitch, rest, 0⟩
  let b : DcmPoint K := ⟨final.time - d.nominalSwitch, rest, 0⟩
  [first init a, .cubic a b, .cubic b final]

/-- The double support between `init` and `final`. -/
def doubleSupport (d : Dcm K) (first : DcmPoint K → DcmPoint K → Piece K) (init final : DcmPoint K) (rest : Vec2 K) :
    List (Piece K) :=
  if d.pauses (final.time - init.time) then d.pausePieces first init final rest else [first init final]

/-- `addNewStep`, src/DCMTrajectoryGeneratorHelper.cpp:955-1059.  `back()` of an empty vector is undefined. -/
def addNewStep (d : Dcm K) (ssStart ssEnd : K) (z : Vec2 K) (bTime : K) (bPos : Vec2 K) (tr : List (Piece K)) :
    Out (List (Piece K)) :=
  match tr with
  | [] => .ub .badIterator
  | next :: _ => do
    let p := Piece.single ssStart ssEnd z bTime bPos
    let s ← p.state d.omega ssEnd (d.dT / 2)
    let e ← next.state d.omega next.start (d.dT / 2)
    .ok (p :: d.doubleSupport .cubic ⟨ssEnd, s.1, s.2⟩ ⟨next.start, e.1, e.2⟩ (middle z (next.zmp d.omega 0)) ++ tr)

/-- The piece that begins the trajectory, lines 1139-1153, 1156-1172; initial acceleration and jerk are zero. -/
def firstPiece (d : Dcm K) (i f : DcmPoint K) : Piece K := if d.quintic then .quintic i f 0 0 else .cubic i f

/-- `addFirstDoubleSupportPhase`, src/DCMTrajectoryGeneratorHelper.cpp:1061-1180: the ZMP of the foot that swings first is
needed (and its name checked) only in a pause. -/
def addFirst (d : Dcm K) (init : DcmPoint K) (firstSwing : Step K) (tr : List (Piece K)) : Out (List (Piece K)) :=
  match tr with
  | [] => .ub .badIterator
  | next :: _ => do
    let e ← next.state d.omega next.start (d.dT / 2)
    let final : DcmPoint K := ⟨next.start, e.1, e.2⟩
    if d.pauses (final.time - init.time) then do
      let z ← d.zmpOf firstSwing
      .ok (d.pausePieces d.firstPiece init final (middle z (next.zmp d.omega 0)) ++ tr)
    else .ok (d.firstPiece init final :: tr)

/-- The loop of lines 1260-1295.  The lists hold what has not been used yet, from the end: `phaseShift[phaseIndex]`,
`phaseShift[phaseIndex - 1]`, … and `orderedSteps[orderedStepsIndex]`, …; the index of the steps wraps below zero. -/
def addSteps (d : Dcm K) : List Nat → List (Step K) → List (Piece K) → Out (List (Piece K))
  | e :: s :: x :: shifts, steps, tr =>
    match steps, tr with
    | [], _ => .ub .outOfRange
    | _, [] => .ub .badIterator
    | step :: steps, next :: _ => do
      let bTime := (next.start + (e : K) * d.dT) * d.alpha
      let z ← d.zmpOf step
      let tr ← d.addNewStep ((s : K) * d.dT) ((e : K) * d.dT) z bTime (next.pos d.omega bTime) tr
      addSteps d (x :: shifts) steps tr
  | _, _, tr => .ok tr

/-- The foot that swings first, lines 1305-1311. -/
def firstSwing (phase : Phase) (a b : Step K) : Step K :=
  if phase = .switchIn then (if a.footName = "right" then a else b) else (if a.footName = "left" then a else b)

/-- The pieces of a walk with at least a step, lines 1211-1316; the vectors are given from the end.  With three phase shifts
the index of the phases wraps. -/
def walkPieces (d : Dcm K) (shifts : List Nat) (steps : List (Step K)) (phases : List Phase) (ordered : List (Step K))
    (init : Vec2 K × Vec2 K) : Out (List (Piece K)) :=
  match shifts, steps, ordered with
  | dsEnd :: ssEnd :: ssStart :: x :: rest, last :: other :: steps, a :: b :: _ => do
    let zl ← d.zmpOf last
    let zo ← d.zmpOf other
    let bPos := (1 - d.lastOffset) * zo + d.lastOffset * zl
    let tr ← d.addLastStep ((ssStart : K) * d.dT) ((ssEnd : K) * d.dT) ((dsEnd : K) * d.dT) zo ((ssEnd : K) * d.dT) bPos
      (middle zl zo)
    let tr ← d.addSteps (x :: rest) steps tr
    match phases[0]? with
    | none => .ub .outOfRange
    | some p => d.addFirst ⟨0, init.1, init.2⟩ (firstSwing p a b) tr
  | _, _, _ => .ub .outOfRange

/-- The piece of a robot that stands, lines 1319-1352. -/
def standPieces (d : Dcm K) (front back : Nat) (a b : Step K) (init : Vec2 K × Vec2 K) : Out (List (Piece K)) := do
  let z1 ← d.zmpOf a
  let z2 ← d.zmpOf b
  .ok [.cubic ⟨(front : K) * d.dT, init.1, init.2⟩ ⟨(back : K) * d.dT, middle z1 z2, 0⟩]

/-- The pieces of the trajectory, lines 1189-1353. -/
def pieces (d : Dcm K) (ordered : List (Step K)) (phases : List Phase) (init : Vec2 K × Vec2 K) (shifts : List Nat) :
    Out (List (Piece K)) :=
  match ordered, shifts.head?, shifts.getLast? with
  | a :: b :: [], some front, some back => d.standPieces front back a b init
  | _ :: _ :: _ :: _, some _, some _ => d.walkPieces shifts.reverse ordered.reverse phases ordered init
  | _ :: _ :: _, _, _ => .ub .badIterator
  | _, _, _ => .fail

/-- The loop of `evaluateDCMTrajectory`, lines 1371-1417: `n` samples from the index `t` on.  The iterator advances at most
once for each sample; to dereference it past the last piece is undefined. -/
def evaluate (d : Dcm K) : Nat → Nat → List (Piece K) → Out (List (DcmSample K))
  | 0, _, _ => .ok []
  | _ + 1, _, [] => .ub .badIterator
  | n + 1, t, p :: ps =>
    let time := (t : K) * d.dT
    match (if p.stop < time then ps else p :: ps) with
    | [] => .ub .badIterator
    | q :: qs => do
      let s ← q.sample d.omega time (d.dT / 2)
      let l ← evaluate d n (t + 1) (q :: qs)
      .ok (s :: l)

/-- The weight on the left foot in double support, lines 873-877, for the ZMPs of the two feet.  If they coincide the
quotient is infinite or not a number, and the weight is zero. -/
def leftWeight (zl zr z : Vec2 K) : K :=
  if (zr - zl).norm = 0 then 0 else min 1 (max 0 (1 - (z - zl).norm / (zr - zl).norm))

/-- `leftFootPosition`, `rightFootPosition`, lines 864-870. -/
def footZmp (delta : Vec2 K) (s : Step K) : Vec2 K := s.position + rot s.angle delta

/-- The statements executed for a phase in `computeFeetWeight`, lines 836-883.  The state is the list of the steps of each
foot from the present one on. -/
def weightBody (d : Dcm K) (zmps : List (Vec2 K)) (_phase : Nat) (_last : Bool) (p : Phase) (start stop : Nat)
    (s : List (Step K) × List (Step K)) : Out ((List (Step K) × List (Step K)) × List (K × K)) :=
  let n := stop - start
  match p with
  | .stance =>
    match s.2 with
    | _ :: r :: rs => .ok ((s.1, r :: rs), List.replicate n (1, 0))
    | [_] => .fail
    | [] => .ub .badIterator
  | .swing =>
    match s.1 with
    | _ :: l :: ls => .ok ((l :: ls, s.2), List.replicate n (0, 1))
    | [_] => .fail
    | [] => .ub .badIterator
  | .switchIn | .switchOut =>
    match s.1, s.2 with
    | l :: _, r :: _ =>
      let z := (zmps.drop start).take n
      if z.length < n then .ub .outOfRange
      else .ok (s, z.map fun z =>
        let w := leftWeight (footZmp d.leftDelta l) (footZmp d.rightDelta r) z
        (w, 1 - w))
    | _, _ => .ub .badIterator

/-- `computeFeetWeight`, src/DCMTrajectoryGeneratorHelper.cpp:807-887. -/
def feetWeights (d : Dcm K) (phases : List Phase) (shifts : List Nat) (left right : List (Step K)) (zmps : List (Vec2 K)) :
    Out (List (K × K)) := do
  let r ← overPhases (d.weightBody zmps) phases shifts (left, right)
  .ok r.2

/-- `generateDCMTrajectory`, src/DCMTrajectoryGeneratorHelper.cpp:1182-1368.  The first phase shift is zero: the index of a
sample is its time (`evaluate`). -/
def generate (d : Dcm K) (ordered : List (Step K)) (phases : List Phase) (left right : List (Step K))
    (init : Vec2 K × Vec2 K) (shifts : List Nat) : Out (DcmOut K) := do
  let tr ← d.pieces ordered phases init shifts
  let n ← subSize (shifts.getLastD 0) (shifts.headD 0)
  let samples ← d.evaluate n (shifts.headD 0) tr
  let w ← d.feetWeights phases shifts left right (samples.map DcmSample.zmp)
  .ok ⟨tr, samples, w⟩

/-- The initial state used by a call, src/DCMTrajectoryGenerator.cpp:48-60. -/
def setInitial (d : Dcm K) (left right : List (Step K)) : Out (Dcm K) :=
  if d.specified then .ok d
  else
    match left, right with
    | l :: _, r :: _ => .ok { d with initial := some (middle (l.position + d.leftDelta) (r.position + d.rightDelta), 0) }
    | _, _ => .ub .badIterator

/-- `computeNewTrajectories`, src/DCMTrajectoryGenerator.cpp:41-117: return value, members afterwards, and what has been
computed if the value is true.  The vectors left behind by a call that fails are in
`Model/ResidueBalance`. -/
def computeNewTrajectories (d : Dcm K) (cfg : GenSettings K) (initTime dT : K) (ordered : List (Step K)) (shifts : List Nat)
    (leftPhases : List Phase) (left right : FootPrint K) : Out (Bool × Dcm K × Option (DcmOut K)) := do
  let d ← d.setInitial left.steps right.steps
  match left.steps, right.steps with
  | l :: _, r :: _ =>
    if dT ≤ 0 then .ok (false, d, none)
    else if initTime < max l.impactTime r.impactTime then .ok (false, d, none)
    else
      match { d with dT := dT }.setPauseConditions cfg.pauseActive (cfg.switchPercentage * cfg.maxStepTime)
          (cfg.switchPercentage * cfg.nominalStepTime) cfg.endSwitch with
      | (false, d) => .ok (false, d, none)
      | (true, d) =>
        match d.initial with
        | none => .ub .uninitialised
        | some init =>
          match d.generate ordered leftPhases left.steps right.steps init shifts with
          | .ok o => .ok (true, { d with specified := false }, some o)
          | .fail => .ok (false, d, none)
          | .ub w => .ub w
  | _, _ => .ok (false, d, none)

end Dcm
end Uni
