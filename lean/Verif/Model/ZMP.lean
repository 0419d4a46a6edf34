import Verif.Model.Loop
import Verif.Model.Spline

/-! # `ZMPTrajectoryGenerator` (src/ZMPTrajectoryGenerator.cpp)

`computeNewTrajectories` is private and called only by `UnicycleGenerator` (src/UnicycleGenerator.cpp:429-437), after the
sampling period was found to be positive.  The vectors left behind by a call that fails are in
`Model/ResidueBalance`. -/

set_option autoImplicit false

namespace Uni

/-- The members that keep their value between two calls, src/ZMPTrajectoryGenerator.cpp:20-36. -/
@[ext] structure Zmp (K : Type*) where
  leftStance : Vec2 K
  leftSwitch : Vec2 K
  rightStance : Vec2 K
  rightSwitch : Vec2 K
  initialState : Motion K
  initialSpecified : Bool
  previousLeft : Step K
  previousRight : Step K
  previousSpecified : Bool
  initStates : List (Motion K)
  deriving DecidableEq, Repr

/-- The durations computed at the beginning of a call, src/ZMPTrajectoryGenerator.cpp:516-520. -/
@[ext] structure ZmpTimes (K : Type*) where
  nominalSwitch : K
  maxSwitch : K
  endSwitch : K
  pauseActive : Bool
  deriving DecidableEq, Repr

/-- A point that moves in the plane. -/
abbrev Motion2 (K : Type*) := Motion K × Motion K

/-- A sample of the ZMP in the world, src/ZMPTrajectoryGenerator.cpp:32-34. -/
@[ext] structure ZmpSample (K : Type*) where
  pos : Vec2 K
  vel : Vec2 K
  acc : Vec2 K
  deriving DecidableEq, Repr

/-- What a successful call computes: weights on the feet, ZMP in the frames of the feet and in the world. -/
@[ext] structure ZmpOut (K : Type*) where
  weightL : List (Motion K)
  weightR : List (Motion K)
  localL : List (Motion2 K)
  localR : List (Motion2 K)
  world : List (ZmpSample K)
  deriving DecidableEq, Repr

variable {K : Type} [Field K] [LinearOrder K] [FloorRing K]

namespace ZmpTimes

/-- The durations of a call, src/ZMPTrajectoryGenerator.cpp:516-520. -/
def of (cfg : GenSettings K) : ZmpTimes K :=
  ⟨cfg.switchPercentage * cfg.nominalStepTime, cfg.switchPercentage * cfg.maxStepTime, cfg.endSwitch, cfg.pauseActive⟩

/-- Whether a double support of `n` samples has a pause in the middle, src/ZMPTrajectoryGenerator.cpp:101-102, 302-303. -/
def pauses (c : ZmpTimes K) (dT : K) (n : Nat) : Bool :=
  c.pauseActive && decide (max c.maxSwitch (c.endSwitch + c.nominalSwitch) < (n : K) * dT)

end ZmpTimes

namespace Zmp

/-- The weight at the end of a double support, src/ZMPTrajectoryGenerator.cpp:160-162: the phase vector is read at
`instant`. -/
def finalWeight (phases : List Phase) (last : Bool) (instant : Nat) : Out K :=
  if last then .ok (1 / 2)
  else
    match phases[instant]? with
    | none => .ub .outOfRange
    | some q => .ok (if q = .switchIn then 1 else 0)

/-- Samples `0, …, n - 1` of a curve. -/
def samples {O : Type} (dT : K) (f : K → O) (n : Nat) : List O := (List.range n).map fun (j : Nat) => f ((j : K) * dT)

/-- The statements executed for a phase in `computeFootWeightPortion`, src/ZMPTrajectoryGenerator.cpp:78-194.  In a pause
the first loop (lines 122-136) runs `round(endSwitchTime / dT)` times, the second one (lines 138-153) until
`endOfPhase - round(nominalSwitchTime / dT)`; if they go beyond the end of the phase `endOfPhase - instant` wraps (line 164). -/
def weightBody (c : ZmpTimes K) (init : Motion K) (phases : List Phase) (dT : K) (phase : Nat) (last : Bool) (p : Phase)
    (start stop : Nat) (s : Unit) : Out (Unit × List (Motion K)) :=
  let n := stop - start
  match p with
  | .stance | .swing =>
    .ok (s, (List.range n).map fun j => ⟨if phases[start + j]? = some .stance then 1 else 0, 0, 0⟩)
  | .switchIn | .switchOut =>
    let y0 := if phase = 1 then init.pos else if p = .switchIn then 0 else 1
    let v0 := if phase = 1 then init.vel else 0
    if c.pauses dT n then do
      let f ← spline2 y0 v0 (1 / 2) 0 c.endSwitch
      let a := (stdRound (c.endSwitch / dT)).toNat
      let h := ((n : ℤ) - stdRound (c.nominalSwitch / dT) - a).toNat
      if n < a + h then .ub .unsignedWrap
      else do
        let y1 ← finalWeight phases last (start + a + h)
        let g ← spline2 (1 / 2) 0 y1 0 (((n - (a + h) : Nat) : K) * dT)
        .ok (s, samples dT f a ++ List.replicate h ⟨1 / 2, 0, 0⟩ ++ samples dT g (n - (a + h)))
    else do
      let y1 ← finalWeight phases last start
      let f ← spline2 y0 v0 y1 0 ((n : K) * dT)
      .ok (s, samples dT f n)

/-- The weight on the left foot, `computeFootWeightPortion`, src/ZMPTrajectoryGenerator.cpp:59-196. -/
def weights (c : ZmpTimes K) (init : Motion K) (dT : K) (phases : List Phase) (shifts : List Nat) : Out (List (Motion K)) := do
  let r ← overPhases (weightBody c init phases dT) phases shifts ()
  .ok r.2

/-- `mirrorWeightPortion`, src/ZMPTrajectoryGenerator.cpp:199-220. -/
def mirror (l : List (Motion K)) : List (Motion K) := l.map fun w => ⟨1 - w.pos, -w.vel, -w.acc⟩

/-- The statements that store the states at the merge points, src/ZMPTrajectoryGenerator.cpp:88-95 (and 126-133, 143-150,
178-185), executed for every sample; `m` is `mergePoint`. -/
def recordStates (merges : List Nat) : List (Motion K) → Nat → Nat → List (Motion K) → Out (List (Motion K))
  | [], _, _, states => .ok states
  | w :: ws, instant, m, states =>
    match merges[m]? with
    | none => .ub .outOfRange
    | some k =>
      if instant = k then recordStates merges ws (instant + 1) (if m < merges.length - 1 then m + 1 else m) (states.set m w)
      else recordStates merges ws (instant + 1) m states

/-- `initStates.resize(mergePoints.size())`, src/ZMPTrajectoryGenerator.cpp:71-72. -/
def resizeStates (states : List (Motion K)) (n : Nat) : List (Motion K) :=
  states.take n ++ List.replicate (n - states.length) ⟨0, 0, 0⟩

/-- A point at rest. -/
def still (p : Vec2 K) : Motion2 K := (⟨p.x, 0, 0⟩, ⟨p.y, 0, 0⟩)

/-- The splines that bring the ZMP from a point to another in the time `T`, src/ZMPTrajectoryGenerator.cpp:263-283,
305-331. -/
def move (p q : Vec2 K) (T : K) : Out (K → Motion2 K) := do
  let x ← spline2 p.x 0 q.x 0 T
  let y ← spline2 p.y 0 q.y 0 T
  .ok fun t => (x t, y t)

/-- `m_timesBuffer(1)`: the time in which the ZMP goes back when the support of a foot ends,
src/ZMPTrajectoryGenerator.cpp:313-319. -/
def backTime (c : ZmpTimes K) (dT : K) (last : Bool) (n : Nat) : K :=
  if c.pauses dT n then c.endSwitch else if last then (n : K) * dT else (n : K) * dT / 2

/-- The statements executed for a phase in `computeLocalZMP`, src/ZMPTrajectoryGenerator.cpp:243-353.  The loop of lines
333-338 runs `ceil(T / dT)` times, whatever the length of the phase. -/
def localBody (c : ZmpTimes K) (stance switch : Vec2 K) (dT : K) (phase : Nat) (last : Bool) (p : Phase)
    (start stop : Nat) (s : Unit) : Out (Unit × List (Motion2 K)) :=
  let n := stop - start
  match p with
  | .swing | .switchIn => .ok (s, List.replicate n (still stance))
  | .stance => do
    let f ← move stance switch ((n : K) * dT)
    .ok (s, samples dT f n)
  | .switchOut =>
    if phase = 1 then .ok (s, List.replicate n (still stance))
    else
      do
        let f ← move switch stance (backTime c dT last n)
        let k := ⌈backTime c dT last n / dT⌉.toNat
        if n < k then .ub .outOfRange
        else .ok (s, samples dT f k ++ List.replicate (n - k) (still stance))

/-- `computeLocalZMP`, src/ZMPTrajectoryGenerator.cpp:223-355. -/
def localZmp (c : ZmpTimes K) (stance switch : Vec2 K) (dT : K) (phases : List Phase) (shifts : List Nat) :
    Out (List (Motion2 K)) := do
  let r ← overPhases (localBody c stance switch dT) phases shifts ()
  .ok r.2

/-- The loops of lines 399-405 and 418-420 (and 427-429): go back from the index `i` to a step for which `good` holds; below
zero the index wraps and the read is out of range. -/
def backTo (steps : List (Step K)) (good : Step K → Bool) : Nat → Out Nat
  | 0 =>
    match steps[0]? with
    | none => .ub .outOfRange
    | some s => if good s then .ok 0 else .ub .outOfRange
  | i + 1 =>
    match steps[i + 1]? with
    | none => .ub .outOfRange
    | some s => if good s then .ok (i + 1) else backTo steps good i

/-- The step of a foot used at a time, src/ZMPTrajectoryGenerator.cpp:417-421 (and 426-430); `s` is the step with the index
`i`, used at the following sample. -/
def stepAt (steps : List (Step K)) (name : String) (time : K) (i : Nat) (s : Step K) : Out Nat :=
  if time < s.impactTime then backTo steps (fun s => decide (s.footName = name ∧ ¬ time < s.impactTime)) i
  else .ok i

/-- The step of a foot used at each of the first `n` samples, src/ZMPTrajectoryGenerator.cpp:411-421 (and 426-430): the loop
goes from the last sample to the first. -/
def stepsUsed (steps : List (Step K)) (name : String) (time : Nat → K) : Nat → Nat → Out (List (Step K))
  | 0, _ => .ok []
  | instant + 1, i =>
    match steps[i]? with
    | none => .ub .outOfRange
    | some s => do
      let i ← stepAt steps name (time instant) i s
      match steps[i]? with
      | none => .ub .outOfRange
      | some s => do
        let l ← stepsUsed steps name time instant i
        .ok (l ++ [s])

variable [Trig K]

/-- `pos3D(H, xy)` for the transform of a step, src/ZMPTrajectoryGenerator.cpp:357-363, 423-424 (horizontal part). -/
def toWorld (s : Step K) (z : Vec2 K) : Vec2 K := s.position + rot s.angle z

/-- Positions, velocities, accelerations of a point. -/
def mpos (m : Motion2 K) : Vec2 K := ⟨m.1.pos, m.2.pos⟩
/-- See `mpos`. -/
def mvel (m : Motion2 K) : Vec2 K := ⟨m.1.vel, m.2.vel⟩
/-- See `mpos`. -/
def macc (m : Motion2 K) : Vec2 K := ⟨m.1.acc, m.2.acc⟩

/-- A sample after the first phase, src/ZMPTrajectoryGenerator.cpp:454-502. -/
def worldAfter (wl wr : Motion K) (sl sr : Step K) (zl zr : Motion2 K) : ZmpSample K :=
  let pl := toWorld sl (mpos zl)
  let pr := toWorld sr (mpos zr)
  let vl := toWorld sl (mvel zl)
  let vr := toWorld sr (mvel zr)
  let al := toWorld sl (macc zl)
  let ar := toWorld sr (macc zr)
  ⟨wl.pos * pl + wr.pos * pr,
   wl.vel * pl + wl.pos * vl + wr.vel * pr + wr.pos * vr,
   wl.acc * pl + (2 * wl.vel) * vl + wl.pos * al + wr.acc * pr + (2 * wr.vel) * vr + wr.pos * ar⟩

/-- A sample of the first phase, src/ZMPTrajectoryGenerator.cpp:447-491; `ol`, `or` are the steps of the previous
trajectory. -/
def worldFirst (k : Motion K) (wl wr : Motion K) (sl sr ol or : Step K) (zl zr : Motion2 K) : ZmpSample K :=
  let pl := toWorld sl (mpos zl)
  let pr := toWorld sr (mpos zr)
  let dl := toWorld ol (mpos zl) - pl
  let dr := toWorld or (mpos zr) - pr
  ⟨wl.pos * (pl + k.pos * dl) + wr.pos * (pr + k.pos * dr),
   wl.vel * (pl + k.pos * dl) + (wl.pos * k.vel) * dl + wr.vel * (pr + k.pos * dr) + (wr.pos * k.vel) * dr,
   wl.acc * (pl + k.pos * dl) + (2 * wl.vel * k.vel) * dl + (wl.pos * k.acc) * dl +
     wr.acc * (pr + k.pos * dr) + (2 * wr.vel * k.vel) * dr + (wr.pos * k.acc) * dr⟩

/-- The samples from the index `instant` on, given the entries of the other vectors from there on; `first` is
`phaseShift[1]`. -/
def worldFrom (ol or : Step K) (dT : K) (first : Nat) :
    Nat → List (Motion2 K) → List (Motion2 K) → List (Motion K) → List (Motion K) → List (Step K) → List (Step K) →
      Out (List (ZmpSample K))
  | _, [], _, _, _, _, _ => .ok []
  | instant, zl :: zls, zr :: zrs, wl :: wls, wr :: wrs, sl :: sls, sr :: srs => do
    let l ← worldFrom ol or dT first (instant + 1) zls zrs wls wrs sls srs
    .ok ((if instant < first then
        worldFirst (hermite 1 0 0 0 ((first : K) * dT) ((instant : K) * dT)) wl wr sl sr ol or zl zr
      else worldAfter wl wr sl sr zl zr) :: l)
  | _, _ :: _, _, _, _, _, _ => .ub .outOfRange

/-- `computeGlobalZMP`, src/ZMPTrajectoryGenerator.cpp:365-503.  The loop over the samples goes backward; every sample
depends only on the entries with the same index and on the steps found by the scan. -/
def world (ol or : Step K) (initTime dT : K) (shifts : List Nat) (steps : List (Step K)) (leftName rightName : String)
    (zl zr : List (Motion2 K)) (wl wr : List (Motion K)) : Out (List (ZmpSample K)) :=
  match shifts[1]? with
  | none => .ub .outOfRange
  | some first =>
    if steps = [] then .ub .outOfRange
    else do
      let time := fun (instant : Nat) => (instant : K) * dT + initTime
      let i ← backTo steps (fun s => decide (s.footName = leftName)) (steps.length - 1)
      let j ← backTo steps (fun s => decide (s.footName = rightName)) (steps.length - 1)
      let sl ← stepsUsed steps leftName time zl.length i
      let sr ← stepsUsed steps rightName time zl.length j
      worldFrom ol or dT first 0 zl zr wl wr sl sr

/-- The steps of the previous trajectory, src/ZMPTrajectoryGenerator.cpp:539-542.  `front()` of an empty list is undefined. -/
def previousSteps (z : Zmp K) (left right : FootPrint K) : Out (Step K × Step K) :=
  if z.previousSpecified then .ok (z.previousLeft, z.previousRight)
  else
    match left.steps, right.steps with
    | l :: _, r :: _ => .ok (l, r)
    | _, _ => .ub .outOfRange

/-- The state of the weight from which a call starts, src/ZMPTrajectoryGenerator.cpp:533-537. -/
def start (z : Zmp K) : Motion K := if z.initialSpecified then z.initialState else ⟨1 / 2, 0, 0⟩

/-- `computeNewTrajectories`, src/ZMPTrajectoryGenerator.cpp:509-572. -/
def computeNewTrajectories (z : Zmp K) (cfg : GenSettings K) (initTime dT : K) (merges : List Nat) (left right : FootPrint K)
    (ordered : List (Step K)) (leftPhases rightPhases : List Phase) (shifts : List Nat) : Out (Zmp K × ZmpOut K) := do
  let c := ZmpTimes.of cfg
  let old ← z.previousSteps left right
  let wl ← weights c z.start dT leftPhases shifts
  let states ← recordStates merges wl 0 0 (resizeStates z.initStates merges.length)
  let wr := mirror wl
  let zl ← localZmp c z.leftStance z.leftSwitch dT leftPhases shifts
  let zr ← localZmp c z.rightStance z.rightSwitch dT rightPhases shifts
  let w ← world old.1 old.2 initTime dT shifts ordered left.footName right.footName zl zr wl wr
  .ok ({ z with initialState := z.start, initialSpecified := false, previousLeft := old.1, previousRight := old.2,
                previousSpecified := false, initStates := states }, ⟨wl, wr, zl, zr, w⟩)

/-- `setWeightInitialState`, src/ZMPTrajectoryGenerator.cpp:588-595. -/
def setWeightInitialState (z : Zmp K) (m : Motion K) : Zmp K := { z with initialState := m, initialSpecified := true }

/-- `setPreviousSteps`, src/ZMPTrajectoryGenerator.cpp:597-607. -/
def setPreviousSteps (z : Zmp K) (l r : Step K) : Zmp K :=
  { z with previousLeft := l, previousRight := r, previousSpecified := true }

/-- `setStanceZMPDelta`, src/ZMPTrajectoryGenerator.cpp:609-616. -/
def setStanceZMPDelta (z : Zmp K) (l r : Vec2 K) : Zmp K := { z with leftStance := l, rightStance := r }

/-- `setInitialSwitchZMPDelta`, src/ZMPTrajectoryGenerator.cpp:618-625. -/
def setInitialSwitchZMPDelta (z : Zmp K) (l r : Vec2 K) : Zmp K := { z with leftSwitch := l, rightSwitch := r }

/-- A new generator, src/ZMPTrajectoryGenerator.cpp:574-582.  The members that no constructor writes are given by `g`
(they are never read before they are written). -/
def new (g : Zmp K) : Zmp K :=
  { g with leftStance := 0, leftSwitch := 0, rightStance := 0, rightSwitch := 0, initialSpecified := false,
           previousSpecified := false, initStates := [] }

end Zmp
end Uni
