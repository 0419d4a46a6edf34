import Verif.Model.Replan
import Verif.Model.CubicFeet
import Verif.Model.CoMHeight
import Verif.Model.ZMP
import Verif.Model.DCM

/-! # `UnicycleGenerator` as a whole (src/UnicycleGenerator.cpp)

The planner, the timings and the five trajectory generators put together. -/

set_option autoImplicit false

namespace Uni

/-- A trajectory generator attached with one of the `add…Generator` methods: what it keeps between two calls, and what its
getters return.  `result = none`: no call has succeeded yet or the last one failed (what a failing call leaves in the vectors is
in `Model/Residue` and `Model/ResidueBalance`). -/
@[ext] structure Plugin (S T : Type) where
  state : S
  result : Option T
  deriving DecidableEq, Repr

/-- The poses of the left and of the right foot. -/
abbrev FeetOut (K : Type) := List (FootSample K) × List (FootSample K)

/-- The members of `UnicycleGeneratorImplementation`, src/UnicycleGenerator.cpp:17-46, with the objects they point to.
`garbage` is the value of the element that `FeetCubicSplineGenerator` never writes (`CubicFeet.swing`). -/
structure Walker (K : Type) where
  cfg : GenSettings K
  planner : Planner K
  left : FootPrint K
  right : FootPrint K
  outputs : GenOutputs
  garbage : K
  cubic : Option (Plugin (FeetSettings K) (FeetOut K))
  minJerk : Option (Plugin (FeetSettings K) (FeetOut K))
  zmp : Option (Plugin (Zmp K) (ZmpOut K))
  dcm : Option (Plugin (Dcm K) (DcmOut K))
  height : Option (Plugin (HeightSettings K) (List (Motion K)))

namespace Plugin
variable {S T : Type}

/-- A generator that is attached runs; the first failure stops `generateFromFootPrints`. -/
def run (p : Option (Plugin S T)) (f : S → Out (Bool × S × Option T)) : Out (Bool × Option (Plugin S T)) :=
  match p with
  | none => .ok (true, none)
  | some p =>
    match f p.state with
    | .ok (b, s, r) => .ok (b, some ⟨s, r⟩)
    | .fail => .ok (false, some ⟨p.state, none⟩)
    | .ub w => .ub w

/-- `add…Generator`, src/UnicycleGenerator.cpp:670-724: an attached generator is kept. -/
def attach (p : Option (Plugin S T)) (s : S) : Option (Plugin S T) :=
  match p with
  | none => some ⟨s, none⟩
  | some p => some p

/-- A setter called through the pointer returned by `add…Generator`. -/
def set (p : Option (Plugin S T)) (f : S → S) : Option (Plugin S T) := p.map fun p => { p with state := f p.state }

end Plugin

namespace Walker
variable {K : Type} [Field K] [LinearOrder K] [FloorRing K] [Trig K]

/-- Outcome of a call: return value and the new state; undefined behaviour; the fuel of the planner is exhausted. -/
inductive Result (K : Type)
  | done (ok : Bool) (w : Walker K)
  | ub (why : UB)
  | outOfFuel

/-- Constructor, src/UnicycleGenerator.cpp:325-337. -/
def new (garbage : K) : Walker K where
  cfg := GenSettings.new
  planner := Planner.new
  left := ⟨[], "left"⟩
  right := ⟨[], "right"⟩
  outputs := GenOutputs.new
  garbage := garbage
  cubic := none
  minJerk := none
  zmp := none
  dcm := none
  height := none

/-- The call of `FeetCubicSplineGenerator`, src/UnicycleGenerator.cpp:413-419. -/
def runCubic (garbage dT : K) (left right : FootPrint K) (t : Timing K) (c : FeetSettings K) :
    Out (Bool × FeetSettings K × Option (FeetOut K)) := do
  let r ← CubicFeet.computeNewTrajectories c garbage dT left right t.left t.right t.shifts
  .ok (true, c, some r)

/-- The call of `FeetMinimumJerkGenerator`, src/UnicycleGenerator.cpp:421-427. -/
def runMinJerk (dT : K) (left right : FootPrint K) (t : Timing K) (c : FeetSettings K) :
    Out (Bool × FeetSettings K × Option (FeetOut K)) := do
  let r ← MinJerk.computeNewTrajectories c dT left right t.left t.right t.shifts
  .ok (true, c, some r)

/-- The call of `ZMPTrajectoryGenerator`, src/UnicycleGenerator.cpp:429-437.  If it fails what was announced with
`setWeightInitialState` and `setPreviousSteps` is kept. -/
def runZmp (cfg : GenSettings K) (initTime dT : K) (left right : FootPrint K) (ordered : List (Ptr K)) (t : Timing K)
    (z : Zmp K) : Out (Bool × Zmp K × Option (ZmpOut K)) := do
  let r ← z.computeNewTrajectories cfg initTime dT t.merges left right (ordered.map Ptr.step) t.left t.right t.shifts
  .ok (true, r.1, some r.2)

/-- The call of `DCMTrajectoryGenerator`, src/UnicycleGenerator.cpp:439-446. -/
def runDcm (cfg : GenSettings K) (initTime dT : K) (left right : FootPrint K) (ordered : List (Ptr K)) (t : Timing K)
    (d : Dcm K) : Out (Bool × Dcm K × Option (DcmOut K)) :=
  d.computeNewTrajectories cfg initTime dT (ordered.map Ptr.step) t.shifts t.left left right

/-- The call of `CoMHeightTrajectoryGenerator`, src/UnicycleGenerator.cpp:448-453. -/
def runHeight (dT : K) (t : Timing K) (c : HeightSettings K) : Out (Bool × HeightSettings K × Option (List (Motion K))) := do
  let r ← CoMHeight.computeNewTrajectories c dT t.left t.shifts
  .ok (true, c, some r)

/-- The trajectory generators, one after the other, src/UnicycleGenerator.cpp:413-455. -/
def trajectories (w : Walker K) (initTime dT : K) (ordered : List (Ptr K)) (t : Timing K) : Out (Bool × Walker K) := do
  let (ok, p) ← Plugin.run w.cubic (runCubic w.garbage dT w.left w.right t)
  let w := { w with cubic := p }
  if ok = false then .ok (false, w)
  else do
    let (ok, p) ← Plugin.run w.minJerk (runMinJerk dT w.left w.right t)
    let w := { w with minJerk := p }
    if ok = false then .ok (false, w)
    else do
      let (ok, p) ← Plugin.run w.zmp (runZmp w.cfg initTime dT w.left w.right ordered t)
      let w := { w with zmp := p }
      if ok = false then .ok (false, w)
      else do
        let (ok, p) ← Plugin.run w.dcm (runDcm w.cfg initTime dT w.left w.right ordered t)
        let w := { w with dcm := p }
        if ok = false then .ok (false, w)
        else do
          let (ok, p) ← Plugin.run w.height (runHeight dT t)
          .ok (ok, { w with height := p })

/-- `generateFromFootPrints`, src/UnicycleGenerator.cpp:357-456; `sorted` is the result of the sort of `orderSteps`.  The
footprints are kept even if the call fails. -/
def generateFromFootPrints (w : Walker K) (left right : FootPrint K) (initTime dT : K) (sorted : List (Ptr K)) :
    Out (Bool × Walker K) :=
  let w := { w with left := left, right := right, outputs := Gen.outputsAfter w.cfg left right initTime dT sorted w.outputs }
  match Gen.timeline w.cfg left right initTime dT sorted with
  | .ok (ordered, t) => w.trajectories initTime dT ordered t
  | .fail => .ok (false, w)
  | .ub why => .ub why

/-- What the sort of `orderSteps` returns for two footprints. -/
abbrev Sorter (K : Type) := FootPrint K → FootPrint K → List (Ptr K)

/-- The second part of `generate` and `reGenerate`: the footprints are those of the members. -/
def fromMembers (w : Walker K) (initTime dT : K) (sort : Sorter K) : Result K :=
  match w.generateFromFootPrints w.left w.right initTime dT (sort w.left w.right) with
  | .ok (b, w) => .done b w
  | .fail => .done false w
  | .ub why => .ub why

/-- The first part of `generate`, src/UnicycleGenerator.cpp:460-467. -/
def plan (w : Walker K) (integ : Integrator K) (fuel : Nat) (initTime endTime : K) : Result K :=
  match w.planner.computeNewSteps integ fuel w.left w.right initTime endTime with
  | .done b p l r => .done b { w with planner := p, left := l, right := r }
  | .ub why => .ub why
  | .outOfFuel => .outOfFuel

/-- What the first part of `reGenerate` sees of the DCM generator, src/UnicycleGenerator.cpp:260. -/
def dcmVelocity (w : Walker K) : Gen.DcmVelocity K :=
  match w.dcm with
  | none => .absent
  | some p =>
    match p.state.initial with
    | none => .unset
    | some v => .known v.2

/-- The first part of `reGenerate`, src/UnicycleGenerator.cpp:246-320. -/
def replan (w : Walker K) (integ : Integrator K) (fuel : Nat) (initTime endTime : K) (q : Gen.Request K) : Result K :=
  match Gen.replan w.planner integ fuel w.dcmVelocity w.left w.right initTime endTime q with
  | .done b p l r prev =>
    .done b { w with planner := p, left := l, right := r,
                     zmp := match prev with
                       | some s => Plugin.set w.zmp fun z => z.setPreviousSteps s.1 s.2
                       | none => w.zmp }
  | .ub why => .ub why
  | .outOfFuel => .outOfFuel

/-- The second part follows the first one if this one returns true. -/
def Result.next (r : Result K) (f : Walker K → Result K) : Result K :=
  match r with
  | .done true w => f w
  | r => r

/-- `generate`, src/UnicycleGenerator.cpp:458-467. -/
def generate (w : Walker K) (integ : Integrator K) (fuel : Nat) (sort : Sorter K) (initTime dT endTime : K) : Result K :=
  (w.plan integ fuel initTime endTime).next fun w => w.fromMembers initTime dT sort

/-- The four `reGenerate`, src/UnicycleGenerator.cpp:469-548. -/
def reGenerate (w : Walker K) (integ : Integrator K) (fuel : Nat) (sort : Sorter K) (initTime dT endTime : K)
    (q : Gen.Request K) : Result K :=
  (w.replan integ fuel initTime endTime q).next fun w => w.fromMembers initTime dT sort

/-- The methods of `ZMPTrajectoryGenerator` that change it, src/ZMPTrajectoryGenerator.cpp:588-625. -/
inductive ZmpOp (K : Type)
  | setWeightInitialState (m : Motion K)
  | setPreviousSteps (l r : Step K)
  | setStanceZMPDelta (l r : Vec2 K)
  | setInitialSwitchZMPDelta (l r : Vec2 K)

/-- Dispatch. -/
def ZmpOp.run (z : Zmp K) : ZmpOp K → Zmp K
  | .setWeightInitialState m => z.setWeightInitialState m
  | .setPreviousSteps l r => z.setPreviousSteps l r
  | .setStanceZMPDelta l r => z.setStanceZMPDelta l r
  | .setInitialSwitchZMPDelta l r => z.setInitialSwitchZMPDelta l r

/-- The methods of `DCMTrajectoryGenerator` that change it, src/DCMTrajectoryGenerator.cpp:122-181. -/
inductive DcmOp (K : Type)
  | setDCMInitialState (pos vel : Vec2 K)
  | setOmega (x : K)
  | setAlpha (x : K)
  | setStillnessPercentage (x : K)
  | setLastStepDCMOffsetPercentage (x : K)
  | setFootOriginOffset (l r : Vec2 K)
  | setFirstDCMTrajectoryMode (fifth : Bool)

/-- Dispatch. -/
def DcmOp.run (d : Dcm K) : DcmOp K → Dcm K
  | .setDCMInitialState p v => (d.setDCMInitialState p v).2
  | .setOmega x => (d.setOmega x).2
  | .setAlpha x => (d.setAlpha x).2
  | .setStillnessPercentage x => (d.setStillnessPercentage x).2
  | .setLastStepDCMOffsetPercentage x => (d.setLastStepDCMOffsetPercentage x).2
  | .setFootOriginOffset l r => (d.setFootOriginOffset l r).2
  | .setFirstDCMTrajectoryMode b => d.setFirstDCMTrajectoryMode b

/-- The methods of `UnicycleGenerator` and of the objects it hands out, except those that generate.  `zmpGarbage` are the
members that the constructor of `ZMPTrajectoryGenerator` does not write. -/
inductive Op (K : Type)
  | timing (o : GenSettings.Op K)
  | planner (o : Planner.Op K)
  | addCubic
  | addMinJerk
  | addZmp (zmpGarbage : Zmp K)
  | addDcm
  | addHeight
  | cubic (o : FeetSettings.Op K)
  | minJerk (o : FeetSettings.Op K)
  | zmp (o : ZmpOp K)
  | dcm (o : DcmOp K)
  | height (h delta : K)

/-- Dispatch. -/
def run (w : Walker K) : Op K → Walker K
  | .timing o => { w with cfg := (w.cfg.run o).2 }
  | .planner o => { w with planner := (w.planner.run o).2 }
  | .addCubic => { w with cubic := Plugin.attach w.cubic FeetSettings.new }
  | .addMinJerk => { w with minJerk := Plugin.attach w.minJerk FeetSettings.new }
  | .addZmp g => { w with zmp := Plugin.attach w.zmp (Zmp.new g) }
  | .addDcm => { w with dcm := Plugin.attach w.dcm Dcm.new }
  | .addHeight => { w with height := Plugin.attach w.height HeightSettings.new }
  | .cubic o => { w with cubic := Plugin.set w.cubic fun c => (c.run o).2 }
  | .minJerk o => { w with minJerk := Plugin.set w.minJerk fun c => (c.run o).2 }
  | .zmp o => { w with zmp := Plugin.set w.zmp fun z => o.run z }
  | .dcm o => { w with dcm := Plugin.set w.dcm fun d => o.run d }
  | .height h delta => { w with height := Plugin.set w.height fun c => (c.set h delta).2 }

/-- A sequence of such calls. -/
def runAll (w : Walker K) (ops : List (Op K)) : Walker K := ops.foldl run w

/-- The calls that generate. -/
inductive Call (K : Type)
  | fromFootPrints (left right : FootPrint K) (initTime dT : K)
  | generate (initTime dT endTime : K)
  | reGenerate (initTime dT endTime : K) (q : Gen.Request K)

/-- Dispatch. -/
def call (w : Walker K) (integ : Integrator K) (fuel : Nat) (sort : Sorter K) : Call K → Result K
  | .fromFootPrints left right initTime dT =>
    match w.generateFromFootPrints left right initTime dT (sort left right) with
    | .ok (b, w) => .done b w
    | .fail => .done false w
    | .ub why => .ub why
  | .generate initTime dT endTime => w.generate integ fuel sort initTime dT endTime
  | .reGenerate initTime dT endTime q => w.reGenerate integ fuel sort initTime dT endTime q

/-- What a user can do through the objects that the generator hands out (`getLeftFootPrint`, `getRightFootPrint`,
`unicyclePlanner`, src/UnicycleGenerator.cpp:342-355) besides configuring the planner: change the steps in any way, discard
the past of the reference, and ask the planner itself for steps.  (A plan for the footprints of the generator is `plan`
followed by `left` and `right`.) -/
inductive Handle (integ : Integrator K) : Walker K → Walker K → Prop
  | left (w : Walker K) (l : FootPrint K) : Handle integ w { w with left := l }
  | right (w : Walker K) (r : FootPrint K) : Handle integ w { w with right := r }
  | clear (w : Walker K) (t : K) (b : Bool) (p : Planner K) :
      w.planner.clearDesiredTrajectoryUpTo t = .ok (b, p) → Handle integ w { w with planner := p }
  | plan (w : Walker K) (fuel : Nat) (l r l' r' : FootPrint K) (t0 t1 : K) (b : Bool) (p : Planner K) :
      w.planner.computeNewSteps integ fuel l r t0 t1 = .done b p l' r' → Handle integ w { w with planner := p }

/-- The states in which an object can be after a sequence of calls that all came back. -/
inductive Reached (integ : Integrator K) (sort : Sorter K) : Walker K → Prop
  | new (garbage : K) : Reached integ sort (new garbage)
  | op (w : Walker K) (o : Op K) : Reached integ sort w → Reached integ sort (w.run o)
  | call (w w' : Walker K) (fuel : Nat) (c : Call K) (b : Bool) : Reached integ sort w →
      w.call integ fuel sort c = .done b w' → Reached integ sort w'
  | handle (w w' : Walker K) : Reached integ sort w → Handle integ w w' → Reached integ sort w'

end Walker
end Uni
