import Verif.Model.Walker
import Verif.Model.Locks

/-! # The methods of `UnicycleGenerator` and of its parts, with their locks

Every method as a program of `Model/Locks`.  A block under a `std::lock_guard` is `acquire`, the accesses, `release`. -/

set_option autoImplicit false

namespace Uni.Threads
open Conc Walker

/-- The address of a `FootPrint`. -/
abbrev Handle := Nat

/-- The shared objects: members of the generator that are accessed separately (`feet`: the two pointers to the footprints), the
footprints, the planner, the trajectory generators. -/
inductive Obj
  | cfg
  | feet
  | steps
  | outputs
  | attached
  | planner
  | cubic
  | minJerk
  | zmp
  | dcm
  | height
  deriving DecidableEq

/-- The mutexes, one per class: src/UnicycleGenerator.cpp:46, include/UnicyclePlanner.h:49, src/FeetCubicSplineGenerator.cpp:31,
src/FeetMinimumJerkGenerator.cpp:28, src/ZMPTrajectoryGenerator.cpp:39, src/DCMTrajectoryGenerator.cpp:21,
src/CoMHeightTrajectoryGenerator.cpp:25. -/
inductive Mutex
  | gen
  | planner
  | cubic
  | minJerk
  | zmp
  | dcm
  | height
  deriving DecidableEq

/-- Which trajectory generators are attached. -/
structure Attached where
  cubic : Bool
  minJerk : Bool
  zmp : Bool
  dcm : Bool
  height : Bool
  deriving DecidableEq

/-- The values of the objects.  The footprints, which have no mutex, are one object (a simplification).  A trajectory generator that is not attached is as its constructor will make it. -/
abbrev Val (K : Type) : Obj → Type
  | .cfg => GenSettings K
  | .feet => Handle × Handle
  | .steps => Handle → FootPrint K
  | .outputs => GenOutputs
  | .attached => Attached
  | .planner => Planner K
  | .cubic => Plugin (FeetSettings K) (FeetOut K)
  | .minJerk => Plugin (FeetSettings K) (FeetOut K)
  | .zmp => Plugin (Zmp K) (ZmpOut K)
  | .dcm => Plugin (Dcm K) (DcmOut K)
  | .height => Plugin (HeightSettings K) (List (Motion K))

/-- What a method gives back. -/
inductive Reply (K : Type)
  | flag (b : Bool)
  | outputs (o : GenOutputs)
  | feet (l r : Handle)
  | steps (s : List (Step K))
  | poses (o : Option (FeetOut K))
  | zmp (o : Option (ZmpOut K))
  | dcm (o : Option (DcmOut K))
  | height (o : Option (List (Motion K)))
  | initial (o : Option (Vec2 K × Vec2 K))
  | ub (why : UB)
  | outOfFuel

/-- The code of a method. -/
abbrev Code (K : Type) := Prog Obj Mutex (Val K) (Reply K)

/-- The state of all the objects. -/
abbrev State (K : Type) := Store Obj (Val K)

variable {K : Type}

/-- The generator as in `Model/Walker`. -/
def walker (garbage : K) (s : State K) : Walker K where
  cfg := s .cfg
  planner := s .planner
  left := s .steps (s .feet).1
  right := s .steps (s .feet).2
  outputs := s .outputs
  garbage := garbage
  cubic := if (s .attached).cubic then some (s .cubic) else none
  minJerk := if (s .attached).minJerk then some (s .minJerk) else none
  zmp := if (s .attached).zmp then some (s .zmp) else none
  dcm := if (s .attached).dcm then some (s .dcm) else none
  height := if (s .attached).height then some (s .height) else none

/-- An access that computes something. -/
def use {α : Type} (r : Obj) (g : Val K r → α × Val K r) (k : α → Code K) : Code K :=
  .access r (fun v => (g v).2) fun v => k (g v).1

/-- An access that does not change anything. -/
def read (r : Obj) (k : Val K r → Code K) : Code K := .access r id k

/-- A method that is one block under one mutex. -/
def guarded {α : Type} (l : Mutex) (r : Obj) (g : Val K r → α × Val K r) (reply : α → Reply K) : Code K :=
  .acquire l (use r g fun a => .release l (.ret (reply a)))

/-- The verdict of a trajectory generator. -/
inductive Verdict
  | done (b : Bool)
  | ub (why : UB)

/-- `computeNewTrajectories` of a trajectory generator, without its lock. -/
def runs {S T : Type} (f : S → Out (Bool × S × Option T)) (p : Plugin S T) : Verdict × Plugin S T :=
  match f p.state with
  | .ok (b, s, r) => (.done b, ⟨s, r⟩)
  | .fail => (.done false, ⟨p.state, none⟩)
  | .ub w => (.ub w, p)

/-- A trajectory generator that is attached is called, under its own mutex; the first failure ends the method, which releases the
mutex of the generator. -/
def sub (attached : Bool) (l : Mutex) (r : Obj) (g : Val K r → Verdict × Val K r) (k : Code K) : Code K :=
  if attached then
    .acquire l (use r g fun v => .release l (match v with
      | .done true => k
      | .done false => .release .gen (.ret (.flag false))
      | .ub w => .release .gen (.ret (.ub w))))
  else k

variable [Field K] [LinearOrder K] [FloorRing K] [Trig K]

/-- `generateFromFootPrints`, src/UnicycleGenerator.cpp:357-456. -/
def fromFootPrints (garbage : K) (sort : Sorter K) (f : Handle × Handle) (initTime dT : K) : Code K :=
  .acquire .gen <|
  use .feet (fun _ => ((), f)) fun _ =>
  read .steps fun m =>
  let left := m f.1
  let right := m f.2
  read .cfg fun cfg =>
  use .outputs (fun o => ((), Gen.outputsAfter cfg left right initTime dT (sort left right) o)) fun _ =>
  match Gen.timeline cfg left right initTime dT (sort left right) with
  | .fail => .release .gen (.ret (.flag false))
  | .ub w => .release .gen (.ret (.ub w))
  | .ok (ordered, t) =>
    read .attached fun a =>
    sub a.cubic .cubic .cubic (runs (runCubic garbage dT left right t)) <|
    sub a.minJerk .minJerk .minJerk (runs (runMinJerk dT left right t)) <|
    sub a.zmp .zmp .zmp (runs (runZmp cfg initTime dT left right ordered t)) <|
    sub a.dcm .dcm .dcm (runs (runDcm cfg initTime dT left right ordered t)) <|
    sub a.height .height .height (runs (runHeight dT t)) <|
    .release .gen (.ret (.flag true))

/-- The planner writes through the two pointers. -/
def write (f : Handle × Handle) (l r : FootPrint K) (m : Handle → FootPrint K) : Handle → FootPrint K :=
  Function.update (Function.update m f.1 l) f.2 r

/-- The end of `generate` and `reGenerate`, src/UnicycleGenerator.cpp:467: the pointers to the footprints are read without any
lock. -/
def fromMembers (garbage : K) (sort : Sorter K) (initTime dT : K) : Code K :=
  read .feet fun f => fromFootPrints garbage sort f initTime dT

/-- `generate`, src/UnicycleGenerator.cpp:458-468: two blocks.  The planner has its own mutex, src/UnicyclePlanner.cpp:748.
Its steps are written into the footprints after it is released (while the mutex of the generator is held). -/
def generate (garbage : K) (integ : Integrator K) (fuel : Nat) (sort : Sorter K) (initTime dT endTime : K) : Code K :=
  .acquire .gen <|
  read .feet fun f =>
  read .steps fun m =>
  .acquire .planner <|
  use .planner (fun p =>
    match p.computeNewSteps integ fuel (m f.1) (m f.2) initTime endTime with
    | .done b p l r => (PlanResult.done b p l r, p)
    | r => (r, p)) fun r =>
  .release .planner <|
  match r with
  | .done b _ l r =>
    use .steps (fun m => ((), write f l r m)) fun _ =>
    .release .gen <|
    if b then fromMembers garbage sort initTime dT else .ret (.flag false)
  | .ub w => .release .gen (.ret (.ub w))
  | .outOfFuel => .release .gen (.ret .outOfFuel)

/-- `reGenerate`, src/UnicycleGenerator.cpp:471-548 with 246-320.  The lock of the planner is also taken if the request fails
before it is called (a simplification). -/
def reGenerate (garbage : K) (integ : Integrator K) (fuel : Nat) (sort : Sorter K) (initTime dT endTime : K)
    (q : Gen.Request K) : Code K :=
  .acquire .gen <|
  read .feet fun f =>
  read .steps fun m =>
  read .attached fun a =>
  let rest (v : Gen.DcmVelocity K) : Code K :=
    .acquire .planner <|
    use .planner (fun p =>
      match Gen.replan p integ fuel v (m f.1) (m f.2) initTime endTime q with
      | .done b p l r prev => (Gen.ReplanResult.done b p l r prev, p)
      | r => (r, p)) fun r =>
    .release .planner <|
    match r with
    | .done b _ l r prev =>
      use .steps (fun m => ((), write f l r m)) fun _ =>
      let last : Code K := .release .gen (if b then fromMembers garbage sort initTime dT else .ret (.flag false))
      match prev with
      | some s =>
        if a.zmp then
          .acquire .zmp <|
          use .zmp (fun z => ((), { z with state := z.state.setPreviousSteps s.1 s.2 })) fun _ =>
          .release .zmp last
        else last
      | none => last
    | .ub w => .release .gen (.ret (.ub w))
    | .outOfFuel => .release .gen (.ret .outOfFuel)
  if a.dcm then
    .acquire .dcm <|
    read .dcm fun d =>
    .release .dcm <|
    rest (match d.state.initial with
      | none => .unset
      | some v => .known v.2)
  else rest .absent

/-- A setter of a trajectory generator. -/
def setter {S T : Type} (f : S → Bool × S) (p : Plugin S T) : Bool × Plugin S T := ((f p.state).1, { p with state := (f p.state).2 })

/-- The methods. -/
inductive Method (K : Type)
  | timing (o : GenSettings.Op K)
  | getOutputs
  | getFootPrints
  | footPrint (h : Handle) (o : FootPrint.Op K)
  | getSteps (h : Handle)
  | addCubic
  | addMinJerk
  | addZmp
  | addDcm
  | addHeight
  | planner (o : Planner.Op K)
  | startWithLeft
  | cubic (o : FeetSettings.Op K)
  | getCubic
  | minJerk (o : FeetSettings.Op K)
  | getMinJerk
  | zmp (o : ZmpOp K)
  | getZmp
  | dcm (o : DcmOp K)
  | getDcm
  | getDcmInitialState
  | height (h delta : K)
  | getHeight
  | fromFootPrints (left right : Handle) (initTime dT : K)
  | generate (initTime dT endTime : K)
  | reGenerate (initTime dT endTime : K) (q : Gen.Request K)

/-- The setters of the timings that take no lock, src/UnicycleGenerator.cpp:576-579, 606-632, 665-668. -/
def unlockedTiming : GenSettings.Op K → Bool
  | .setPauseActive _ => true
  | .setMergePointRatio _ => true
  | .setMergePointRatios _ _ => true
  | .disablePauseConditions => true
  | _ => false

/-- The setter of the planner that takes no lock, src/UnicyclePlanner.cpp:1078-1086. -/
def unlockedPlanner : Planner.Op K → Bool
  | .setNavigationPath _ => true
  | _ => false

/-- The return value of a setter of the DCM generator. -/
def dcmRun (o : DcmOp K) (d : Dcm K) : Bool × Dcm K :=
  match o with
  | .setDCMInitialState p v => d.setDCMInitialState p v
  | .setOmega x => d.setOmega x
  | .setAlpha x => d.setAlpha x
  | .setStillnessPercentage x => d.setStillnessPercentage x
  | .setLastStepDCMOffsetPercentage x => d.setLastStepDCMOffsetPercentage x
  | .setFootOriginOffset l r => d.setFootOriginOffset l r
  | .setFirstDCMTrajectoryMode b => (true, d.setFirstDCMTrajectoryMode b)

/-- The code of the methods: src/UnicycleGenerator.cpp:347-355 (`getLeftFootPrint`, no lock), 550-724; src/FootPrint.cpp
(no lock); src/UnicyclePlanner.cpp:418-1086,
where `startWithLeft` (981-984) takes no lock; the setters and getters of the trajectory generators, all under their lock.  Several
getters that return parts of the same result are one method here. -/
def code (garbage : K) (integ : Integrator K) (fuel : Nat) (sort : Sorter K) : Method K → Code K
  | .timing o =>
    if unlockedTiming o then use .cfg (fun c => c.run o) fun b => .ret (.flag b)
    else guarded .gen .cfg (fun c => c.run o) .flag
  | .getOutputs => guarded .gen .outputs (fun o => (o, o)) .outputs
  | .getFootPrints => read .feet fun f => .ret (.feet f.1 f.2)
  | .footPrint h o => use .steps (fun m => (((m h).run o).1, Function.update m h ((m h).run o).2)) fun b => .ret (.flag b)
  | .getSteps h => read .steps fun m => .ret (.steps (m h).steps)
  | .addCubic => guarded .gen .attached (fun a => (true, { a with cubic := true })) .flag
  | .addMinJerk => guarded .gen .attached (fun a => (true, { a with minJerk := true })) .flag
  | .addZmp => guarded .gen .attached (fun a => (true, { a with zmp := true })) .flag
  | .addDcm => guarded .gen .attached (fun a => (true, { a with dcm := true })) .flag
  | .addHeight => guarded .gen .attached (fun a => (true, { a with height := true })) .flag
  | .planner o =>
    if unlockedPlanner o then use .planner (fun p => p.run o) fun b => .ret (.flag b)
    else guarded .planner .planner (fun p => p.run o) .flag
  | .startWithLeft => read .planner fun p => .ret (.flag p.swingLeft)
  | .cubic o => guarded .cubic .cubic (setter fun c => c.run o) .flag
  | .getCubic => guarded .cubic .cubic (fun p => (p.result, p)) .poses
  | .minJerk o => guarded .minJerk .minJerk (setter fun c => c.run o) .flag
  | .getMinJerk => guarded .minJerk .minJerk (fun p => (p.result, p)) .poses
  | .zmp o => guarded .zmp .zmp (setter fun z => (true, o.run z)) .flag
  | .getZmp => guarded .zmp .zmp (fun p => (p.result, p)) .zmp
  | .dcm o => guarded .dcm .dcm (setter (dcmRun o)) .flag
  | .getDcm => guarded .dcm .dcm (fun p => (p.result, p)) .dcm
  | .getDcmInitialState => guarded .dcm .dcm (fun p => (p.state.initial, p)) .initial
  | .height h delta => guarded .height .height (setter fun c => c.set h delta) .flag
  | .getHeight => guarded .height .height (fun p => (p.result, p)) .height
  | .fromFootPrints left right initTime dT => fromFootPrints garbage sort (left, right) initTime dT
  | .generate initTime dT endTime => generate garbage integ fuel sort initTime dT endTime
  | .reGenerate initTime dT endTime q => reGenerate garbage integ fuel sort initTime dT endTime q

end Uni.Threads
