import Verif.Spec.Locks
import Verif.Model.Threads

/-! # Which methods keep to the rules -/

set_option autoImplicit false

namespace Uni.Spec
open Conc Threads
variable {K : Type}

/-- The mutex of the class that an object belongs to.  The footprints have none: the generator uses them under its own. -/
def classMutex : Obj → Mutex
  | .planner => .planner
  | .cubic => .cubic
  | .minJerk => .minJerk
  | .zmp => .zmp
  | .dcm => .dcm
  | .height => .height
  | _ => .gen

/-- A mutex for every object, if the methods of only one trajectory generator (`shared`) are called directly by other threads: the
others are used under the mutex of the generator only. -/
def mutexOf (shared : Mutex) (r : Obj) : Mutex :=
  if classMutex r = .planner ∨ classMutex r = shared then classMutex r else .gen

/-- The methods that are atomic.  `shared`: the trajectory generator whose methods may be called. -/
def Atomic (shared : Mutex) : Method K → Prop
  | .timing (.setSwitchOverSwingRatio _) => True
  | .timing (.setTerminalHalfSwitchTime _) => True
  | .timing (.setPauseConditions _ _) => True
  | .timing _ => False
  | .getOutputs => True
  | .addCubic => True
  | .addMinJerk => True
  | .addZmp => True
  | .addDcm => True
  | .addHeight => True
  | .fromFootPrints _ _ _ _ => True
  | .planner (.setNavigationPath _) => False
  | .planner _ => True
  | .cubic _ => shared = .cubic
  | .getCubic => shared = .cubic
  | .minJerk _ => shared = .minJerk
  | .getMinJerk => shared = .minJerk
  | .zmp _ => shared = .zmp
  | .getZmp => shared = .zmp
  | .dcm _ => shared = .dcm
  | .getDcm => shared = .dcm
  | .getDcmInitialState => shared = .dcm
  | .height _ _ => shared = .height
  | .getHeight => shared = .height
  | _ => False

/-- The methods that access every object under the mutex of its class. -/
def Careful : Method K → Prop
  | .timing (.setSwitchOverSwingRatio _) => True
  | .timing (.setTerminalHalfSwitchTime _) => True
  | .timing (.setPauseConditions _ _) => True
  | .timing _ => False
  | .planner (.setNavigationPath _) => False
  | .planner _ => True
  | .getFootPrints => False
  | .footPrint _ _ => False
  | .getSteps _ => False
  | .startWithLeft => False
  | .generate _ _ _ => False
  | .reGenerate _ _ _ _ => False
  | _ => True

/-- The mutexes in the order in which they are taken. -/
def rank : Mutex → Nat
  | .gen => 0
  | _ => 1

/-- The methods that need no mutex of the caller.  `shared`: as in `Atomic`. -/
def Free (shared : Mutex) : Method K → Prop
  | .timing (.setSwitchOverSwingRatio _) => True
  | .timing (.setTerminalHalfSwitchTime _) => True
  | .timing (.setPauseConditions _ _) => True
  | .getOutputs => True
  | .cubic _ => shared = .cubic
  | .getCubic => shared = .cubic
  | .minJerk _ => shared = .minJerk
  | .getMinJerk => shared = .minJerk
  | .height _ _ => shared = .height
  | .getHeight => shared = .height
  | _ => False

/-- The methods that are atomic if they are called under a mutex of the caller: all except the unlocked setters of the timings. -/
def Supervised : Method K → Prop
  | .timing (.setPauseActive _) => False
  | .timing (.setMergePointRatio _) => False
  | .timing (.setMergePointRatios _ _) => False
  | .timing .disablePauseConditions => False
  | _ => True

end Uni.Spec
