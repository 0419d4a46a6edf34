import Verif.Spec.Settings
import Verif.Model.Walker

/-! # The settings of the generator, as its user knows them -/

set_option autoImplicit false

namespace Uni.Spec
open Walker
variable {K : Type} [Field K] [LinearOrder K]

/-- The last accepted value of a setting. -/
def last {Ω α : Type} (accept : Ω → Option α) (default : α) (ops : List Ω) : α :=
  ops.foldl (fun v o => (accept o).getD v) default

/-- What a setter carries that is called after the generator it belongs to was attached; `none` if it never was. -/
def since {α : Type} (attach : Op K → Bool) (carried : Op K → Option α) (ops : List (Op K)) : Option (List α) :=
  if ops.any attach then some ((ops.dropWhile fun o => !attach o).filterMap carried) else none

/-! ## Timings -/

/-- Acceptable ratios of switch time and swing time; what counts is the fraction of the step that is switch. -/
def switchFraction : GenSettings.Op K → Option K
  | .setSwitchOverSwingRatio r => if 0 < r then some (r / (1 + r)) else none
  | _ => none
/-- Acceptable times of the terminal half switch. -/
def halfSwitch : GenSettings.Op K → Option K
  | .setTerminalHalfSwitchTime t => if 0 < t then some t else none
  | _ => none
/-- Acceptable (maximum, nominal) times of a step for the pauses. -/
def pauseTimes : GenSettings.Op K → Option (K × K)
  | .setPauseConditions m n => if 0 ≤ m ∧ 0 < n ∧ n ≤ m then some (m, n) else none
  | _ => none
/-- Pauses. -/
def pauses : GenSettings.Op K → Option Bool
  | .setPauseActive b => some b
  | .disablePauseConditions => some false
  | _ => none
/-- Acceptable (begin, end) of the merge point. -/
def mergeWindow : GenSettings.Op K → Option (K × K)
  | .setMergePointRatio r => if 0 ≤ r ∧ r ≤ 1 then some (r, r) else none
  | .setMergePointRatios a b => if 0 ≤ a ∧ a ≤ b ∧ b ≤ 1 then some (a, b) else none
  | _ => none

/-! ## Feet -/

/-- Acceptable heights of a step. -/
def stepHeight : FeetSettings.Op K → Option K
  | .setStepHeight h => if 0 ≤ h then some h else none
  | _ => none
/-- The pitch at the apex, in radians (it is given in degrees). -/
def pitch [Trig K] : FeetSettings.Op K → Option K
  | .setPitchDelta p => some (p / 180 * Trig.pi)
  | _ => none
/-- Acceptable apex times. -/
def apexTime : FeetSettings.Op K → Option K
  | .setFootApexTime r => if 0 < r ∧ r < 1 then some r else none
  | _ => none
/-- Landing velocity. -/
def landingVelocity : FeetSettings.Op K → Option K
  | .setFootLandingVelocity v => some v
  | _ => none

/-- The settings of a feet generator; a negative height: it was never given. -/
def feet [Trig K] (ops : List (FeetSettings.Op K)) : FeetSettings K where
  stepHeight := last Spec.stepHeight (-1) ops
  pitchDelta := last pitch 0 ops
  swingApex := last apexTime (1 / 2) ops
  landingVelocity := last Spec.landingVelocity 0 ops

/-! ## Height, ZMP, DCM -/

/-- Acceptable heights of the centre of mass and differences in single support. -/
def comHeight (a : K × K) : Option (K × K) := if 0 ≤ a.1 ∧ 0 ≤ a.1 + a.2 then some a else none

/-- Offsets of the ZMP while the foot stands alone, left and right. -/
def stanceDelta : ZmpOp K → Option (Vec2 K × Vec2 K)
  | .setStanceZMPDelta l r => some (l, r)
  | _ => none
/-- Offsets of the ZMP at the beginning of a switch, left and right. -/
def switchDelta : ZmpOp K → Option (Vec2 K × Vec2 K)
  | .setInitialSwitchZMPDelta l r => some (l, r)
  | _ => none

/-- Omega: negative values are refused. -/
def omega : DcmOp K → Option K
  | .setOmega x => if 0 ≤ x then some x else none
  | _ => none
/-- Alpha: everything is accepted (C49). -/
def alpha : DcmOp K → Option K
  | .setAlpha x => some x
  | _ => none
/-- Part of the last double support in which the DCM rests: everything is accepted (C49). -/
def stillness : DcmOp K → Option K
  | .setStillnessPercentage x => some x
  | _ => none
/-- Acceptable offsets of the last step. -/
def lastOffset : DcmOp K → Option K
  | .setLastStepDCMOffsetPercentage x => if 0 ≤ x ∧ x ≤ 1 then some x else none
  | _ => none
/-- Offsets of the ZMPs, left and right. -/
def footOffset : DcmOp K → Option (Vec2 K × Vec2 K)
  | .setFootOriginOffset l r => some (l, r)
  | _ => none
/-- First piece of fifth order. -/
def fifthOrder : DcmOp K → Option Bool
  | .setFirstDCMTrajectoryMode b => some b
  | _ => none

/-! ## Calls -/

/-- The calls of the setters of the timings. -/
def timingCall : Op K → Option (GenSettings.Op K) | .timing o => some o | _ => none
/-- Of the planner. -/
def plannerCall : Op K → Option (Planner.Op K) | .planner o => some o | _ => none
/-- Of the cubic-spline generator. -/
def cubicCall : Op K → Option (FeetSettings.Op K) | .cubic o => some o | _ => none
/-- Of the minimum-jerk generator. -/
def minJerkCall : Op K → Option (FeetSettings.Op K) | .minJerk o => some o | _ => none
/-- Of the ZMP generator. -/
def zmpCall : Op K → Option (ZmpOp K) | .zmp o => some o | _ => none
/-- Of the DCM generator. -/
def dcmCall : Op K → Option (DcmOp K) | .dcm o => some o | _ => none
/-- Of the height generator. -/
def heightCall : Op K → Option (K × K) | .height h d => some (h, d) | _ => none
/-- `addFeetCubicSplineGenerator`. -/
def addsCubic : Op K → Bool | .addCubic => true | _ => false
/-- `addFeetMinimumJerkGenerator`. -/
def addsMinJerk : Op K → Bool | .addMinJerk => true | _ => false
/-- `addZMPTrajectoryGenerator`. -/
def addsZmp : Op K → Bool | .addZmp _ => true | _ => false
/-- `addDCMTrajectoryGenerator`. -/
def addsDcm : Op K → Bool | .addDcm => true | _ => false
/-- `addCoMHeightTrajectoryGenerator`. -/
def addsHeight : Op K → Bool | .addHeight => true | _ => false

/-- `w` is a generator on which the methods `ops` were called, in this order, and in between calls that generate and uses of the objects
handed out, all of which came back. -/
inductive Used [FloorRing K] [Trig K] (integ : Integrator K) (sort : Sorter K) : List (Op K) → Walker K → Prop
  | new (garbage : K) : Used integ sort [] (.new garbage)
  | op (ops : List (Op K)) (w : Walker K) (o : Op K) : Used integ sort ops w → Used integ sort (ops ++ [o]) (w.run o)
  | call (ops : List (Op K)) (w w' : Walker K) (fuel : Nat) (c : Call K) (b : Bool) : Used integ sort ops w →
      w.call integ fuel sort c = .done b w' → Used integ sort ops w'
  | handle (ops : List (Op K)) (w w' : Walker K) : Used integ sort ops w → Handle integ w w' → Used integ sort ops w'

end Uni.Spec
