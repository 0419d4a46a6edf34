import Verif.Model.PlannerSettings

/-! # Settings: the last accepted value of each of them -/

set_option autoImplicit false

namespace Uni.Spec
variable {K : Type*} [Field K] [LinearOrder K]

/-- The last accepted value of a setting in a sequence of calls, newest last; `accept` gives the value carried by a call
that concerns the setting and is acceptable. -/
def lastValue {K : Type*} {α : Type*} (accept : Planner.Op K → Option α) (default : α) (ops : List (Planner.Op K)) : α :=
  ops.foldl (fun v o => (accept o).getD v) default

/-- Acceptable calls of `setStepTimings`: (minimum, maximum, nominal). -/
def timings : Planner.Op K → Option (K × K × K)
  | .setStepTimings a b c => if 0 ≤ a ∧ a ≤ c ∧ c ≤ b then some (a, b, c) else none
  | _ => none
/-- Acceptable planner periods. -/
def period : Planner.Op K → Option K
  | .setPlannerPeriod x => if 0 ≤ x then some x else none
  | _ => none
/-- Acceptable minimum angles. -/
def minAngle : Planner.Op K → Option K
  | .setMinimumAngleForNewSteps x => if 0 ≤ x then some x else none
  | _ => none
/-- Acceptable minimum lengths. -/
def minLength : Planner.Op K → Option K
  | .setMinimumStepLength x => if 0 ≤ x then some x else none
  | _ => none
/-- Acceptable (minimum, nominal) widths. -/
def widths : Planner.Op K → Option (K × K)
  | .setWidthSetting a b => if 0 ≤ a ∧ a ≤ b then some (a, b) else none
  | _ => none
/-- Acceptable (forward, backward) maximum lengths. -/
def maxLengths : Planner.Op K → Option (K × K)
  | .setMaxStepLength x => if 0 ≤ x then some (x, x) else none
  | .setMaxStepLengthBackward x m => if 0 ≤ x ∧ 0 ≤ m then some (x, x * m) else none
  | _ => none
/-- Acceptable maximum angles. -/
def maxAngle : Planner.Op K → Option K
  | .setMaxAngleVariation x => if 0 ≤ x then some x else none
  | _ => none
/-- Acceptable conservative factors. -/
def factors : Planner.Op K → Option (K × K)
  | .setSaturationsConservativeFactors l a => if 0 ≤ l ∧ l ≤ 1 ∧ 0 ≤ a ∧ a ≤ 1 then some (l, a) else none
  | _ => none
/-- Acceptable maximum integration steps. -/
def integrationStep : Planner.Op K → Option K
  | .setMaximumIntegratorStepSize x => if 0 < x then some x else none
  | _ => none
/-- Position weights stored by `setCostWeights`: also those of a call that is refused because of its time weight. -/
def positionWeight : Planner.Op K → Option K
  | .setCostWeights a _ => if 0 ≤ a then some a else none
  | _ => none
/-- Acceptable time weights. -/
def timeWeight : Planner.Op K → Option K
  | .setCostWeights a b => if 0 ≤ a ∧ 0 ≤ b then some b else none
  | _ => none
/-- Left yaw offset. -/
def leftYawOffset : Planner.Op K → Option K | .setLeftFootYawOffset x => some x | _ => none
/-- Right yaw offset. -/
def rightYawOffset : Planner.Op K → Option K | .setRightFootYawOffset x => some x | _ => none
/-- Terminal step. -/
def terminalStep : Planner.Op K → Option Bool | .addTerminalStep b => some b | _ => none
/-- Starting foot. -/
def startFoot : Planner.Op K → Option Bool | .startWithLeft b => some b | _ => none
/-- Reset of the starting foot. -/
def resetFoot : Planner.Op K → Option Bool | .resetStartingFootIfStill b => some b | _ => none
/-- Controller. -/
def controllerKind : Planner.Op K → Option ControllerKind | .setUnicycleController c => some c | _ => none
/-- Free-space method. -/
def spaceMethod : Planner.Op K → Option EllipseMethod | .setFreeSpaceEllipseMethod m => some m | _ => none

/-- Acceptable gains that slow the unicycle down when it turns. -/
def slowTurn : Planner.Op K → Option K | .setSlowWhenTurnGain g => if 0 ≤ g then some g else none | _ => none
/-- Acceptable factors of the backward speed. -/
def slowBackward : Planner.Op K → Option K | .setSlowWhenBackwardFactor g => if 0 ≤ g then some g else none | _ => none
/-- Acceptable factors of the lateral speed. -/
def slowSideways : Planner.Op K → Option K | .setSlowWhenSidewaysFactor g => if 0 ≤ g then some g else none | _ => none
/-- Acceptable gains of the person following controller. -/
def followGain : Planner.Op K → Option K | .setPersonFollowingControllerGain g => if 0 < g then some g else none | _ => none
/-- Acceptable positions of the followed point. -/
def followPoint : Planner.Op K → Option (Vec2 K)
  | .setDesiredPersonDistance x y => if x ≠ 0 then some ⟨x, y⟩ else none
  | _ => none
/-- Acceptable conservative factors of the free space. -/
def spaceFactor : Planner.Op K → Option K
  | .setFreeSpaceEllipseConservativeFactor f => if 0 ≤ f then some f else none
  | _ => none
/-- Direct control. -/
def directControl : Planner.Op K → Option (Control K) | .setDesiredDirectControl v => some v | _ => none
/-- The free space in force: the last one given since the method was chosen. -/
def space : Planner.Op K → Option (Ellipse K)
  | .setFreeSpaceEllipse e => some e
  | .setFreeSpaceEllipseMethod _ => some Ellipse.clear
  | _ => none

/-- Every free space given in a sequence of calls is accepted. -/
def Granted [Trig K] : Planner K → List (Planner.Op K) → Prop
  | _, [] => True
  | p, o :: os => ((∃ e, o = .setFreeSpaceEllipse e) → (p.run o).1 = true) ∧ Granted (p.run o).2 os

/-- Mutual consistency of the settings. -/
structure Consistent (p : Planner K) : Prop where
  minTime : 0 ≤ p.minTime
  nominal : p.minTime ≤ p.nominalTime
  maxTime : p.nominalTime ≤ p.maxTime
  period : 0 ≤ p.dT
  minAngle : 0 ≤ p.minAngle
  minLength : 0 ≤ p.minLength
  maxLength : 0 ≤ p.maxLength
  backward : 0 ≤ p.maxLengthBackward
  maxAngle : 0 ≤ p.maxAngle
  linFactor : 0 ≤ p.linFactor ∧ p.linFactor ≤ 1
  angFactor : 0 ≤ p.angFactor ∧ p.angFactor ≤ 1
  integration : 0 < p.integratorStep
  /-- The bounds enforced on each step are those of the planner. -/
  lengthBound : p.problem.maxLength = some p.maxLength
  angleBound : p.problem.maxAngle = some p.maxAngle
  widthBound : ∃ w, p.problem.minWidth = some w ∧ 0 ≤ w ∧ w ≤ p.nominalWidth
  backwardBound : p.problem.maxLengthBackward = none ∨ p.problem.maxLengthBackward = some p.maxLengthBackward

/-- A call of a public method: a configuration method, a planning request (with the environment: integrator, iterations
granted, footprints), or the removal of the past of the reference. -/
inductive Event (K : Type*)
  | configure (o : Planner.Op K)
  | plan (integ : Integrator K) (fuel : Nat) (left right : FootPrint K) (t0 t1 : K)
  | clear (t : K)

/-- The planner after a call (if it does not return, the planner is no longer observable; it is left as is). -/
def Event.apply [Trig K] (p : Planner K) : Event K → Planner K
  | .configure o => (p.run o).2
  | .plan integ fuel left right t0 t1 =>
    match p.computeNewSteps integ fuel left right t0 t1 with
    | .done _ q _ _ => q
    | _ => p
  | .clear t =>
    match p.clearDesiredTrajectoryUpTo t with
    | .ok (_, q) => q
    | _ => p

/-- The configuration calls of a history. -/
def configurations {K : Type*} : List (Event K) → List (Planner.Op K)
  | [] => []
  | .configure o :: es => o :: configurations es
  | .plan .. :: es => configurations es
  | .clear _ :: es => configurations es

end Uni.Spec
