import Verif.Model.Planner
import Verif.Spec.Plan
import Verif.Spec.Search

/-! # The landings a plan must consist of

A plan is a chain of searches (`Spec.Search`), each one started by the landing decided by the previous
one, possibly followed by the terminal steps. -/

set_option autoImplicit false

namespace Uni.Spec
variable {K : Type*}

/-- The situation after a landing. -/
structure Stance (K : Type*) where
  /-- The foot that moves next. -/
  left : Bool
  /-- The step of the other foot, on which the robot stands. -/
  prev : Step K
  /-- The last step of the moving foot. -/
  last : Option (Step K)
  /-- The first sample. -/
  start : K
  /-- Pause already spent. -/
  pause0 : K
  /-- Extra time before the first landing. -/
  offset : K

variable [Field K] [LinearOrder K] [Trig K]

/-- The step of foot `F` for a unicycle state and a landing time. -/
def stepOf (F : Foot K) (u : UState K) (t : K) : Step K :=
  ⟨u.position + rot u.angle F.distance, u.angle + F.yawOffset, t, F.fp.footName⟩

/-- The unicycle state for which foot `F` is on step `s`. -/
def stateFor (F : Foot K) (s : Step K) : UState K :=
  ⟨s.position - rot (s.angle - F.yawOffset) F.distance, s.angle - F.yawOffset⟩

/-- Moving foot `F` from its last step to where unicycle state `u` wants it is a tiny step: both the
displacement and the rotation are below the thresholds. -/
def tinyFor (F : Foot K) (last : Option (Step K)) (u : UState K) : Bool :=
  match last with
  | none => false
  | some s => decide ((u.position + rot u.angle F.distance - s.position).norm < F.minimumStep) &&
      decide (|s.angle - F.yawOffset - u.angle| < F.minimumAngle)

/-- The data of a new step, given the two feet, the moving foot, the step the robot stands on and the
unicycle state at landing: position of the left foot with respect to the right one, change of heading,
duration, position of the new step, and its position in the frame of the stance step. -/
def dataOf (L R : Foot K) (left : Bool) (prev : Step K) (u : UState K) (duration : K) : StepData K :=
  let F := if left then L else R
  let S := if left then R else L
  let new := u.position + rot u.angle F.distance
  ⟨if left then rotT prev.angle (new - prev.position) else rotT u.angle (prev.position - new),
   |prev.angle - S.yawOffset - u.angle|, duration, new, rotT prev.angle (new - prev.position)⟩

/-- The search for the landing that follows a given situation. -/
def searchFrom (p : Planner K) (sol : K → UState K) (L R : Foot K) (c : Stance K) : Search K where
  minTime := p.minTime
  maxTime := p.maxTime
  dT := p.dT
  prevTime := c.prev.impactTime
  earliest := p.initTime + c.offset
  endTime := p.endTime
  pause0 := c.pause0
  time k := p.nextTime^[k] c.start
  tiny k := tinyFor (if c.left then L else R) c.last (sol (p.nextTime^[k] c.start))
  closeTiny := tinyFor (if c.left then L else R) c.last (stateFor (if c.left then R else L) c.prev)
  ok k d := p.problem.areConstraintsSatisfied (dataOf L R c.left c.prev (sol (p.nextTime^[k] c.start)) d) = true
  cost k d := p.problem.cost (dataOf L R c.left c.prev (sol (p.nextTime^[k] c.start)) d)

/-- The situation after landing `st`. -/
def Stance.next (p : Planner K) (c : Stance K) (st : Step K) : Stance K :=
  ⟨!c.left, st, some c.prev, p.nextTime st.impactTime, 0, 0⟩

/-- The landing decided by the search. -/
inductive Decided (p : Planner K) (sol : K → UState K) (L R : Foot K) (c : Stance K) : Landing K → Prop
  | optimised (n m : Nat) : (searchFrom p sol L R c).Optimal n m →
      Decided p sol L R c ⟨c.left, stepOf (if c.left then L else R) (sol ((searchFrom p sol L R c).time m))
        ((searchFrom p sol L R c).time m), .optimised⟩
  | parallel (n : Nat) : (searchFrom p sol L R c).Closes n →
      Decided p sol L R c ⟨c.left, stepOf (if c.left then L else R) (stateFor (if c.left then R else L) c.prev)
        ((searchFrom p sol L R c).time n), .parallel⟩

/-- `Run c log c'`: the searches started in situation `c` decide the landings `log`; in `c'` the search
reaches the end of the horizon. -/
inductive Run (p : Planner K) (sol : K → UState K) (L R : Foot K) : Stance K → List (Landing K) → Stance K → Prop
  | stop (c : Stance K) : (searchFrom p sol L R c).Exhausted → Run p sol L R c [] c
  | land (c : Stance K) (e : Landing K) (log : List (Landing K)) (c' : Stance K) : Decided p sol L R c e →
      Run p sol L R (c.next p e.step) log c' → Run p sol L R c (e :: log) c'

/-- The time of the terminal step. -/
def terminalTime (p : Planner K) (c : Stance K) : K :=
  max (p.initTime + p.nominalTime) (c.prev.impactTime + p.nominalTime)

/-- A complete terminal step (both feet reach the final unicycle state `u`) is possible and useful. -/
def CanFinish (p : Planner K) (L R : Foot K) (c : Stance K) (u : UState K) : Prop :=
  p.problem.areConstraintsSatisfied (dataOf L R c.left c.prev u (terminalTime p c - c.prev.impactTime)) = true ∧
  tinyFor (if c.left then R else L) (some c.prev) u = false ∧ tinyFor (if c.left then L else R) c.last u = false

/-- The terminal landings: two steps to the final unicycle state if possible, otherwise the moving foot is
brought beside the other one, unless this would be a tiny step. -/
inductive TerminalLog (p : Planner K) (L R : Foot K) (c : Stance K) (u : UState K) : List (Landing K) → Prop
  | both : CanFinish p L R c u → TerminalLog p L R c u
      [⟨c.left, stepOf (if c.left then L else R) u (terminalTime p c), .terminal⟩,
       ⟨!c.left, stepOf (if c.left then R else L) u (terminalTime p c + p.nominalTime), .terminal⟩]
  | close : ¬ CanFinish p L R c u →
      tinyFor (if c.left then L else R) c.last (stateFor (if c.left then R else L) c.prev) = false →
      TerminalLog p L R c u
        [⟨c.left, stepOf (if c.left then L else R) (stateFor (if c.left then R else L) c.prev) (terminalTime p c),
          .terminal⟩]
  | skip : ¬ CanFinish p L R c u →
      tinyFor (if c.left then L else R) c.last (stateFor (if c.left then R else L) c.prev) = true →
      TerminalLog p L R c u []

/-- The foot that takes the first step when the feet start together: the one on the side of the commanded
lateral velocity (direct and navigation control), otherwise the configured one. -/
def firstSwing (p : Planner K) : Bool :=
  match p.controller with
  | .personFollowing => p.startLeft
  | .direct => if p.ctrl.direct.desired.lateral = 0 then p.startLeft else decide (0 < p.ctrl.direct.desired.lateral)
  | .navigation => if p.ctrl.nav.desired.lateral = 0 then p.startLeft else decide (0 < p.ctrl.nav.desired.lateral)

/-- `FirstFoot p l r firstLeft together`: given the last steps of the two feet, which foot moves first,
and whether the feet start together: the foot that has been on the ground longest (a foot without steps
counts as the oldest). -/
inductive FirstFoot (p : Planner K) : Option (Step K) → Option (Step K) → Bool → Bool → Prop
  | empty : FirstFoot p none none (firstSwing p) true
  | together (l r : Step K) : l.impactTime = r.impactTime → FirstFoot p (some l) (some r) (firstSwing p) true
  | leftOlder (l r : Step K) : l.impactTime < r.impactTime → FirstFoot p (some l) (some r) true false
  | rightOlder (l r : Step K) : r.impactTime < l.impactTime → FirstFoot p (some l) (some r) false false
  | noLeft (r : Step K) : FirstFoot p none (some r) true false
  | noRight (l : Step K) : FirstFoot p (some l) none false false

/-- The left foot as configured by the planner: half the nominal width on the left of the unicycle. -/
def leftFoot (p : Planner K) (fp : FootPrint K) : Foot K :=
  ⟨fp, ⟨0, p.nominalWidth / 2⟩, true, p.leftYaw, p.minLength, p.minAngle⟩
/-- The right foot as configured by the planner. -/
def rightFoot (p : Planner K) (fp : FootPrint K) : Foot K :=
  ⟨fp, ⟨0, -p.nominalWidth / 2⟩, true, p.rightYaw, p.minLength, p.minAngle⟩

/-- The footprints with `log` appended. -/
def extendBy (fp : FootPrint K) (left : Bool) (log : List (Landing K)) : FootPrint K :=
  { fp with steps := fp.steps ++ stepsOf left log }

/-- `RestingState p t0 u`: where the unicycle starts when no step was ever taken: at the origin, or, for
person following, such that the person is at the desired point at time `t0` (heading 0). -/
def RestingState (p : Planner K) (t0 : K) (u : UState K) : Prop :=
  match p.controller with
  | .personFollowing => ∃ y yDot, p.ctrl.person.getDesiredPoint t0 = .ok (y, yDot) ∧
      u = ⟨y - p.ctrl.person.personDistance, 0⟩
  | _ => u = ⟨0, 0⟩

/-- `InitialState p L R t0 l r u`: given the feet and their last steps, the unicycle state from which the
trajectory starts: the one for which the stance foot (the last to land; with feet together, the one that is
not configured to start) is where it is. -/
inductive InitialState (p : Planner K) (L R : Foot K) (t0 : K) : Option (Step K) → Option (Step K) → UState K → Prop
  | empty (u : UState K) : RestingState p t0 u → InitialState p L R t0 none none u
  | together (l r : Step K) : l.impactTime = r.impactTime →
      InitialState p L R t0 (some l) (some r) (if p.startLeft then stateFor R r else stateFor L l)
  | leftOlder (l r : Step K) : l.impactTime < r.impactTime → InitialState p L R t0 (some l) (some r) (stateFor R r)
  | rightOlder (l r : Step K) : r.impactTime < l.impactTime → InitialState p L R t0 (some l) (some r) (stateFor L l)
  | noLeft (r : Step K) : InitialState p L R t0 none (some r) (stateFor R r)
  | noRight (l : Step K) : InitialState p L R t0 (some l) none (stateFor L l)

/-- The linear velocity limit: a step of maximum length and nominal width in the minimum time, times the
conservative factor. -/
def speedLimit (p : Planner K) : K := Trig.sqrt (p.maxLength ^ 2 - p.nominalWidth ^ 2) / p.minTime * p.linFactor
/-- The angular velocity limit: the maximum rotation in the minimum time, times the conservative factor. -/
def turnLimit (p : Planner K) : K := p.maxAngle / p.minTime * p.angFactor

/-- The limits of a controller set from the configuration. -/
def limited (p : Planner K) (b : BaseCtrl K) : BaseCtrl K :=
  { b with maxLinear := speedLimit p, maxAngular := turnLimit p }

/-- The navigation controller with its limits (set only when it is the controller in use). -/
def navLimited (p : Planner K) : NavCtrl K :=
  if p.controller = .navigation then
    { p.ctrl.nav with
      base := limited p p.ctrl.nav.base
      maxVel := some (|speedLimit p|, |speedLimit p * p.ctrl.nav.base.sideFactor|,
        |turnLimit p / (1 + p.ctrl.nav.base.turnGain)|) }
  else p.ctrl.nav

/-- The controllers used to integrate the trajectory, from state `u` at time `t0`: the velocity limits come
from the configuration; unless this is the first plan, the person is where the robot is at `t0`; if moreover
the feet start together, the references and the commands are held until the first step may end. -/
def Prepared (p : Planner K) (t0 : K) (hadSteps together : Bool) (u : UState K) (c : Controllers K) : Prop :=
  let here := p.ctrl.person.getPersonPosition u.position u.angle
  let hold := t0 + p.nominalTime - p.minTime
  ∃ traj : List (TrajPoint K),
    traj.Perm (p.ctrl.person.traj ++
      (if hadSteps then ⟨t0, here, 0⟩ :: (if together then [⟨hold, here, 0⟩] else []) else [])) ∧
    (if hadSteps then traj.Pairwise (fun a b => a.initTime ≤ b.initTime) else traj = p.ctrl.person.traj) ∧
    c = { person := { p.ctrl.person with base := limited p p.ctrl.person.base, traj := traj }
          direct := if hadSteps && together then { p.ctrl.direct with deactivationEnd := hold } else p.ctrl.direct
          directBase := limited p p.ctrl.directBase
          nav := if hadSteps && together then { navLimited p with deactivationEnd := |hold| } else navLimited p }

/-- Both footprints with an initial step at time `t0`, for the resting unicycle state. -/
def Initialised (p : Planner K) (left right : FootPrint K) (t0 : K) (l0 r0 : FootPrint K) : Prop :=
  ∃ u, RestingState p t0 u ∧ l0 = { left with steps := [stepOf (leftFoot p left) u t0] } ∧
    r0 = { right with steps := [stepOf (rightFoot p right) u t0] }

/-- The footprints a planning call starts from: the given ones; if both are empty, one initial step each. -/
def StartsFrom (p : Planner K) (left right : FootPrint K) (t0 : K) (l0 r0 : FootPrint K) : Prop :=
  (¬ (left.steps = [] ∧ right.steps = []) ∧ l0 = left ∧ r0 = right) ∨
  (left.steps = [] ∧ right.steps = [] ∧ Initialised p left right t0 l0 r0)

/-- The last step of `fp` gets landing time `t` (and the name of the footprint); nothing else changes. -/
def Retimed (fp : FootPrint K) (t : K) (fp' : FootPrint K) : Prop :=
  ∃ older s, fp.steps = older ++ [s] ∧
    fp' = { fp with steps := older ++ [{ s with impactTime := t, footName := fp.footName }] }

/-- The landing time of the older of the two last steps becomes that of the newer one. -/
def Realigned (l0 r0 l1 r1 : FootPrint K) : Prop :=
  ∃ l r, l0.steps.getLast? = some l ∧ r0.steps.getLast? = some r ∧
    ((l.impactTime = r.impactTime ∧ l1 = l0 ∧ r1 = r0) ∨
     (r.impactTime < l.impactTime ∧ l1 = l0 ∧ Retimed r0 l.impactTime r1) ∨
     (l.impactTime < r.impactTime ∧ Retimed l0 r.impactTime l1 ∧ r1 = r0))

/-- No step of the footprint has a negative landing time (always the case for a footprint built with the
public methods, see C02). -/
def NonNeg (fp : FootPrint K) : Prop := ∀ s ∈ fp.steps, 0 ≤ s.impactTime

/-- The configured bounds are consistent. -/
def Accepted (p : Planner K) : Prop :=
  p.nominalWidth ≤ p.maxLength ∧ p.nominalWidth ≤ p.maxLengthBackward ∧ p.minAngle < p.maxAngle

/-- The velocity limits derived from the configuration are accepted by the controllers: not negative and, for
navigation, not negligible. -/
def LimitsOk (p : Planner K) : Prop :=
  0 ≤ speedLimit p ∧ 0 ≤ turnLimit p ∧
  (p.controller = .navigation → NavCtrl.zeroTolerance ≤ |speedLimit p| ∧
    NavCtrl.zeroTolerance ≤ |speedLimit p * p.ctrl.nav.base.sideFactor| ∧
    NavCtrl.zeroTolerance ≤ |turnLimit p / (1 + p.ctrl.nav.base.turnGain)|)

/-- The reasons for which a planning request may be refused. -/
inductive Refused (p : Planner K) (integ : Integrator K) (left right : FootPrint K) (t0 t1 : K) : Prop
  /-- The configured bounds are not consistent. -/
  | bounds : ¬ Accepted p → Refused p integ left right t0 t1
  /-- The velocity limits are not acceptable. -/
  | limits : ¬ LimitsOk p → Refused p integ left right t0 t1
  /-- A negative tiny-step threshold. -/
  | thresholds : p.minLength < 0 ∨ p.minAngle < 0 → Refused p integ left right t0 t1
  /-- The interval starts before time 0. -/
  | negative : t0 < 0 → Refused p integ left right t0 t1
  /-- The interval is empty. -/
  | interval : t1 ≤ t0 → Refused p integ left right t0 t1
  /-- A foot lands after the beginning of the interval. -/
  | past (s : Step K) : left.steps.getLast? = some s ∨ right.steps.getLast? = some s → t0 < s.impactTime →
      Refused p integ left right t0 t1
  /-- The references cannot be held. -/
  | hold : t0 + p.nominalTime - p.minTime < 0 → Refused p integ left right t0 t1
  /-- No steps, person following, and no reference at the beginning of the interval. -/
  | noReference : left.steps = [] → right.steps = [] → p.controller = .personFollowing →
      p.ctrl.person.getDesiredPoint t0 = .fail → Refused p integ left right t0 t1
  /-- The integration failed. -/
  | integration (q : Planner K) (u : UState K) : (integ q u t0 t1).2 = none → Refused p integ left right t0 t1

/-- The starting point of the searches: `q` is the planner during the call, `l0`, `r0` the footprints to which
steps are added, `prev` the step on which the robot stands. -/
structure Begins (p : Planner K) (integ : Integrator K) (left right : FootPrint K) (t0 t1 : K) (q : Planner K)
    (sol : K → UState K) (l0 r0 : FootPrint K) (prev : Step K) : Prop where
  nonneg : 0 ≤ t0
  lt : t0 < t1
  /-- During the call only the horizon, the controllers and the swing-foot flags change. -/
  eq : q = { p with initTime := t0, endTime := t1, ctrl := q.ctrl, swingLeft := q.swingLeft, firstStep := q.firstStep }
  /-- The foot that moves first. -/
  first : FirstFoot p left.steps.getLast? right.steps.getLast? q.swingLeft q.firstStep
  /-- The footprints. -/
  steps : StartsFrom p left right t0 l0 r0
  /-- The robot stands on `prev`, which is not older than the other foot's last step, nor in the future. -/
  last : (if q.swingLeft then r0 else l0).steps.getLast? = some prev
  prevTime : prev.impactTime ≤ t0
  swing : ∀ s, (if q.swingLeft then l0 else r0).steps.getLast? = some s → s.impactTime ≤ prev.impactTime
  together : q.firstStep = true →
    ∃ s, (if q.swingLeft then l0 else r0).steps.getLast? = some s ∧ s.impactTime = prev.impactTime
  /-- The trajectory is the integral, over the requested interval, of the controlled unicycle. -/
  integrated : ∃ c0 u, InitialState p (leftFoot p left) (rightFoot p right) t0 left.steps.getLast? right.steps.getLast? u ∧
    Prepared p t0 (decide (¬ (left.steps = [] ∧ right.steps = []))) q.firstStep u c0 ∧
    integ { q with ctrl := c0 } u t0 t1 = (q.ctrl, some sol)

/-- The situation in which the first search starts: everything up to now counts as pause; when the feet start
together, the first step is delayed by the nominal duration. -/
def firstStance (q : Planner K) (l0 r0 : FootPrint K) (prev : Step K) : Stance K :=
  ⟨q.swingLeft, prev, (if q.swingLeft then l0 else r0).steps.getLast?, q.initTime, q.initTime - prev.impactTime,
    if q.firstStep then q.nominalTime else 0⟩

/-- A plan: the planner during the call, the trajectory of the unicycle, the footprints to which steps are added,
the step on which the robot stands at the beginning, the landings decided by the searches, the terminal landings,
and the situation after the searches. -/
structure Plan (K : Type*) where
  q : Planner K
  sol : K → UState K
  l0 : FootPrint K
  r0 : FootPrint K
  prev : Step K
  decided : List (Landing K)
  terminal : List (Landing K)
  final : Stance K

namespace Plan
/-- All the landings added, in order. -/
def log (d : Plan K) : List (Landing K) := d.decided ++ d.terminal
/-- The first foot to move. -/
def firstLeft (d : Plan K) : Bool := d.q.swingLeft
/-- The left foot. -/
def left (d : Plan K) : Foot K := leftFoot d.q d.l0
/-- The right foot. -/
def right (d : Plan K) : Foot K := rightFoot d.q d.r0
/-- The foot of a side. -/
def foot (d : Plan K) (left : Bool) : Foot K := if left then d.left else d.right
/-- The situation in which the first search starts. -/
def start (d : Plan K) : Stance K := firstStance d.q d.l0 d.r0 d.prev
/-- The foot configured to start after the call: as before, except that a call without landings, unless the starting foot is to be
reset, makes the robot start with the foot that has been on the ground longest. -/
def startAfter (d : Plan K) : Bool :=
  if d.q.resetStartingFoot = true ∨ d.log ≠ [] then d.q.startLeft
  else match d.l0.steps.getLast?, d.r0.steps.getLast? with
    | some l, some r =>
      if l.impactTime < r.impactTime then true else if r.impactTime < l.impactTime then false else d.q.startLeft
    | _, _ => d.q.startLeft
/-- The search in a situation. -/
def search (d : Plan K) (c : Stance K) : Search K := searchFrom d.q d.sol d.left d.right c
end Plan

/-- The footprints `left'`, `right'` are those prescribed for the request: a chain of searches along the integrated
trajectory, followed by the terminal steps if enabled, decides the landings, which are appended; if there is none the
last steps are realigned. -/
structure PlanOf (p : Planner K) (integ : Integrator K) (left right : FootPrint K) (t0 t1 : K)
    (left' right' : FootPrint K) (d : Plan K) : Prop where
  begins : Begins p integ left right t0 t1 d.q d.sol d.l0 d.r0 d.prev
  run : Run d.q d.sol d.left d.right d.start d.decided d.final
  terminal : if p.addTerminal then TerminalLog d.q d.left d.right d.final (d.sol t1) d.terminal else d.terminal = []
  effect : (d.log ≠ [] ∧ left' = extendBy d.l0 true d.log ∧ right' = extendBy d.r0 false d.log) ∨
    (d.log = [] ∧ Realigned d.l0 d.r0 left' right')

/-- Each landing satisfies `P` in the situation in which it was decided, the first one being `c`. -/
def Situations (p : Planner K) (P : Stance K → Landing K → Prop) : Stance K → List (Landing K) → Prop
  | _, [] => True
  | c, e :: es => P c e ∧ Situations p P (c.next p e.step) es

end Uni.Spec
