import Verif.Model.UnicycleFoot
import Verif.Model.Optimization
import Verif.Model.PersonFollowing
import Verif.Model.Navigation

/-! # `UnicyclePlanner` (src/UnicyclePlanner.cpp)

The numerical integrator is external (iDynTree): it is a parameter which, given the planner (with the
controllers), the initial state and the time interval, returns the controllers as left by the control
evaluations it made and either a failure or the solution as a function of time (the result of
`getIntegratorSolution`, src/UnicyclePlanner.cpp:290-308).  No property of it is assumed. -/

set_option autoImplicit false

namespace Uni
variable {K : Type*}

/-- `UnicycleController`. -/
inductive ControllerKind
  | personFollowing
  | direct
  | navigation
  deriving DecidableEq, Repr

/-- `FreeSpaceEllipseMethod`. -/
inductive EllipseMethod
  | referenceOnly
  | referenceAndFootsteps
  | footstepsOnly
  deriving DecidableEq, Repr

/-- The three controllers owned by the planner (`directBase` is the `UnicycleBaseController` part of
the direct controller). -/
structure Controllers (K : Type*) where
  person : PersonCtrl K
  direct : DirectCtrl K
  directBase : BaseCtrl K
  nav : NavCtrl K

/-- `class UnicyclePlanner` (include/UnicyclePlanner.h).  `m_left`, `m_right` only live during a call and
are not part of the record; the integrator is represented by its maximum step size. -/
structure Planner (K : Type*) where
  ctrl : Controllers K
  controller : ControllerKind
  problem : Problem K
  integratorStep : K
  initTime : K
  endTime : K
  minTime : K
  maxTime : K
  nominalTime : K
  dT : K
  minAngle : K
  nominalWidth : K
  maxLength : K
  maxLengthBackward : K
  minLength : K
  maxAngle : K
  addTerminal : Bool
  startLeft : Bool
  resetStartingFoot : Bool
  firstStep : Bool
  method : EllipseMethod
  leftYaw : K
  rightYaw : K
  swingLeft : Bool
  linFactor : K
  angFactor : K

/-- The external integrator: see the header of this file. -/
abbrev Integrator (K : Type*) :=
  Planner K → UState K → K → K → Controllers K × Option (K → UState K)

/-- Result of a planning call: return value, planner and footprints afterwards (also when it returns
false); undefined behaviour; fuel exhausted. -/
inductive PlanResult (K : Type*)
  | done (ok : Bool) (p : Planner K) (left right : FootPrint K)
  | ub (why : UB)
  | outOfFuel

/-- Variables of the main loop of `computeNewSteps` (src/UnicyclePlanner.cpp:796-828).  `stanceFoot` and
`swingFoot` always are the feet designated by `m_swingLeft` (lines 810, 891); the buffers used only for
diagnostic messages are not modelled. -/
@[ext] structure Loop (K : Type*) where
  t : K
  tOptim : K
  minCost : K
  pauseTime : K
  timeOffset : K
  prevStep : Step K
  swingLeft : Bool
  firstStep : Bool
  left : Foot K
  right : Foot K
  deriving DecidableEq

namespace Loop
/-- `swingFoot`, src/UnicyclePlanner.cpp:811, 892. -/
def swing (s : Loop K) : Foot K := if s.swingLeft then s.left else s.right
/-- `stanceFoot`, src/UnicyclePlanner.cpp:810, 891. -/
def stance (s : Loop K) : Foot K := if s.swingLeft then s.right else s.left
/-- Store the swing foot. -/
def setSwing (s : Loop K) (f : Foot K) : Loop K :=
  if s.swingLeft then { s with left := f } else { s with right := f }
end Loop

namespace Planner
variable [Field K] [LinearOrder K] [Trig K]

/-- `get_rPl`, src/UnicyclePlanner.cpp:216-256: position of the left foot with respect to the right one.
For a left swing in the frame of the right foot, for a right swing in the frame of the unicycle. -/
def get_rPl (swingLeft : Bool) (left right : Foot K) (u : UState K) : Option (Vec2 K) :=
  if swingLeft then
    match right.getLastStep, left.getFootPositionFromUnicycle u with
    | some prevStep, some newPosition => some (rotT prevStep.angle (newPosition - prevStep.position))
    | _, _ => none
  else
    match left.getLastStep, right.getFootPositionFromUnicycle u with
    | some prevStep, some newPosition => some (rotT u.angle (prevStep.position - newPosition))
    | _, _ => none

/-- `get_newStepRelativePosition`, src/UnicyclePlanner.cpp:258-288. -/
def get_newStepRelativePosition (swingLeft : Bool) (left right : Foot K) (u : UState K) : Option (Vec2 K) :=
  let stance := if swingLeft then right else left
  let swing := if swingLeft then left else right
  match stance.getLastStep, swing.getFootPositionFromUnicycle u with
  | some prevStep, some newPosition => some (rotT prevStep.angle (newPosition - prevStep.position))
  | _, _ => none

/-- The advance of the time cursor, src/UnicyclePlanner.cpp:932-936. -/
def nextTime (p : Planner K) (t : K) : K :=
  if p.endTime < t + p.dT ∧ t < p.endTime then p.endTime else t + p.dT

/-- End of an iteration. -/
def advance (p : Planner K) (s : Loop K) : Loop K := { s with t := p.nextTime s.t }

/-- `stanceFoot`, `swingFoot` and `prevStep` refreshed after a landing (or a timeout), then the end of
the iteration, src/UnicyclePlanner.cpp:891-897, 932-936. -/
def refresh (p : Planner K) (s : Loop K) : Bool × Loop K :=
  match s.stance.getLastStep with
  | none => (false, s)
  | some prevStep => (true, p.advance { s with prevStep := prevStep })

/-- The step considered at the current sample, src/UnicyclePlanner.cpp:901-911; `deltaTime` is already
net of the pause.  The result of `getFootPositionFromUnicycle` (line 911) is ignored by the code; it
succeeds whenever `get_rPl` does. -/
def candidate (s : Loop K) (u : UState K) (deltaTime : K) : Option (StepData K) :=
  match get_rPl s.swingLeft s.left s.right u, get_newStepRelativePosition s.swingLeft s.left s.right u with
  | some rPl, some rel =>
    some ⟨rPl, |s.stance.unicycleAngle s.prevStep - u.angle|, deltaTime, s.swing.footPosition u, rel⟩
  | _, _ => none

/-- The body of the `while` loop, src/UnicyclePlanner.cpp:829-936; the boolean is false if the body
executes `return false`. -/
def body (p : Planner K) (sol : K → UState K) (s : Loop K) : Bool × Loop K :=
  let u := sol s.t
  let deltaTime := s.t - s.prevStep.impactTime
  if p.minTime ≤ deltaTime ∧ p.initTime + s.timeOffset < s.t then
    if s.swing.isTinyStep u then (true, p.advance { s with pauseTime := s.pauseTime + p.dT })
    else
      let deltaTime := deltaTime - s.pauseTime
      if p.maxTime < deltaTime ∨ s.t = p.endTime then
        if 0 < s.tOptim then
          match s.swing.addStepFromUnicycle (sol s.tOptim) s.tOptim with
          | (false, f) => (false, s.setSwing f)
          | (true, f) =>
            p.refresh { s.setSwing f with
              t := s.tOptim, pauseTime := 0, tOptim := -1, firstStep := false, timeOffset := 0,
              swingLeft := !s.swingLeft }
        else
          match s.stance.getUnicycleStateFromStep s.prevStep with
          | none => (false, s)
          | some u' =>
            if s.swing.isTinyStep u' then
              p.refresh { s with pauseTime := s.t - s.prevStep.impactTime }
            else
              match s.swing.addParallelStep s.stance s.t with
              | (false, f) => (false, s.setSwing f)
              | (true, f) =>
                p.refresh { s.setSwing f with
                  pauseTime := 0, firstStep := false, timeOffset := 0, swingLeft := !s.swingLeft }
      else
        match candidate s u deltaTime with
        | none => (false, s)
        | some d =>
          if 0 < deltaTime ∧ p.problem.areConstraintsSatisfied d = true then
            let cost := p.problem.cost d
            if s.tOptim < 0 ∨ cost ≤ s.minCost then
              (true, p.advance { s with tOptim := s.t, minCost := cost })
            else (true, p.advance s)
          else (true, p.advance s)
  else (true, p.advance s)

/-- Outcome of the `while` loop. -/
inductive LoopResult (K : Type*)
  | exit (s : Loop K)
  | failed (s : Loop K)
  | outOfFuel

/-- The `while` loop, src/UnicyclePlanner.cpp:828-937. -/
def loop (p : Planner K) (sol : K → UState K) : Nat → Loop K → LoopResult K
  | 0, _ => .outOfFuel
  | n + 1, s =>
    if s.t ≤ p.endTime then
      match p.body sol s with
      | (true, s') => p.loop sol n s'
      | (false, s') => .failed s'
    else .exit s

/-- `addTerminalStep(const UnicycleState&)`, src/UnicyclePlanner.cpp:310-376, returning the left and
right feet. -/
def addTerminalStep (p : Planner K) (swingLeft : Bool) (left right : Foot K) (u : UState K) :
    Bool × Foot K × Foot K :=
  let stance := if swingLeft then right else left
  let swing := if swingLeft then left else right
  let both := fun (sw st : Foot K) => if swingLeft then (sw, st) else (st, sw)
  match stance.getLastStep with
  | none => (false, left, right)
  | some prev =>
    match get_rPl swingLeft left right u, get_newStepRelativePosition swingLeft left right u with
    | some rPl, some rel =>
      let stepTime := max (p.initTime + p.nominalTime) (prev.impactTime + p.nominalTime)
      let d : StepData K :=
        ⟨rPl, |u.angle - stance.unicycleAngle prev|, stepTime - prev.impactTime, swing.footPosition u, rel⟩
      if p.problem.areConstraintsSatisfied d && !stance.isTinyStep u && !swing.isTinyStep u then
        match swing.addStepFromUnicycle u stepTime with
        | (false, sw) => (false, both sw stance)
        | (true, sw) =>
          match stance.addStepFromUnicycle u (stepTime + p.nominalTime) with
          | (ok, st) => (ok, both sw st)
      else
        match stance.getUnicycleStateFromStep prev with
        | none => (false, left, right)
        | some u' =>
          if swing.isTinyStep u' then (true, left, right)
          else
            match swing.addParallelStep stance stepTime with
            | (ok, sw) => (ok, both sw stance)
    | _, _ => (false, left, right)

/-- Outcome of `getInitialStateFromFeet`: failure (with the planner and feet left behind), success
(also the initial unicycle state), undefined behaviour. -/
inductive InitResult (K : Type*)
  | failed (p : Planner K) (left right : Foot K)
  | ok (p : Planner K) (left right : Foot K) (u : UState K)
  | ub (why : UB)

/-- The last part of `getInitialStateFromFeet`, src/UnicyclePlanner.cpp:150-166: the first swing foot
follows the desired lateral velocity. -/
def chooseSwing (p : Planner K) : Planner K :=
  let p := if p.firstStep && decide (p.controller = .direct) && decide (0 < |p.ctrl.direct.desired.lateral|) then
      { p with swingLeft := decide (0 < p.ctrl.direct.desired.lateral) } else p
  if p.firstStep && decide (p.controller = .navigation) && decide (0 < |p.ctrl.nav.desired.lateral|) then
    { p with swingLeft := decide (0 < p.ctrl.nav.desired.lateral) } else p

/-- Lines 116-143 of `getInitialStateFromFeet`: checks and references when some step exists. -/
def initReferences (p : Planner K) (left right : Foot K) (u : UState K) (timeFromFeet initTime : K) :
    InitResult K :=
  if initTime < timeFromFeet then .failed p left right
  else
    let point : TrajPoint K := ⟨initTime, p.ctrl.person.getPersonPosition u.position u.angle, 0⟩
    match p.ctrl.person.setDesiredPoint point with
    | (false, _) => .failed p left right
    | (true, person) =>
      let p := { p with ctrl := { p.ctrl with person := person } }
      if p.firstStep then
        let t := initTime + p.nominalTime - p.minTime
        match p.ctrl.person.setDesiredPoint { point with initTime := t } with
        | (false, _) => .failed p left right
        | (true, person) =>
          let p := { p with ctrl := { p.ctrl with
            person := person, direct := p.ctrl.direct.setInactiveUntil t, nav := p.ctrl.nav.setInactiveUntil t } }
          .ok p.chooseSwing left right u
      else .ok p.chooseSwing left right u

/-- Where the unicycle starts when there is no step at all, in `getInitialStateFromFeet`,
src/UnicyclePlanner.cpp:14-167. -/
def stateWithoutSteps (p : Planner K) (initTime : K) : Out (UState K) :=
  match p.controller with
  | .personFollowing => do
    let r ← p.ctrl.person.getDesiredPoint initTime
    .ok ⟨r.1 - p.ctrl.person.personDistance, 0⟩
  | _ => .ok ⟨0, 0⟩

/-- `getInitialStateFromFeet`, src/UnicyclePlanner.cpp:14-167.  `setInitialState`
(src/ControlledUnicycle.cpp) always succeeds. -/
def getInitialStateFromFeet (p : Planner K) (left right : Foot K) (initTime : K) : InitResult K :=
  match left.getLastStep, right.getLastStep with
  | none, none =>
    match p.stateWithoutSteps initTime with
    | .fail => .failed p left right
    | .ub w => .ub w
    | .ok u =>
      let left := (left.addStepFromUnicycle u initTime).2
      let right := (right.addStepFromUnicycle u initTime).2
      .ok { p with firstStep := true, swingLeft := p.startLeft }.chooseSwing left right u
  | none, some r =>
    match right.getUnicycleStateFromStep r with
    | none => .failed p left right
    | some u => initReferences { p with swingLeft := true, firstStep := false } left right u r.impactTime initTime
  | some l, none =>
    match left.getUnicycleStateFromStep l with
    | none => .failed p left right
    | some u => initReferences { p with swingLeft := false, firstStep := false } left right u l.impactTime initTime
  | some l, some r =>
    if l.impactTime = r.impactTime then
      if p.startLeft then
        match right.getUnicycleStateFromStep r with
        | none => .failed p left right
        | some u => initReferences { p with swingLeft := true, firstStep := true } left right u l.impactTime initTime
      else
        match left.getUnicycleStateFromStep l with
        | none => .failed p left right
        | some u => initReferences { p with swingLeft := false, firstStep := true } left right u l.impactTime initTime
    else if l.impactTime < r.impactTime then
      match right.getUnicycleStateFromStep r with
      | none => .failed p left right
      | some u => initReferences { p with swingLeft := true, firstStep := false } left right u r.impactTime initTime
    else
      match left.getUnicycleStateFromStep l with
      | none => .failed p left right
      | some u => initReferences { p with swingLeft := false, firstStep := false } left right u l.impactTime initTime

/-- The configuration of a foot at the beginning of `initializePlanner`,
src/UnicyclePlanner.cpp:172-193, `none` if one of the calls fails. -/
def configureFoot (f : Foot K) (distance yaw minLength minAngle : K) : Option (Foot K) :=
  let f := (f.setDistanceFromUnicycle ⟨0, distance⟩).setYawOffset yaw
  match f.setTinyStepLength minLength with
  | (false, _) => none
  | (true, f) =>
    match f.setTinyStepAngle minAngle with
    | (false, _) => none
    | (true, f) => some f

/-- Outcome of `initializePlanner`. -/
inductive SetupResult (K : Type*)
  | failed (p : Planner K) (left right : Foot K)
  | ok (p : Planner K) (left right : Foot K) (sol : K → UState K)
  | ub (why : UB)

/-- `initializePlanner`, src/UnicyclePlanner.cpp:169-214. -/
def initializePlanner (p : Planner K) (integ : Integrator K) (left right : Foot K) : SetupResult K :=
  match configureFoot left (p.nominalWidth / 2) p.leftYaw p.minLength p.minAngle,
        configureFoot right (-p.nominalWidth / 2) p.rightYaw p.minLength p.minAngle with
  | some left, some right =>
    match p.getInitialStateFromFeet left right p.initTime with
    | .failed p left right => .failed p left right
    | .ub w => .ub w
    | .ok p left right u =>
      if p.endTime ≤ p.initTime then .failed p left right
      else
        match integ p u p.initTime p.endTime with
        | (ctrl, none) => .failed { p with ctrl := ctrl } left right
        | (ctrl, some sol) => .ok { p with ctrl := ctrl } left right sol
  | _, _ => .failed p left right

/-- The saturation part of `computeNewSteps`, src/UnicyclePlanner.cpp:776-789.  With a zero minimum
time the code divides by zero (infinite limits); the limits only reach the integrator, about which
nothing is assumed. -/
def setSaturations (p : Planner K) : Bool × Planner K :=
  let v := Trig.sqrt (p.maxLength ^ 2 - p.nominalWidth ^ 2) / p.minTime * p.linFactor
  let w := p.maxAngle / p.minTime * p.angFactor
  match p.ctrl.person.base.setSaturations v w with
  | (false, _) => (false, p)
  | (true, b) =>
    let p := { p with ctrl := { p.ctrl with person := { p.ctrl.person with base := b } } }
    match p.ctrl.directBase.setSaturations v w with
    | (false, _) => (false, p)
    | (true, b) =>
      let p := { p with ctrl := { p.ctrl with directBase := b } }
      if p.controller = .navigation then
        match p.ctrl.nav.setSaturations v w with
        | (ok, nav) => (ok, { p with ctrl := { p.ctrl with nav := nav } })
      else (true, p)

/-- The end of `computeNewSteps` when no step was added, src/UnicyclePlanner.cpp:952-976: the older of
the two last steps gets the impact time of the newer one.  A missing last step leaves a local variable
uninitialised. -/
def alignLastSteps (p : Planner K) (left right : FootPrint K) : PlanResult K :=
  match left.getLastStep, right.getLastStep with
  | some l, some r =>
    if r.impactTime < l.impactTime then
      let right := (right.clearLastStep.addStep { r with impactTime := l.impactTime }).2
      .done true (if p.resetStartingFoot then p else { p with startLeft := false }) left right
    else if l.impactTime < r.impactTime then
      let left := (left.clearLastStep.addStep { l with impactTime := r.impactTime }).2
      .done true (if p.resetStartingFoot then p else { p with startLeft := true }) left right
    else .done true p left right
  | _, _ => .ub .uninitialised

/-- The state of the loop at its first iteration, src/UnicyclePlanner.cpp:796-826. -/
def initialLoop (p : Planner K) (left right : Foot K) (prev : Step K) : Loop K :=
  ⟨p.initTime, -1, 10 ^ 10, p.initTime - prev.impactTime, if p.firstStep then p.nominalTime else 0, prev,
    p.swingLeft, p.firstStep, left, right⟩

/-- The end of `computeNewSteps`, src/UnicyclePlanner.cpp:939-978; `nl`, `nr` are the step counts taken
before the loop. -/
def finish (p : Planner K) (sol : K → UState K) (nl nr : Nat) (s : Loop K) : PlanResult K :=
  let p := { p with swingLeft := s.swingLeft, firstStep := s.firstStep }
  let r := if p.addTerminal then p.addTerminalStep s.swingLeft s.left s.right (sol p.endTime)
    else (true, s.left, s.right)
  match r with
  | (false, left, right) => .done false p left.fp right.fp
  | (true, left, right) =>
    if nl = left.fp.numberOfSteps ∧ nr = right.fp.numberOfSteps then p.alignLastSteps left.fp right.fp
    else .done true p left.fp right.fp

/-- `computeNewSteps` after the initialisation, src/UnicyclePlanner.cpp:796-978. -/
def plan (p : Planner K) (sol : K → UState K) (fuel : Nat) (left right : Foot K) : PlanResult K :=
  match (if p.swingLeft then right else left).getLastStep with
  | none => .done false p left.fp right.fp
  | some prev =>
    match p.loop sol fuel (p.initialLoop left right prev) with
    | .outOfFuel => .outOfFuel
    | .failed s => .done false { p with swingLeft := s.swingLeft, firstStep := s.firstStep } s.left.fp s.right.fp
    | .exit s => p.finish sol left.fp.numberOfSteps right.fp.numberOfSteps s

/-- `computeNewSteps`, src/UnicyclePlanner.cpp:746-979, for non-null footprints. -/
def computeNewSteps (p : Planner K) (integ : Integrator K) (fuel : Nat) (left right : FootPrint K)
    (initTime endTime : K) : PlanResult K :=
  if p.maxLength < p.nominalWidth then .done false p left right
  else if p.maxLengthBackward < p.nominalWidth then .done false p left right
  else if p.maxAngle ≤ p.minAngle then .done false p left right
  else
    match { p with initTime := initTime, endTime := endTime }.setSaturations with
    | (false, p) => .done false p left right
    | (true, p) =>
      match p.initializePlanner integ (Foot.new left) (Foot.new right) with
      | .failed p left right => .done false p left.fp right.fp
      | .ub w => .ub w
      | .ok p left right sol => p.plan sol fuel left right

end Planner
end Uni
