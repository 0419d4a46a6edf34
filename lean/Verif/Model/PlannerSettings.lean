import Verif.Model.Planner

/-! # Constructor and configuration methods of `UnicyclePlanner` (src/UnicyclePlanner.cpp)

The lock taken by the methods is the subject of `Verif.Model.Locks`; here each method is one transition. -/

set_option autoImplicit false

namespace Uni
variable {K : Type*}

namespace Planner
variable [Field K] [LinearOrder K] [Trig K]

/-- `iDynTree::deg2rad` (external). -/
def deg2rad (x : K) : K := x * Trig.pi / 180

/-- Constructor, src/UnicyclePlanner.cpp:378-416; the four setters of the optimisation problem called in its
body cannot fail on these constants. -/
def new : Planner K where
  ctrl := ⟨PersonCtrl.new, DirectCtrl.new, BaseCtrl.new, NavCtrl.new⟩
  controller := .personFollowing
  problem := { Problem.new with
    maxLength := some (1 / 5), minWidth := some (2 / 25), maxAngle := some (deg2rad 45),
    positionWeight := 1, timeWeight := 5 / 2 }
  integratorStep := 1 / 100
  initTime := 0
  endTime := 1 / 100
  minTime := 3
  maxTime := 10
  nominalTime := 4
  dT := 1 / 100
  minAngle := deg2rad 5
  nominalWidth := 7 / 50
  maxLength := 1 / 5
  maxLengthBackward := 1 / 5
  minLength := 1 / 20
  maxAngle := deg2rad 45
  addTerminal := true
  startLeft := true
  resetStartingFoot := false
  firstStep := false
  method := .referenceOnly
  leftYaw := 0
  rightYaw := 0
  swingLeft := true
  linFactor := 9 / 10
  angFactor := 7 / 10

/-- Replace the person-following controller. -/
def setPerson (p : Planner K) (r : Bool × PersonCtrl K) : Bool × Planner K :=
  (r.1, { p with ctrl := { p.ctrl with person := r.2 } })

/-- A setter of `UnicycleBaseController` called on the three controllers in turn, stopping at the first
failure (`&&`), as in src/UnicyclePlanner.cpp:437-462. -/
def onAllControllers (p : Planner K) (f : BaseCtrl K → Bool × BaseCtrl K) : Bool × Planner K :=
  let r := f p.ctrl.person.base
  let p := { p with ctrl := { p.ctrl with person := { p.ctrl.person with base := r.2 } } }
  if r.1 then
    let r := f p.ctrl.directBase
    let p := { p with ctrl := { p.ctrl with directBase := r.2 } }
    if r.1 then
      let r := f p.ctrl.nav.base
      (r.1, { p with ctrl := { p.ctrl with nav := { p.ctrl.nav with base := r.2 } } })
    else (false, p)
  else (false, p)

/-- `setSaturationsConservativeFactors`, src/UnicyclePlanner.cpp:527-546. -/
def setSaturationsConservativeFactors (p : Planner K) (l a : K) : Bool × Planner K :=
  if l < 0 ∨ 1 < l then (false, p)
  else if a < 0 ∨ 1 < a then (false, p)
  else (true, { p with linFactor := l, angFactor := a })

/-- `setMaximumIntegratorStepSize`, src/UnicyclePlanner.cpp:548-558.  The integrator (iDynTree, external)
refuses a step size that is not positive. -/
def setMaximumIntegratorStepSize (p : Planner K) (dT : K) : Bool × Planner K :=
  match p.ctrl.nav.setTimeStep dT with
  | (false, nav) => (false, { p with ctrl := { p.ctrl with nav := nav } })
  | (true, nav) =>
    let p := { p with ctrl := { p.ctrl with nav := nav } }
    if dT ≤ 0 then (false, p) else (true, { p with integratorStep := dT })

/-- `setMaxStepLength(maxLength)`, src/UnicyclePlanner.cpp:561-578. -/
def setMaxStepLength (p : Planner K) (x : K) : Bool × Planner K :=
  match p.problem.setMaxLength x with
  | (false, pr) => (false, { p with problem := pr })
  | (true, pr) =>
    match pr.setMaxLengthBackward x with
    | (false, pr) => (false, { p with problem := pr, maxLength := x })
    | (true, pr) => (true, { p with problem := pr, maxLength := x, maxLengthBackward := x })

/-- `setMaxStepLength(maxLength, backwardMultiplier)`, src/UnicyclePlanner.cpp:580-602. -/
def setMaxStepLengthBackward (p : Planner K) (x m : K) : Bool × Planner K :=
  if m < 0 then (false, p)
  else
    match p.problem.setMaxLength x with
    | (false, pr) => (false, { p with problem := pr })
    | (true, pr) =>
      match pr.setMaxLengthBackward (x * m) with
      | (false, pr) => (false, { p with problem := pr, maxLength := x })
      | (true, pr) => (true, { p with problem := pr, maxLength := x, maxLengthBackward := x * m })

/-- `setMaxAngleVariation`, src/UnicyclePlanner.cpp:605-614. -/
def setMaxAngleVariation (p : Planner K) (x : K) : Bool × Planner K :=
  match p.problem.setMaxAngleVariation x with
  | (false, pr) => (false, { p with problem := pr })
  | (true, pr) => (true, { p with problem := pr, maxAngle := x })

/-- `setCostWeights`, src/UnicyclePlanner.cpp:616-621. -/
def setCostWeights (p : Planner K) (a b : K) : Bool × Planner K :=
  match p.problem.setCostWeights a b with
  | (ok, pr) => (ok, { p with problem := pr })

/-- `setStepTimings`, src/UnicyclePlanner.cpp:623-647. -/
def setStepTimings (p : Planner K) (tmin tmax tnom : K) : Bool × Planner K :=
  if tmin < 0 ∨ tmax < 0 ∨ tnom < 0 then (false, p)
  else if tmax < tmin then (false, p)
  else if tnom < tmin ∨ tmax < tnom then (false, p)
  else (true, { p with minTime := tmin, maxTime := tmax, nominalTime := tnom })

/-- `setPlannerPeriod`, src/UnicyclePlanner.cpp:649-661. -/
def setPlannerPeriod (p : Planner K) (x : K) : Bool × Planner K :=
  if x < 0 then (false, p) else (true, { p with dT := x })

/-- `setMinimumAngleForNewSteps`, src/UnicyclePlanner.cpp:663-675. -/
def setMinimumAngleForNewSteps (p : Planner K) (x : K) : Bool × Planner K :=
  if x < 0 then (false, p) else (true, { p with minAngle := x })

/-- `setMinimumStepLength`, src/UnicyclePlanner.cpp:677-687. -/
def setMinimumStepLength (p : Planner K) (x : K) : Bool × Planner K :=
  if x < 0 then (false, p) else (true, { p with minLength := x })

/-- `setWidthSetting`, src/UnicyclePlanner.cpp:689-709. -/
def setWidthSetting (p : Planner K) (minWidth nominalWidth : K) : Bool × Planner K :=
  if nominalWidth < 0 then (false, p)
  else if nominalWidth < minWidth then (false, p)
  else
    match p.problem.setMinWidth minWidth with
    | (false, pr) => (false, { p with problem := pr })
    | (true, pr) => (true, { p with problem := pr, nominalWidth := nominalWidth })

/-- `setFreeSpaceEllipseMethod`, src/UnicyclePlanner.cpp:1000-1007; the two results are ignored. -/
def setFreeSpaceEllipseMethod (p : Planner K) (m : EllipseMethod) : Planner K :=
  { p with
    method := m
    ctrl := { p.ctrl with person := (p.ctrl.person.setFreeSpaceEllipse Ellipse.clear).2 }
    problem := (p.problem.setFreeSpaceEllipse Ellipse.clear).2 }

/-- `setFreeSpaceEllipse`, src/UnicyclePlanner.cpp:1009-1032. -/
def setFreeSpaceEllipse (p : Planner K) (e : Ellipse K) : Bool × Planner K :=
  let r := if p.method = .referenceOnly ∨ p.method = .referenceAndFootsteps then
      p.setPerson (p.ctrl.person.setFreeSpaceEllipse e) else (true, p)
  if r.1 then
    let p := r.2
    if p.method = .footstepsOnly ∨ p.method = .referenceAndFootsteps then
      match p.problem.setFreeSpaceEllipse e with
      | (ok, pr) => (ok, { p with problem := pr })
    else (true, p)
  else (false, r.2)

/-- The public configuration methods (with the aliases, deprecated, forwarding to them) whose footprint is only the
planner.  `clearUpTo` is a separate function because it may have undefined behaviour. -/
inductive Op (K : Type*)
  | setDesiredPersonDistance (x y : K)
  | setPersonFollowingControllerGain (g : K)
  | setSlowWhenTurnGain (g : K)
  | setSlowWhenBackwardFactor (g : K)
  | setSlowWhenSidewaysFactor (g : K)
  | addPoint (t : K) (y yDot : Vec2 K)
  | clearDesiredTrajectory
  | setDesiredDirectControl (v : Control K)
  | setSaturationsConservativeFactors (l a : K)
  | setMaximumIntegratorStepSize (dT : K)
  | setMaxStepLength (x : K)
  | setMaxStepLengthBackward (x m : K)
  | setMaxAngleVariation (x : K)
  | setCostWeights (a b : K)
  | setStepTimings (tmin tmax tnom : K)
  | setPlannerPeriod (x : K)
  | setMinimumAngleForNewSteps (x : K)
  | setMinimumStepLength (x : K)
  | setWidthSetting (minWidth nominalWidth : K)
  | addTerminalStep (b : Bool)
  | startWithLeft (b : Bool)
  | resetStartingFootIfStill (b : Bool)
  | setLeftFootYawOffset (x : K)
  | setRightFootYawOffset (x : K)
  | setFreeSpaceEllipseMethod (m : EllipseMethod)
  | setFreeSpaceEllipse (e : Ellipse K)
  | setFreeSpaceEllipseConservativeFactor (f : K)
  | setInnerFreeSpaceEllipseOffset (o : K)
  | setInnerFreeSpaceEllipseOffsets (a b : K)
  | setUnicycleController (c : ControllerKind)
  | setNavigationPath (path : List (UState K))

/-- Dispatch.  The methods not defined above are one-liners: src/UnicyclePlanner.cpp:418-525
(`setDesiredPersonDistance`, gains, desired trajectory, direct control), 711-744 (flags and yaw offsets),
1034-1053 (ellipse parameters), 1055-1076 (`setUnicycleController`), 1078-1086 (`setNavigationPath`). -/
def run (p : Planner K) : Op K → Bool × Planner K
  | .setDesiredPersonDistance x y => p.setPerson (p.ctrl.person.setPersonDistance x y)
  | .setPersonFollowingControllerGain g => p.setPerson (p.ctrl.person.setGain g)
  | .setSlowWhenTurnGain g => p.onAllControllers (·.setSlowWhenTurnGain g)
  | .setSlowWhenBackwardFactor g => p.onAllControllers (·.setSlowWhenBackwardFactor g)
  | .setSlowWhenSidewaysFactor g => p.onAllControllers (·.setSlowWhenSidewaysFactor g)
  | .addPoint t y yDot => p.setPerson (p.ctrl.person.setDesiredPoint ⟨t, y, yDot⟩)
  | .clearDesiredTrajectory => p.setPerson (true, p.ctrl.person.clearDesiredTrajectory)
  | .setDesiredDirectControl v =>
    (true, { p with ctrl := { p.ctrl with direct := p.ctrl.direct.setConstantControl v } })
  | .setSaturationsConservativeFactors l a => p.setSaturationsConservativeFactors l a
  | .setMaximumIntegratorStepSize dT => p.setMaximumIntegratorStepSize dT
  | .setMaxStepLength x => p.setMaxStepLength x
  | .setMaxStepLengthBackward x m => p.setMaxStepLengthBackward x m
  | .setMaxAngleVariation x => p.setMaxAngleVariation x
  | .setCostWeights a b => p.setCostWeights a b
  | .setStepTimings a b c => p.setStepTimings a b c
  | .setPlannerPeriod x => p.setPlannerPeriod x
  | .setMinimumAngleForNewSteps x => p.setMinimumAngleForNewSteps x
  | .setMinimumStepLength x => p.setMinimumStepLength x
  | .setWidthSetting a b => p.setWidthSetting a b
  | .addTerminalStep b => (true, { p with addTerminal := b })
  | .startWithLeft b => (true, { p with startLeft := b })
  | .resetStartingFootIfStill b => (true, { p with resetStartingFoot := b })
  | .setLeftFootYawOffset x => (true, { p with leftYaw := x })
  | .setRightFootYawOffset x => (true, { p with rightYaw := x })
  | .setFreeSpaceEllipseMethod m => (true, p.setFreeSpaceEllipseMethod m)
  | .setFreeSpaceEllipse e => p.setFreeSpaceEllipse e
  | .setFreeSpaceEllipseConservativeFactor f => p.setPerson (p.ctrl.person.setConservativeFactor f)
  | .setInnerFreeSpaceEllipseOffset o => p.setPerson (p.ctrl.person.setInnerOffsets o o)
  | .setInnerFreeSpaceEllipseOffsets a b => p.setPerson (p.ctrl.person.setInnerOffsets a b)
  | .setUnicycleController c => (true, { p with controller := c })
  | .setNavigationPath path =>
    match p.ctrl.nav.setNavigationPath path with
    | (ok, nav) => (ok, { p with ctrl := { p.ctrl with nav := nav } })

/-- A sequence of configuration calls. -/
def runAll (p : Planner K) (ops : List (Op K)) : Planner K := ops.foldl (fun q o => (q.run o).2) p

/-- `clearPersonFollowingDesiredTrajectoryUpTo`, src/UnicyclePlanner.cpp:507-517. -/
def clearDesiredTrajectoryUpTo (p : Planner K) (t : K) : Out (Bool × Planner K) :=
  match PersonCtrl.clearUpTo p.ctrl.person.traj t with
  | .ok r => .ok (r.1, { p with ctrl := { p.ctrl with person := { p.ctrl.person with traj := r.2 } } })
  | .fail => .fail
  | .ub w => .ub w

end Planner
end Uni
