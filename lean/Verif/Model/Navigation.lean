import Verif.Model.BaseController

/-! # `UnicycleNavigationController` (src/UnicycleNavigationController.cpp) -/

set_option autoImplicit false

namespace Uni
variable {K : Type*}

/-- `class UnicycleNavigationController` (include/UnicycleNavigationController.h:15-34).  The members
without initialiser (`m_state`, `m_ETA`, `m_newPathReceived`, the three maximum velocities) are `none`
until they are first assigned. -/
structure NavCtrl (K : Type*) where
  base : BaseCtrl K
  /-- forward, lateral, angular -/
  maxVel : Option (K × K × K)
  desired : Control K
  time : K
  dt : K
  deactivationEnd : K
  path : List (UState K)
  state : Option (UState K)
  poseIndex : Nat
  eta : Option K
  newPath : Option Bool

namespace NavCtrl
variable [Field K] [LinearOrder K] [Trig K]

/-- `m_zeroTolerance`, include/UnicycleNavigationController.h:18. -/
def zeroTolerance : K := 1 / 10 ^ 6

/-- Constructor, src/UnicycleNavigationController.cpp:12-21. -/
def new : NavCtrl K where
  base := BaseCtrl.new
  maxVel := none
  desired := ⟨0, 0, 0⟩
  time := 0
  dt := 1 / 100
  deactivationEnd := 0
  path := []
  state := none
  poseIndex := 1
  eta := none
  newPath := none

/-- The `±2π` correction, applied once, src/UnicycleNavigationController.cpp:49-60, 125-132. -/
def wrapOnce (a : K) : K :=
  if Trig.pi < a then a - 2 * Trig.pi else if a < -Trig.pi then a + 2 * Trig.pi else a

/-- `setUnicycleStateFeedback`, src/UnicycleNavigationController.cpp:43-62. -/
def setFeedback (c : NavCtrl K) (t : K) (u : UState K) : NavCtrl K :=
  { c with time := t, state := some ⟨u.position, wrapOnce u.angle⟩ }

/-- `setConstantControl`, src/UnicycleNavigationController.cpp:190-195. -/
def setConstantControl (c : NavCtrl K) (v : Control K) : NavCtrl K := { c with desired := v }

/-- `setInactiveUntil`, src/UnicycleNavigationController.cpp:197-200. -/
def setInactiveUntil (c : NavCtrl K) (t : K) : NavCtrl K := { c with deactivationEnd := |t| }

/-- `setNavigationPath`, src/UnicycleNavigationController.cpp:207-219. -/
def setNavigationPath (c : NavCtrl K) (path : List (UState K)) : Bool × NavCtrl K :=
  if path.length < 2 then (false, c)
  else (true, { c with path := path, poseIndex := 1, newPath := some true })

/-- `setMaxVelocities`, src/UnicycleNavigationController.cpp:221-237. -/
def setMaxVelocities (c : NavCtrl K) (v lat ang : K) : Bool × NavCtrl K :=
  if |v| < zeroTolerance ∨ |lat| < zeroTolerance ∨ |ang| < zeroTolerance then (false, c)
  else (true, { c with maxVel := some (|v|, |lat|, |ang|) })

/-- `setTimeStep`, src/UnicycleNavigationController.cpp:239-253. -/
def setTimeStep (c : NavCtrl K) (dT : K) : Bool × NavCtrl K :=
  if dT = 0 then (false, c) else (true, { c with dt := |dT| })

/-- `setSaturations`, src/UnicycleNavigationController.cpp:255-268: the base class is updated before
`setMaxVelocities` may refuse. -/
def setSaturations (c : NavCtrl K) (l a : K) : Bool × NavCtrl K :=
  match c.base.setSaturations l a with
  | (false, b) => (false, { c with base := b })
  | (true, b) =>
    let lim := b.getSaturationLimits
    { c with base := b }.setMaxVelocities lim.1 lim.2.1 lim.2.2

/-- The speed along the segment to the next pose, src/UnicycleNavigationController.cpp:98-121. -/
def linearSpeed (maxV maxLat cosS sinS : K) : K :=
  if |cosS| < zeroTolerance then maxLat
  else if |sinS| < zeroTolerance then maxV
  else
    let x := maxV / |cosS|
    let y := maxLat / |sinS|
    if x < y then x else y

/-- Set `|v| < tolerance` to zero, src/UnicycleNavigationController.cpp:179-186. -/
def clip (v : K) : K := if |v| < zeroTolerance then 0 else v

/-- The new ETA and velocities towards `goal`, src/UnicycleNavigationController.cpp:87-186.  A zero
denominator is a distinct outcome. -/
def velocitiesTo (state goal : UState K) (maxVel : K × K × K) : Out (K × Control K) :=
  let dx := goal.position.x - state.position.x
  let dy := goal.position.y - state.position.y
  let distance := Trig.sqrt (dx ^ 2 + dy ^ 2)
  let slope := Trig.atan2 dy dx
  let c := Trig.cos slope
  let s := Trig.sin slope
  let speed := linearSpeed maxVel.1 maxVel.2.1 c s
  let diff := wrapOnce (goal.angle - state.angle)
  if speed = 0 ∨ maxVel.2.2 = 0 then .ub .divByZero
  else
    let linearETA := distance / speed
    let angularETA := |diff| / maxVel.2.2
    let dir : K := if 0 ≤ diff then 1 else -1
    if linearETA < angularETA then .ok (angularETA, ⟨0, dir * maxVel.2.2, 0⟩)
    else
      let vx := speed * c
      let vy := speed * s
      .ok (linearETA,
        ⟨clip (vx * Trig.cos state.angle + vy * Trig.sin state.angle), dir * maxVel.2.2,
         clip (-vx * Trig.sin state.angle + vy * Trig.cos state.angle)⟩)

/-- The pose-selection part of `computeDesiredVelocities`, src/UnicycleNavigationController.cpp:66-85:
`none` means that the last pose was reached (velocities zeroed and return).  `m_navigationPath.size()-1`
wraps for an empty path, so that the comparison is false. -/
def nextPose (c : NavCtrl K) : Out (Option (NavCtrl K)) :=
  match c.newPath with
  | none => .ub .uninitialised
  | some true => .ok (some { c with newPath := some false })
  | some false =>
    match c.eta with
    | none => .ub .uninitialised
    | some eta =>
      if eta < c.dt then
        if c.path.length ≠ 0 ∧ c.poseIndex = c.path.length - 1 then .ok none
        else .ok (some { c with poseIndex := c.poseIndex + 1 })
      else .ok (some c)

/-- `computeDesiredVelocities`, src/UnicycleNavigationController.cpp:64-188. -/
def computeDesiredVelocities (c : NavCtrl K) : Out (NavCtrl K) := do
  match ← c.nextPose with
  | none => .ok { c with desired := ⟨0, 0, 0⟩ }
  | some c =>
    match c.path[c.poseIndex]? with
    | none => .ub .outOfRange
    | some goal =>
      match c.state, c.maxVel with
      | some state, some mv =>
        let r ← velocitiesTo state goal mv
        .ok { c with eta := some r.1, desired := r.2 }
      | _, _ => .ub .uninitialised

/-- `doUnicycleControl`, src/UnicycleNavigationController.cpp:23-41. -/
def doUnicycleControl (c : NavCtrl K) : Out (Control K × NavCtrl K) :=
  if c.time < c.deactivationEnd then .ok (⟨0, 0, 0⟩, c)
  else do
    let c ← c.computeDesiredVelocities
    .ok (c.desired, c)

/-- Public methods that change the controller. -/
inductive Op (K : Type*)
  | setConstantControl (v : Control K)
  | setInactiveUntil (t : K)
  | setNavigationPath (path : List (UState K))
  | setTimeStep (dT : K)
  | setSaturations (l a : K)
  | setSlowWhenSidewaysFactor (g : K)
  | setSlowWhenTurnGain (g : K)
  | setSlowWhenBackwardFactor (g : K)
  | setFeedback (t : K) (u : UState K)
  | control

/-- Dispatch; undefined behaviour is kept. -/
def run (c : NavCtrl K) : Op K → Out (NavCtrl K)
  | .setConstantControl v => .ok (c.setConstantControl v)
  | .setInactiveUntil t => .ok (c.setInactiveUntil t)
  | .setNavigationPath p => .ok (c.setNavigationPath p).2
  | .setTimeStep dT => .ok (c.setTimeStep dT).2
  | .setSaturations l a => .ok (c.setSaturations l a).2
  | .setSlowWhenSidewaysFactor g => .ok { c with base := (c.base.setSlowWhenSidewaysFactor g).2 }
  | .setSlowWhenTurnGain g => .ok { c with base := (c.base.setSlowWhenTurnGain g).2 }
  | .setSlowWhenBackwardFactor g => .ok { c with base := (c.base.setSlowWhenBackwardFactor g).2 }
  | .setFeedback t u => .ok (c.setFeedback t u)
  | .control => do
    let r ← c.doUnicycleControl
    .ok r.2

/-- A sequence of calls. -/
def runAll (c : NavCtrl K) : List (Op K) → Out (NavCtrl K)
  | [] => .ok c
  | o :: os => do
    let c ← c.run o
    c.runAll os

/-- One step of length `h` of the unicycle driven by this controller: feedback, control law and saturation
(`ControlledUnicycle::dynamics`, src/ControlledUnicycle.cpp:26-60), then forward Euler (iDynTree's integrator, external
contract, which evaluates the dynamics once per step). -/
def unicycleStep (h t : K) (s : UState K) (c : NavCtrl K) : Out (UState K × NavCtrl K) := do
  let r ← (c.setFeedback t s).doUnicycleControl
  match r.2.base.doControl (some r.1) with
  | some u => .ok (eulerStep h s u, r.2)
  | none => .fail

/-- `n` steps from time `t`. -/
def navigate (h : K) : Nat → K → UState K → NavCtrl K → Out (UState K × NavCtrl K)
  | 0, _, s, c => .ok (s, c)
  | n + 1, t, s, c => do
    let r ← c.unicycleStep h t s
    navigate h n (t + h) r.1 r.2

end NavCtrl
end Uni
