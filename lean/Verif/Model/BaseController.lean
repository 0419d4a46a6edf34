import Verif.Model.Basic

/-! # `UnicycleBaseController`, `UnicycleDirectController`, `ControlledUnicycle` -/

set_option autoImplicit false

namespace Uni
variable {K : Type*}

/-- Controller output `[u; w; v]`: forward speed, angular velocity, lateral speed. -/
@[ext] structure Control (K : Type*) where
  forward : K
  angular : K
  lateral : K
  deriving DecidableEq, Repr

/-- The saturation parameters of `UnicycleBaseController` (include/UnicycleBaseController.h:17-20). -/
@[ext] structure BaseCtrl (K : Type*) where
  maxLinear : K
  maxAngular : K
  turnGain : K
  backFactor : K
  sideFactor : K
  deriving DecidableEq, Repr

namespace BaseCtrl

/-- `UnicycleBaseController::UnicycleBaseController`, src/UnicycleBaseController.cpp:29-36. -/
def new [Field K] : BaseCtrl K := ⟨-1, -1, 0, 1, 1⟩

/-- `saturate(input, positive, negative)`, src/UnicycleBaseController.cpp:17-27. -/
def saturate [Zero K] [LT K] [DecidableLT K] (input positive negative : K) : K :=
  if positive < 0 ∨ positive < negative then input
  else if positive < input then positive
  else if input < negative then negative
  else input

/-- `saturate(input, saturation)`, src/UnicycleBaseController.cpp:12-15. -/
def saturateSym [Zero K] [Neg K] [LT K] [DecidableLT K] (input s : K) : K := saturate input s (-s)

/-- Linear velocity limit for an angular velocity, src/UnicycleBaseController.cpp:50. -/
def velocitySaturation [Field K] [Trig K] (c : BaseCtrl K) (w : K) : K :=
  c.maxLinear / (1 + c.turnGain * Trig.sqrt (w * w))

/-- `UnicycleBaseController::doControl` applied to the output of the derived class
(`raw = none` if `doUnicycleControl` failed), src/UnicycleBaseController.cpp:38-55. -/
def doControl [Field K] [LinearOrder K] [Trig K] (c : BaseCtrl K) (raw : Option (Control K)) :
    Option (Control K) :=
  raw.map fun r =>
    let w := saturateSym r.angular c.maxAngular
    let vs := c.velocitySaturation w
    ⟨saturate r.forward vs (-c.backFactor * vs), w,
     saturateSym r.lateral (c.sideFactor * c.maxLinear)⟩

/-- `setSaturations`, src/UnicycleBaseController.cpp:74-85. -/
def setSaturations [Zero K] [LT K] [DecidableLT K] (c : BaseCtrl K) (l a : K) : Bool × BaseCtrl K :=
  if l < 0 ∨ a < 0 then (false, c) else (true, { c with maxLinear := l, maxAngular := a })

/-- `setSlowWhenTurnGain`, src/UnicycleBaseController.cpp:87-96. -/
def setSlowWhenTurnGain [Zero K] [LT K] [DecidableLT K] (c : BaseCtrl K) (g : K) : Bool × BaseCtrl K :=
  if g < 0 then (false, c) else (true, { c with turnGain := g })

/-- `setSlowWhenBackwardFactor`, src/UnicycleBaseController.cpp:98-107. -/
def setSlowWhenBackwardFactor [Zero K] [LT K] [DecidableLT K] (c : BaseCtrl K) (g : K) :
    Bool × BaseCtrl K :=
  if g < 0 then (false, c) else (true, { c with backFactor := g })

/-- `setSlowWhenSidewaysFactor`, src/UnicycleBaseController.cpp:109-118. -/
def setSlowWhenSidewaysFactor [Zero K] [LT K] [DecidableLT K] (c : BaseCtrl K) (g : K) :
    Bool × BaseCtrl K :=
  if g < 0 then (false, c) else (true, { c with sideFactor := g })

/-- `getSaturationLimits` (forward, lateral, angular), src/UnicycleBaseController.cpp:120-126. -/
def getSaturationLimits [Field K] (c : BaseCtrl K) : K × K × K :=
  (c.maxLinear, c.maxLinear * c.sideFactor, c.maxAngular / (1 + c.turnGain))

/-- The public setters. -/
inductive Op (K : Type*)
  | setSaturations (l a : K)
  | setSlowWhenTurnGain (g : K)
  | setSlowWhenBackwardFactor (g : K)
  | setSlowWhenSidewaysFactor (g : K)

/-- Dispatch of one setter call. -/
def run [Zero K] [LT K] [DecidableLT K] (c : BaseCtrl K) : Op K → Bool × BaseCtrl K
  | .setSaturations l a => c.setSaturations l a
  | .setSlowWhenTurnGain g => c.setSlowWhenTurnGain g
  | .setSlowWhenBackwardFactor g => c.setSlowWhenBackwardFactor g
  | .setSlowWhenSidewaysFactor g => c.setSlowWhenSidewaysFactor g

/-- State after a sequence of setter calls. -/
def runAll [Zero K] [LT K] [DecidableLT K] (c : BaseCtrl K) (ops : List (Op K)) : BaseCtrl K :=
  ops.foldl (fun s o => (s.run o).2) c

end BaseCtrl

/-- `ControlledUnicycle::dynamics` for a given controller output,
src/ControlledUnicycle.cpp:51-57; the result is (ẋ, ẏ, θ̇) as a `UState`. -/
def dynamics [Ring K] [Trig K] (state : UState K) (c : Control K) : UState K :=
  ⟨⟨Trig.cos state.angle * c.forward - Trig.sin state.angle * c.lateral,
    Trig.sin state.angle * c.forward + Trig.cos state.angle * c.lateral⟩, c.angular⟩

/-- One forward-Euler step of iDynTree's integrator (external contract): `x + h f(x, t)`. -/
def eulerStep [Ring K] [Trig K] (h : K) (state : UState K) (c : Control K) : UState K :=
  let d := dynamics state c
  ⟨state.position + h * d.position, state.angle + h * d.angle⟩

/-- `n` forward-Euler steps from time `t` with a controller given as a function of time and state
(external contract of the integrator). -/
def euler [Ring K] [Trig K] (h : K) (ctrl : K → UState K → Option (Control K)) :
    Nat → K → UState K → Option (UState K)
  | 0, _, s => some s
  | n + 1, t, s => (ctrl t s).bind fun c => euler h ctrl n (t + h) (eulerStep h s c)

/-- `UnicycleDirectController` (include/UnicycleDirectController.h). -/
@[ext] structure DirectCtrl (K : Type*) where
  desired : Control K
  time : K
  deactivationEnd : K
  deriving DecidableEq, Repr

namespace DirectCtrl

/-- `UnicycleDirectController::UnicycleDirectController`, src/UnicycleDirectController.cpp:11-19. -/
def new [Zero K] : DirectCtrl K := ⟨⟨0, 0, 0⟩, 0, 0⟩

/-- `UnicycleDirectController::doUnicycleControl`, src/UnicycleDirectController.cpp:21-38. -/
def doUnicycleControl [Zero K] [LT K] [DecidableLT K] (c : DirectCtrl K) : Option (Control K) :=
  if c.time < c.deactivationEnd then some ⟨0, 0, 0⟩ else some c.desired

/-- `setUnicycleStateFeedback`, src/UnicycleDirectController.cpp:40-44. -/
def setFeedback (c : DirectCtrl K) (t : K) : DirectCtrl K := { c with time := t }

/-- `setConstantControl`, src/UnicycleDirectController.cpp:46-51. -/
def setConstantControl (c : DirectCtrl K) (v : Control K) : DirectCtrl K := { c with desired := v }

/-- `setInactiveUntil`, src/UnicycleDirectController.cpp:53-56. -/
def setInactiveUntil (c : DirectCtrl K) (t : K) : DirectCtrl K := { c with deactivationEnd := t }

/-- Public mutators of the direct controller. -/
inductive Op (K : Type*)
  | setConstantControl (v : Control K)
  | setInactiveUntil (t : K)
  | setFeedback (t : K)

/-- Dispatch. -/
def run (c : DirectCtrl K) : Op K → DirectCtrl K
  | .setConstantControl v => c.setConstantControl v
  | .setInactiveUntil t => c.setInactiveUntil t
  | .setFeedback t => c.setFeedback t

/-- Feedback, control law and saturation as performed by `ControlledUnicycle::dynamics`
(src/ControlledUnicycle.cpp:41-49) with a direct controller. -/
def control [Field K] [LinearOrder K] [Trig K] (b : BaseCtrl K) (c : DirectCtrl K) (t : K) :
    Option (Control K) :=
  b.doControl (c.setFeedback t).doUnicycleControl

end DirectCtrl
end Uni
