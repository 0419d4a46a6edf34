import Verif.Model.FootPrint

/-! # `UnicycleFoot` (src/UnicycleFoot.cpp) -/

set_option autoImplicit false

namespace Uni
variable {K : Type*}

/-- `class UnicycleFoot` (include/UnicycleFoot.h).  `m_steps_ptr` is represented by the footprint
it points to; `m_bufferR` is a scratch buffer and is not modelled. -/
@[ext] structure Foot (K : Type*) where
  fp : FootPrint K
  distance : Vec2 K
  distanceSet : Bool
  yawOffset : K
  minimumStep : K
  minimumAngle : K
  deriving DecidableEq, Repr

namespace Foot

/-- `UnicycleFoot::UnicycleFoot`, src/UnicycleFoot.cpp:30-40. -/
def new [Zero K] (fp : FootPrint K) : Foot K := ⟨fp, 0, false, 0, 0, 0⟩

/-- `UnicycleFoot::setDistanceFromUnicycle`, src/UnicycleFoot.cpp:42-47 (always true). -/
def setDistanceFromUnicycle (f : Foot K) (d : Vec2 K) : Foot K :=
  { f with distance := d, distanceSet := true }

/-- `UnicycleFoot::setYawOffsetInRadians`, src/UnicycleFoot.cpp:54-58 (always true). -/
def setYawOffset (f : Foot K) (yaw : K) : Foot K := { f with yawOffset := yaw }

/-- `UnicycleFoot::setTinyStepLength`, src/UnicycleFoot.cpp:116-124. -/
def setTinyStepLength [Zero K] [LT K] [DecidableLT K] (f : Foot K) (length : K) : Bool × Foot K :=
  if length < 0 then (false, f) else (true, { f with minimumStep := length })

/-- `UnicycleFoot::setTinyStepAngle`, src/UnicycleFoot.cpp:126-134. -/
def setTinyStepAngle [Zero K] [LT K] [DecidableLT K] (f : Foot K) (angle : K) : Bool × Foot K :=
  if angle < 0 then (false, f) else (true, { f with minimumAngle := angle })

/-- `UnicycleFoot::getLastStep`, src/UnicycleFoot.cpp:111-114. -/
def getLastStep (f : Foot K) : Option (Step K) := f.fp.getLastStep

/-- `UnicycleFoot::numberOfSteps`, src/UnicycleFoot.cpp:154-157. -/
def numberOfSteps (f : Foot K) : Nat := f.fp.numberOfSteps

/-- `UnicycleFoot::getUnicycleAngleFromStep`, src/UnicycleFoot.cpp:175-178. -/
def unicycleAngle [Sub K] (f : Foot K) (s : Step K) : K := s.angle - f.yawOffset

/-- The foot position expression shared by `addStepFromUnicycle`, `isTinyStep` and
`getFootPositionFromUnicycle` (src/UnicycleFoot.cpp:78, 146, 189). -/
def footPosition [Ring K] [Trig K] (f : Foot K) (u : UState K) : Vec2 K :=
  u.position + rot u.angle f.distance

/-- `UnicycleFoot::getFootPositionFromUnicycle`, src/UnicycleFoot.cpp:180-193. -/
def getFootPositionFromUnicycle [Ring K] [Trig K] (f : Foot K) (u : UState K) : Option (Vec2 K) :=
  if f.distanceSet then some (f.footPosition u) else none

/-- `UnicycleFoot::getUnicycleStateFromStep`, src/UnicycleFoot.cpp:159-173. -/
def getUnicycleStateFromStep [Ring K] [Trig K] (f : Foot K) (s : Step K) : Option (UState K) :=
  if f.distanceSet then
    some ⟨s.position - rot (f.unicycleAngle s) f.distance, f.unicycleAngle s⟩
  else none

/-- `UnicycleFoot::addStepFromUnicycle`, src/UnicycleFoot.cpp:65-81. -/
def addStepFromUnicycle [Ring K] [LinearOrder K] [Trig K] (f : Foot K) (u : UState K)
    (impactTime : K) : Bool × Foot K :=
  if !f.distanceSet then (false, f)
  else
    let r := f.fp.addStep ⟨f.footPosition u, u.angle + f.yawOffset, impactTime, ""⟩
    (r.1, { f with fp := r.2 })

/-- `UnicycleFoot::addParallelStep`, src/UnicycleFoot.cpp:83-109. -/
def addParallelStep [Ring K] [LinearOrder K] [Trig K] (f other : Foot K) (impactTime : K) :
    Bool × Foot K :=
  if impactTime < 0 then (false, f)
  else
    match other.getLastStep with
    | none => (false, f)
    | some otherStep =>
      let θ := other.unicycleAngle otherStep
      let r := f.fp.addStep
        ⟨otherStep.position + rot θ (f.distance - other.distance), θ + f.yawOffset, impactTime, ""⟩
      (r.1, { f with fp := r.2 })

/-- `UnicycleFoot::isTinyStep`, src/UnicycleFoot.cpp:136-152. -/
def isTinyStep [Ring K] [LinearOrder K] [Trig K] (f : Foot K) (u : UState K) : Bool :=
  match f.getLastStep with
  | none => false
  | some previousStep =>
    let stepLength := (f.footPosition u - previousStep.position).norm
    let deltaAngle := |f.unicycleAngle previousStep - u.angle|
    decide (stepLength < f.minimumStep) && decide (deltaAngle < f.minimumAngle)

end Foot
end Uni
