import Verif.Model.Ellipse

/-! # `UnicycleOptimization` (src/UnicycleOptimization.cpp) -/

set_option autoImplicit false

namespace Uni
variable {K : Type*}

/-- The state buffer of the optimisation, src/UnicycleOptimization.cpp:11-21: relative position `rPl`
of the left foot in the frame of the right one, rotation, duration, new foot position, new foot position in the frame of the stance foot. -/
@[ext] structure StepData (K : Type*) where
  rPl : Vec2 K
  deltaAngle : K
  deltaTime : K
  newPosition : Vec2 K
  newRelative : Vec2 K
  deriving DecidableEq, Repr

/-- `class UnicycleOptimization`: bounds of the five constraints (`none`: never set,
`m_isUpperBounded`/`m_isLowerBounded` false) and cost weights, include/UnicycleOptimization.h. -/
@[ext] structure Problem (K : Type*) where
  maxLength : Option K
  minWidth : Option K
  maxAngle : Option K
  freeSpace : Ellipse K
  maxLengthBackward : Option K
  positionWeight : K
  timeWeight : K
  deriving DecidableEq, Repr

namespace Problem
variable [Field K] [LinearOrder K] [Trig K]

/-- Constructor, src/UnicycleOptimization.cpp:23-42, 286-291. -/
def new : Problem K := ⟨none, none, none, Ellipse.clear, none, 0, 0⟩

/-- `setMaxLength`, src/UnicycleOptimization.cpp:44-56. -/
def setMaxLength (p : Problem K) (x : K) : Bool × Problem K :=
  if x < 0 then (false, p) else (true, { p with maxLength := some x })

/-- `setMaxLengthBackward`, src/UnicycleOptimization.cpp:58-70. -/
def setMaxLengthBackward (p : Problem K) (x : K) : Bool × Problem K :=
  if x < 0 then (false, p) else (true, { p with maxLengthBackward := some x })

/-- `setMinWidth`, src/UnicycleOptimization.cpp:72-84. -/
def setMinWidth (p : Problem K) (x : K) : Bool × Problem K :=
  if x < 0 then (false, p) else (true, { p with minWidth := some x })

/-- `setMaxAngleVariation`, src/UnicycleOptimization.cpp:86-98. -/
def setMaxAngleVariation (p : Problem K) (x : K) : Bool × Problem K :=
  if x < 0 then (false, p) else (true, { p with maxAngle := some x })

/-- `setFreeSpaceEllipse`, src/UnicycleOptimization.cpp:100-103, 237-241. -/
def setFreeSpaceEllipse (p : Problem K) (e : Ellipse K) : Bool × Problem K :=
  (true, { p with freeSpace := e })

/-- `setCostWeights`, src/UnicycleOptimization.cpp:105-108, 301-317: the position weight is stored
before the time weight is checked. -/
def setCostWeights (p : Problem K) (position time : K) : Bool × Problem K :=
  if position < 0 then (false, p)
  else
    let p := { p with positionWeight := position }
    if time < 0 then (false, p) else (true, { p with timeWeight := time })

/-- `MaxLength::isFeasiblePoint`, src/UnicycleOptimization.cpp:155-173. -/
def lengthOk (p : Problem K) (d : StepData K) : Bool :=
  match p.maxLength with
  | none => true
  | some m => decide (Trig.sqrt (d.rPl.x ^ 2 + d.rPl.y ^ 2) < m)

/-- `MinWidth::isFeasiblePoint`, src/UnicycleOptimization.cpp:182-200. -/
def widthOk (p : Problem K) (d : StepData K) : Bool :=
  match p.minWidth with
  | none => true
  | some m => decide (m < d.rPl.y)

/-- `MaxAngle::isFeasiblePoint`, src/UnicycleOptimization.cpp:209-227. -/
def angleOk (p : Problem K) (d : StepData K) : Bool :=
  match p.maxAngle with
  | none => true
  | some m => decide (|d.deltaAngle| < m)

/-- `StepInEllipsoid::evaluateConstraint` and the base class comparison with the lower bound 0.5,
src/UnicycleOptimization.cpp:229-256. -/
def ellipseOk (p : Problem K) (d : StepData K) : Bool :=
  decide ((1 : K) / 2 ≤ if p.freeSpace.isPointInside d.newPosition then 1 else 0)

/-- `MaxLengthBackward::isFeasiblePoint`, src/UnicycleOptimization.cpp:265-284. -/
def backwardOk (p : Problem K) (d : StepData K) : Bool :=
  match p.maxLengthBackward with
  | none => true
  | some m =>
    decide ((if d.newRelative.x < 0 then Trig.sqrt (d.newRelative.x ^ 2 + d.newRelative.y ^ 2) else 0) < m)

/-- `areConstraintsSatisfied`, src/UnicycleOptimization.cpp:122-127 (conjunction of the constraints
added in the constructor). -/
def areConstraintsSatisfied (p : Problem K) (d : StepData K) : Bool :=
  p.lengthOk d && p.widthOk d && p.angleOk d && p.ellipseOk d && p.backwardOk d

/-- `getCostValue`, src/UnicycleOptimization.cpp:110-120, 293-299.  The only caller checks
`deltaTime > 0` first (src/UnicyclePlanner.cpp:914). -/
def cost (p : Problem K) (d : StepData K) : K :=
  p.timeWeight * (1 / d.deltaTime) ^ 2 + p.positionWeight * (d.rPl.x ^ 2 + d.rPl.y ^ 2)

/-- The names printed by `printViolatedConstraints`, src/UnicycleOptimization.cpp:129-145. -/
def violatedReported (p : Problem K) (d : StepData K) : List String :=
  (if p.lengthOk d then [] else ["Maximum length"]) ++ (if p.widthOk d then [] else ["Minimum width"]) ++
  (if p.angleOk d then [] else ["Maximum angle"]) ++ (if p.ellipseOk d then [] else ["Step in free ellipsoid"])

/-- The public setters. -/
inductive Op (K : Type*)
  | setMaxLength (x : K)
  | setMaxLengthBackward (x : K)
  | setMinWidth (x : K)
  | setMaxAngleVariation (x : K)
  | setFreeSpaceEllipse (e : Ellipse K)
  | setCostWeights (position time : K)

/-- Dispatch. -/
def run (p : Problem K) : Op K → Bool × Problem K
  | .setMaxLength x => p.setMaxLength x
  | .setMaxLengthBackward x => p.setMaxLengthBackward x
  | .setMinWidth x => p.setMinWidth x
  | .setMaxAngleVariation x => p.setMaxAngleVariation x
  | .setFreeSpaceEllipse e => p.setFreeSpaceEllipse e
  | .setCostWeights a b => p.setCostWeights a b

end Problem
end Uni
