import Verif.Model.Generator

/-! # `UnicycleGenerator`: requests, measured contacts and outputs (src/UnicycleGenerator.cpp)

`generate` and `reGenerate` are modelled up to the trajectory generators, which do not change the footprints, the
planner nor the phases. -/

set_option autoImplicit false

namespace Uni
variable {K : Type} [Field K] [LinearOrder K]

namespace Gen
variable [Trig K]

/-- The yaw of `RotZ(a).inverse() * RotZ(b)`: `asRPY` of a rotation about the vertical axis is `atan2(R(1,0), R(0,0))`. -/
def relativeYaw (a b : K) : K :=
  Trig.atan2 (Trig.cos a * Trig.sin b - Trig.sin a * Trig.cos b) (Trig.cos a * Trig.cos b + Trig.sin a * Trig.sin b)

/-- `editStepFromMeasured`, src/UnicycleGenerator.cpp:228-237. -/
def editStepFromMeasured (input measured : Step K) : Step K :=
  { input with
    impactTime := measured.impactTime
    position := measured.position
    angle := input.angle + relativeYaw input.angle measured.angle }

/-- `CorrectionType`, src/UnicycleGenerator.cpp:239-244. -/
inductive Correction
  | left
  | right
  | both
  | none
  deriving DecidableEq, Repr

namespace Correction
/-- `editLeft`, src/UnicycleGenerator.cpp:266. -/
def editsLeft (c : Correction) : Bool := decide (c = .left ∨ c = .both)
/-- `editRight`, src/UnicycleGenerator.cpp:267. -/
def editsRight (c : Correction) : Bool := decide (c = .right ∨ c = .both)
end Correction

/-- What `dcmTrajectoryGenerator->getDCMInitialState().initialVelocity` is: there is no DCM generator; there is one but
its initial state was never written (`iDynTree::Vector2` does not initialise its elements); a value. -/
inductive DcmVelocity (K : Type)
  | absent
  | unset
  | known (v : Vec2 K)
  deriving DecidableEq

/-- `shouldResetTime`, src/UnicycleGenerator.cpp:260. -/
def shouldReset : DcmVelocity K → Out Bool
  | .absent => .ok false
  | .unset => .ub .uninitialised
  | .known v => .ok (decide (v.norm < 1 / 100000))

/-- The edited steps, src/UnicycleGenerator.cpp:266-286. -/
def editedSteps (initTime : K) (mL mR : Step K) (c : Correction) (reset : Bool) (prevL prevR : Step K) : Step K × Step K :=
  let l := if c.editsLeft then editStepFromMeasured prevL mL else prevL
  let r := if c.editsRight then editStepFromMeasured prevR mR else prevR
  let (l, r) :=
    if initTime < l.impactTime ∨ initTime < r.impactTime then
      ({ l with impactTime := prevL.impactTime }, { r with impactTime := prevR.impactTime })
    else (l, r)
  if reset then
    let t := max prevL.impactTime prevR.impactTime
    ({ l with impactTime := t }, { r with impactTime := t })
  else (l, r)

/-- Replacement of the content of a footprint, src/UnicycleGenerator.cpp:288-302. -/
def replaceStep (edit : Bool) (fp : FootPrint K) (s : Step K) : Bool × FootPrint K :=
  if edit then fp.clearSteps.addStep s else (true, fp)

/-- Result of a call: return value, planner, footprints and the steps given to `zmpGenerator->setPreviousSteps`;
undefined behaviour; fuel of the planner exhausted. -/
inductive ReplanResult (K : Type)
  | done (ok : Bool) (p : Planner K) (left right : FootPrint K) (previous : Option (Step K × Step K))
  | ub (why : UB)
  | outOfFuel

/-- The last part of `computeNewStepsFromMeasuredSteps`, src/UnicycleGenerator.cpp:305-320.  `setPreviousSteps` only stores
its arguments and never fails. -/
def planFrom (p : Planner K) (integ : Integrator K) (fuel : Nat) (left right : FootPrint K) (initTime endTime : K)
    (previous : Option (Step K × Step K)) : ReplanResult K :=
  match p.computeNewSteps integ fuel left right initTime endTime with
  | .done true p left right => .done true p left right previous
  | .done false p left right => .done false p left right none
  | .ub w => .ub w
  | .outOfFuel => .outOfFuel

/-- `computeNewStepsFromMeasuredSteps`, src/UnicycleGenerator.cpp:246-320.  `getLastStep` of an empty footprint would leave
`previousL` uninitialised. -/
def computeNewStepsFromMeasured (p : Planner K) (integ : Integrator K) (fuel : Nat) (dcm : DcmVelocity K)
    (left right : FootPrint K) (initTime endTime : K) (mL mR : Step K) (c : Correction) : ReplanResult K :=
  match left.keepOnlyPresentStep initTime with
  | (false, left) => .done false p left right none
  | (true, left) =>
    match right.keepOnlyPresentStep initTime with
    | (false, right) => .done false p left right none
    | (true, right) =>
      match shouldReset dcm with
      | .ub w => .ub w
      | .fail => .done false p left right none
      | .ok reset =>
        if c ≠ .none ∨ reset = true then
          match left.getLastStep, right.getLastStep with
          | some prevL, some prevR =>
            let (l, r) := editedSteps initTime mL mR c reset prevL prevR
            match replaceStep (c.editsLeft || reset) left l with
            | (false, left) => .done false p left right none
            | (true, left) =>
              match replaceStep (c.editsRight || reset) right r with
              | (false, right) => .done false p left right none
              | (true, right) => planFrom p integ fuel left right initTime endTime (some (prevL, prevR))
          | _, _ => .ub .uninitialised
        else planFrom p integ fuel left right initTime endTime none

/-- The four `reGenerate` methods, src/UnicycleGenerator.cpp:469-548. -/
inductive Request (K : Type)
  | plain
  | steps (measuredLeft measuredRight : Step K)
  | oneFoot (correctLeft : Bool) (position : Vec2 K) (angle : K)
  | twoFeet (leftPosition : Vec2 K) (leftAngle : K) (rightPosition : Vec2 K) (rightAngle : K)

namespace Request
/-- The kind of correction. -/
def correction : Request K → Correction
  | .plain => .none
  | .steps _ _ => .both
  | .oneFoot b _ _ => if b then .left else .right
  | .twoFeet _ _ _ _ => .both

/-- `measuredLeft`; `Step()` of the first method is never read. -/
def measuredLeft (initTime : K) (name : String) : Request K → Step K
  | .plain => ⟨0, 0, 0, name⟩
  | .steps l _ => l
  | .oneFoot _ p a => ⟨p, a, initTime + 1, name⟩
  | .twoFeet p a _ _ => ⟨p, a, initTime + 1, name⟩

/-- `measuredRight`. -/
def measuredRight (initTime : K) (name : String) : Request K → Step K
  | .plain => ⟨0, 0, 0, name⟩
  | .steps _ r => r
  | .oneFoot _ p a => ⟨p, a, initTime + 1, name⟩
  | .twoFeet _ _ p a => ⟨p, a, initTime + 1, name⟩
end Request

/-- `reGenerate`, up to `generateFromFootPrints`. -/
def replan (p : Planner K) (integ : Integrator K) (fuel : Nat) (dcm : DcmVelocity K) (left right : FootPrint K)
    (initTime endTime : K) (q : Request K) : ReplanResult K :=
  computeNewStepsFromMeasured p integ fuel dcm left right initTime endTime (q.measuredLeft initTime left.footName)
    (q.measuredRight initTime right.footName) q.correction

end Gen

/-! ## Outputs -/

/-- The members read by the getters.  `phases` is `none` as long as `lFootPhases` and `rFootPhases` are null. -/
@[ext] structure GenOutputs where
  phases : Option (List Phase × List Phase)
  merges : List Nat
  leftContact : List Bool
  rightContact : List Bool
  leftFixed : List Bool
  deriving DecidableEq, Repr

namespace GenOutputs
/-- A new generator. -/
def new : GenOutputs := ⟨none, [], [], [], []⟩

/-- `getStepPhases`, src/UnicycleGenerator.cpp:637-643: dereferences both pointers. -/
def getStepPhases (o : GenOutputs) : Out (List Phase × List Phase) :=
  match o.phases with
  | some p => .ok p
  | none => .ub .badIterator
end GenOutputs

namespace Gen
variable [FloorRing K]

/-- How far the loop of `createPhasesTimings` gets when it fails, src/UnicycleGenerator.cpp:131-187: an iteration fails before
it writes anything. -/
def lastTiming (cfg : GenSettings K) (dT : K) (nl nr : Nat) (first half : Bool) :
    List (Ptr K) → Timing K → Timing K
  | [], s => s
  | q :: l, s =>
    match addStep cfg dT nl nr first (first && half) q s with
    | .ok s => lastTiming cfg dT nl nr false half l s
    | _ => s

/-- The outputs after `generateFromFootPrints` (before the trajectory generators), src/UnicycleGenerator.cpp:357-411: nothing
is written before `createPhasesTimings`; if this one fails the phases and merge points are those of the steps before the
offending one, and the contact vectors are not written. -/
def outputsAfter (cfg : GenSettings K) (left right : FootPrint K) (initTime dT : K) (sorted : List (Ptr K))
    (o : GenOutputs) : GenOutputs :=
  match timeline cfg left right initTime dT sorted with
  | .ok (_, t) => ⟨some (t.left, t.right), t.merges, contacts t.left, contacts t.right, leftFixed t.left⟩
  | .ub _ => o
  | .fail =>
    match left.steps, right.steps with
    | l :: _, r :: _ =>
      if left.footName = right.footName then o
      else if dT ≤ 0 then o
      else if initTime < max l.impactTime r.impactTime then o
      else
        match orderSteps sorted with
        | .ok ordered =>
          let t := lastTiming { cfg with nominalSwitchTime := cfg.switchPercentage * cfg.nominalStepTime } dT
            left.steps.length right.steps.length true (decide (l.impactTime ≠ r.impactTime)) (ordered.drop 2)
            ⟨[], [], [0], [0], 1, 1, initTime, false, false⟩
          { o with phases := some (t.left, t.right), merges := t.merges }
        | _ => o
    | _, _ => o

/-- The arguments of one run of `generateFromFootPrints`. -/
structure GenRequest (K : Type) where
  cfg : GenSettings K
  left : FootPrint K
  right : FootPrint K
  initTime : K
  dT : K
  sorted : List (Ptr K)

/-- The outcome of one run, up to the timings. -/
def GenRequest.outcome (q : GenRequest K) : Out (List (Ptr K) × Timing K) :=
  timeline q.cfg q.left q.right q.initTime q.dT q.sorted

/-- The outputs after a sequence of runs. -/
def outputsAll (o : GenOutputs) (reqs : List (GenRequest K)) : GenOutputs :=
  reqs.foldl (fun o q => outputsAfter q.cfg q.left q.right q.initTime q.dT q.sorted o) o

end Gen
end Uni
