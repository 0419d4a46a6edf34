import Verif.Model.Planner

/-! # `UnicycleGenerator`: ordering of the steps and phase timings (src/UnicycleGenerator.cpp)

The trajectory generators fed with these timings are in `Verif.Model.MinJerk`, `Verif.Model.CubicFeet`,
`Verif.Model.CoMHeight`, `Verif.Model.ZMP` and `Verif.Model.DCM`. -/

set_option autoImplicit false

namespace Uni
variable {K : Type}

/-- `enum class StepPhase`, include/StepPhase.h:11-16. -/
inductive Phase
  | stance
  | switchIn
  | switchOut
  | swing
  deriving DecidableEq, Repr

/-- `const Step*`: a pointer into one of the two footprints, with the step it points to.  Two pointers are equal
(same address) iff foot and index agree. -/
@[ext] structure Ptr (K : Type*) where
  left : Bool
  index : Nat
  step : Step K
  deriving DecidableEq, Repr

namespace Ptr
/-- Pointers to the steps of one foot, in order. -/
def ofFoot (left : Bool) (steps : List (Step K)) : List (Ptr K) :=
  steps.zipIdx.map fun p => ⟨left, p.2, p.1⟩

/-- The pointers collected at the beginning of `orderSteps`, src/UnicycleGenerator.cpp:54-61. -/
def ofFeet (left right : FootPrint K) : List (Ptr K) :=
  ofFoot true left.steps ++ ofFoot false right.steps
end Ptr

/-- What is known of the result of the `std::sort` of `orderSteps`, src/UnicycleGenerator.cpp:62-63: a permutation of
the pointers sorted by impact time.  The sort is not stable, ties can be in any order. -/
def SortedPtrs [LE K] (left right : FootPrint K) (sorted : List (Ptr K)) : Prop :=
  sorted.Perm (Ptr.ofFeet left right) ∧
    sorted.Pairwise (fun a b => a.step.impactTime ≤ b.step.impactTime)

/-- Settings of `UnicycleGeneratorImplementation` used by the timings, src/UnicycleGenerator.cpp:32-37. -/
@[ext] structure GenSettings (K : Type*) where
  switchPercentage : K
  endSwitch : K
  nominalSwitchTime : K
  maxStepTime : K
  nominalStepTime : K
  pauseActive : Bool
  mergeBegin : K
  mergeEnd : K
  deriving DecidableEq, Repr

/-- Vectors filled by `createPhasesTimings` and the local variables of its loop, src/UnicycleGenerator.cpp:23-28,
120-127.  `swingLeft` tells which foot `swing` points to.  `pastEnd` records that the address of an element past the
end of a `StepList` was formed (lines 155, 159); the comparison with it is false. -/
@[ext] structure Timing (K : Type*) where
  left : List Phase
  right : List Phase
  shifts : List Nat
  merges : List Nat
  leftIndex : Nat
  rightIndex : Nat
  prevTime : K
  swingLeft : Bool
  pastEnd : Bool
  deriving DecidableEq, Repr

namespace Gen

/-- `std::adjacent_find` of equal impact times, src/UnicycleGenerator.cpp:64-65. -/
def adjacentDup [DecidableEq K] : List (Ptr K) → Bool
  | a :: b :: l => decide (a.step.impactTime = b.step.impactTime) || adjacentDup (b :: l)
  | _ => false

/-- `orderSteps`, src/UnicycleGenerator.cpp:49-80, after the sort.  With a single step `begin() + 2` is past the end. -/
def orderSteps [DecidableEq K] : List (Ptr K) → Out (List (Ptr K))
  | [] => .ok []
  | [_] => .ub .badIterator
  | a :: b :: rest =>
    if adjacentDup rest then .fail
    else
      match rest with
      | [] => .ok [a, b]
      | c :: rest =>
        if a.step.impactTime = b.step.impactTime ∧ b.step.footName = c.step.footName then
          .ok (b :: a :: c :: rest)
        else .ok (a :: b :: c :: rest)

variable [Field K] [LinearOrder K]

/-- The duration of the double support, src/UnicycleGenerator.cpp:140-148.  `half` is the condition of line 140. -/
def switchTime (cfg : GenSettings K) (half : Bool) (stepTime : K) : K :=
  if half then (cfg.switchPercentage / (1 - cfg.switchPercentage / 2) * stepTime) / 2
  else if cfg.pauseActive = true ∧ cfg.maxStepTime < stepTime then
    stepTime - (cfg.nominalStepTime - cfg.nominalSwitchTime)
  else cfg.switchPercentage * stepTime

variable [FloorRing K]

/-- The merge points of a step, src/UnicycleGenerator.cpp:172-180; `back` is `phaseShift.back()`, `first` is
`orderedStepIndex == 2`. -/
def stepMerges (cfg : GenSettings K) (dT : K) (first : Bool) (sw : K) (back : Nat) : Out (List Nat) :=
  if first then .ok []
  else do
    let a ← roundSize (sw * (1 - cfg.mergeBegin) / dT)
    let initial ← subSize back a
    let b ← roundSize (sw * (1 - cfg.mergeEnd) / dT)
    let final ← subSize back b
    .ok (List.range' initial (final + 1 - initial))

/-- Which foot swings, src/UnicycleGenerator.cpp:155-166: the address of the next step is compared with that of
`leftList[leftIndex]`, then with that of `rightList[rightIndex]`. -/
def whichSwings (q : Ptr K) (leftIndex rightIndex : Nat) : Out Bool :=
  if q.left = true ∧ q.index = leftIndex then .ok true
  else if q.left = false ∧ q.index = rightIndex then .ok false
  else .fail

/-- One iteration of the loop of `createPhasesTimings`, src/UnicycleGenerator.cpp:131-187; `nl`, `nr` are the numbers
of steps of the two feet, `first` is `orderedStepIndex == 2`, `half` the condition of line 140. -/
def addStep (cfg : GenSettings K) (dT : K) (nl nr : Nat) (first half : Bool) (q : Ptr K) (s : Timing K) :
    Out (Timing K) :=
  let stepTime := q.step.impactTime - s.prevTime
  if stepTime < 0 then .fail
  else do
    let sw := switchTime cfg half stepTime
    let stepSamples ← roundSize (stepTime / dT)
    let switchSamples ← roundSize (sw / dT)
    let swingSamples ← subSize stepSamples switchSamples
    let swingLeft ← whichSwings q s.leftIndex s.rightIndex
    let back := s.shifts.getLastD 0 + switchSamples
    let merges ← stepMerges cfg dT first sw back
    let swing := List.replicate switchSamples Phase.switchOut ++ List.replicate swingSamples Phase.swing
    let stance := List.replicate switchSamples Phase.switchIn ++ List.replicate swingSamples Phase.stance
    .ok {
      left := s.left ++ if swingLeft then swing else stance
      right := s.right ++ if swingLeft then stance else swing
      shifts := s.shifts ++ [back, back + swingSamples]
      merges := s.merges ++ merges
      leftIndex := if swingLeft then s.leftIndex + 1 else s.leftIndex
      rightIndex := if swingLeft then s.rightIndex else s.rightIndex + 1
      prevTime := s.prevTime + stepSamples * dT
      swingLeft := swingLeft
      pastEnd := s.pastEnd || decide (nl ≤ s.leftIndex) ||
        (!decide (q.left = true ∧ q.index = s.leftIndex) && decide (nr ≤ s.rightIndex)) }

/-- The loop, src/UnicycleGenerator.cpp:131-187, over the steps after the first two. -/
def addSteps (cfg : GenSettings K) (dT : K) (nl nr : Nat) (first half : Bool) :
    List (Ptr K) → Timing K → Out (Timing K)
  | [], s => .ok s
  | q :: l, s => do
    let s ← addStep cfg dT nl nr first (first && half) q s
    addSteps cfg dT nl nr false half l s

/-- The last double support, src/UnicycleGenerator.cpp:188-193. -/
def addLast (cfg : GenSettings K) (dT : K) (s : Timing K) : Out (Timing K) := do
  let n ← roundSize (cfg.endSwitch / dT)
  let back := s.shifts.getLastD 0 + n
  let merge ← subSize back 1
  let swing := List.replicate n Phase.switchIn
  let stance := List.replicate n Phase.switchOut
  .ok { s with
    left := s.left ++ if s.swingLeft then swing else stance
    right := s.right ++ if s.swingLeft then stance else swing
    shifts := s.shifts ++ [back]
    merges := s.merges ++ [merge] }

/-- `createPhasesTimings`, src/UnicycleGenerator.cpp:82-198.  `left`, `right` are the two footprints, `ordered` the
vector made by `orderSteps`.  `back()`/`front()` of an empty container are undefined.  The `reserve` of lines 115-119
converts the expected duration to a `size_t`; memory is not modelled. -/
def createPhasesTimings (cfg : GenSettings K) (initTime dT : K) (left right : List (Step K))
    (ordered : List (Ptr K)) : Out (Timing K) :=
  match left, right, ordered.getLast? with
  | l :: _, r :: _, some last =>
    if ordered.length = 2 then do
      let n ← roundSize (cfg.endSwitch / dT)
      let swingLeft := decide (r.impactTime < l.impactTime)
      let swing := List.replicate n Phase.switchIn
      let stance := List.replicate n Phase.switchOut
      .ok ⟨if swingLeft then swing else stance, if swingLeft then stance else swing, [0, n],
        0 :: List.range' 1 (n - 1), 1, 1, initTime, swingLeft, false⟩
    else if ⌈(last.step.impactTime - initTime + cfg.endSwitch) / dT⌉ < 0 then .ub .negativeToUnsigned
    else do
      let s ← addSteps cfg dT left.length right.length true (decide (l.impactTime ≠ r.impactTime)) (ordered.drop 2)
        ⟨[], [], [0], [0], 1, 1, initTime, false, false⟩
      addLast cfg dT s
  | _, _, _ => .ub .badIterator

/-- `fillFeetStandingPeriodsVectors`, src/UnicycleGenerator.cpp:201-217, for one foot. -/
def contacts (phases : List Phase) : List Bool := phases.map fun p => decide (p ≠ .swing)

/-- `fillLeftFixedVector`, src/UnicycleGenerator.cpp:219-226. -/
def leftFixed (left : List Phase) : List Bool := left.map fun p => decide (p = .stance ∨ p = .switchOut)

/-- The part of `generateFromFootPrints` that precedes the trajectory generators,
src/UnicycleGenerator.cpp:357-411; `sorted` is the result of the sort of `orderSteps`. -/
def timeline (cfg : GenSettings K) (left right : FootPrint K) (initTime dT : K) (sorted : List (Ptr K)) :
    Out (List (Ptr K) × Timing K) :=
  match left.steps, right.steps with
  | l :: _, r :: _ =>
    if left.footName = right.footName then .fail
    else if dT ≤ 0 then .fail
    else if initTime < max l.impactTime r.impactTime then .fail
    else do
      let cfg := { cfg with nominalSwitchTime := cfg.switchPercentage * cfg.nominalStepTime }
      let ordered ← orderSteps sorted
      let t ← createPhasesTimings cfg initTime dT left.steps right.steps ordered
      .ok (ordered, t)
  | _, _ => .fail

end Gen

namespace GenSettings
variable [Field K] [LinearOrder K]

/-- Default settings, src/UnicycleGenerator.cpp:32-37. -/
def new : GenSettings K where
  switchPercentage := 1 / 2
  endSwitch := 1
  nominalSwitchTime := 1
  maxStepTime := 10
  nominalStepTime := 2
  pauseActive := true
  mergeBegin := 1 / 2
  mergeEnd := 1 / 2

/-- The setters of the timings. -/
inductive Op (K : Type*)
  | setSwitchOverSwingRatio (ratio : K)
  | setTerminalHalfSwitchTime (t : K)
  | setPauseActive (b : Bool)
  | setPauseConditions (maxStepTime nominalStepTime : K)
  | setMergePointRatio (ratio : K)
  | setMergePointRatios (begin' end' : K)
  | disablePauseConditions

/-- `setMergePointRatio`, src/UnicycleGenerator.cpp:606-635. -/
def setMergePointRatios (s : GenSettings K) (a b : K) : Bool × GenSettings K :=
  if a < 0 ∨ 1 < a then (false, s)
  else if b < 0 ∨ 1 < b then (false, s)
  else if b < a then (false, s)
  else (true, { s with mergeBegin := a, mergeEnd := b })

/-- The setters, src/UnicycleGenerator.cpp:550-635, 665-668. -/
def run (s : GenSettings K) : Op K → Bool × GenSettings K
  | .setSwitchOverSwingRatio ratio =>
    if ratio ≤ 0 then (false, s) else (true, { s with switchPercentage := ratio / (1 + ratio) })
  | .setTerminalHalfSwitchTime t => if t ≤ 0 then (false, s) else (true, { s with endSwitch := t })
  | .setPauseActive b => (true, { s with pauseActive := b })
  | .setPauseConditions m n =>
    if m < 0 then (false, s)
    else if n ≤ 0 then (false, s)
    else if m < n then (false, s)
    else (true, { s with maxStepTime := m, nominalStepTime := n })
  | .setMergePointRatio r => s.setMergePointRatios r r
  | .setMergePointRatios a b => s.setMergePointRatios a b
  | .disablePauseConditions => (true, { s with pauseActive := false })

/-- A sequence of setter calls. -/
def runAll (s : GenSettings K) (ops : List (Op K)) : GenSettings K := ops.foldl (fun s o => (s.run o).2) s

end GenSettings
end Uni
