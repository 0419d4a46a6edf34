import Verif.Model.Generator

/-! # The phases with rounded arithmetic (src/UnicycleGenerator.cpp)

The same functions as in `Verif.Model.Generator`, with the result of every floating point operation rounded by `fl`.  Comparisons,
`std::round`, `std::ceil` and the arithmetic of `size_t` are exact.  Every operation is rounded once, to the same format (no extended
precision, no fused operations).  Overflow is not modelled: `fl` is defined everywhere. -/

set_option autoImplicit false

namespace Uni.Rounded
open Uni Uni.Gen
variable {K : Type} [Field K] [LinearOrder K]

/-- The duration of the double support, src/UnicycleGenerator.cpp:129, 140-148. -/
def switchTime (fl : K → K) (cfg : GenSettings K) (half : Bool) (stepTime : K) : K :=
  if half then fl (fl (fl (cfg.switchPercentage / fl (1 - fl (cfg.switchPercentage / 2))) * stepTime) / 2)
  else if cfg.pauseActive = true ∧ cfg.maxStepTime < stepTime then
    fl (stepTime - fl (cfg.nominalStepTime - cfg.nominalSwitchTime))
  else fl (cfg.switchPercentage * stepTime)

variable [FloorRing K]

/-- The merge points of a step, src/UnicycleGenerator.cpp:172-180. -/
def stepMerges (fl : K → K) (cfg : GenSettings K) (dT : K) (first : Bool) (sw : K) (back : Nat) : Out (List Nat) :=
  if first then .ok []
  else do
    let a ← roundSize (fl (fl (sw * fl (1 - cfg.mergeBegin)) / dT))
    let initial ← subSize back a
    let b ← roundSize (fl (fl (sw * fl (1 - cfg.mergeEnd)) / dT))
    let final ← subSize back b
    .ok (List.range' initial (final + 1 - initial))

/-- One iteration of the loop, src/UnicycleGenerator.cpp:131-187.  The number of samples is converted to a `double` (line 185). -/
def addStep (fl : K → K) (cfg : GenSettings K) (dT : K) (nl nr : Nat) (first half : Bool) (q : Ptr K) (s : Timing K) :
    Out (Timing K) :=
  let stepTime := fl (q.step.impactTime - s.prevTime)
  if stepTime < 0 then .fail
  else do
    let sw := switchTime fl cfg half stepTime
    let stepSamples ← roundSize (fl (stepTime / dT))
    let switchSamples ← roundSize (fl (sw / dT))
    let swingSamples ← subSize stepSamples switchSamples
    let swingLeft ← whichSwings q s.leftIndex s.rightIndex
    let back := s.shifts.getLastD 0 + switchSamples
    let merges ← stepMerges fl cfg dT first sw back
    let swing := List.replicate switchSamples Phase.switchOut ++ List.replicate swingSamples Phase.swing
    let stance := List.replicate switchSamples Phase.switchIn ++ List.replicate swingSamples Phase.stance
    .ok {
      left := s.left ++ if swingLeft then swing else stance
      right := s.right ++ if swingLeft then stance else swing
      shifts := s.shifts ++ [back, back + swingSamples]
      merges := s.merges ++ merges
      leftIndex := if swingLeft then s.leftIndex + 1 else s.leftIndex
      rightIndex := if swingLeft then s.rightIndex else s.rightIndex + 1
      prevTime := fl (s.prevTime + fl (fl stepSamples * dT))
      swingLeft := swingLeft
      pastEnd := s.pastEnd || decide (nl ≤ s.leftIndex) ||
        (!decide (q.left = true ∧ q.index = s.leftIndex) && decide (nr ≤ s.rightIndex)) }

/-- The loop, src/UnicycleGenerator.cpp:131-187, over the steps after the first two. -/
def addSteps (fl : K → K) (cfg : GenSettings K) (dT : K) (nl nr : Nat) (first half : Bool) :
    List (Ptr K) → Timing K → Out (Timing K)
  | [], s => .ok s
  | q :: l, s => do
    let s ← addStep fl cfg dT nl nr first (first && half) q s
    addSteps fl cfg dT nl nr false half l s

/-- The last double support, src/UnicycleGenerator.cpp:188-193. -/
def addLast (fl : K → K) (cfg : GenSettings K) (dT : K) (s : Timing K) : Out (Timing K) := do
  let n ← roundSize (fl (cfg.endSwitch / dT))
  let back := s.shifts.getLastD 0 + n
  let merge ← subSize back 1
  let swing := List.replicate n Phase.switchIn
  let stance := List.replicate n Phase.switchOut
  .ok { s with
    left := s.left ++ if s.swingLeft then swing else stance
    right := s.right ++ if s.swingLeft then stance else swing
    shifts := s.shifts ++ [back]
    merges := s.merges ++ [merge] }

/-- `createPhasesTimings`, src/UnicycleGenerator.cpp:82-198. -/
def createPhasesTimings (fl : K → K) (cfg : GenSettings K) (initTime dT : K) (left right : List (Step K))
    (ordered : List (Ptr K)) : Out (Timing K) :=
  match left, right, ordered.getLast? with
  | l :: _, r :: _, some last =>
    if ordered.length = 2 then do
      let n ← roundSize (fl (cfg.endSwitch / dT))
      let swingLeft := decide (r.impactTime < l.impactTime)
      let swing := List.replicate n Phase.switchIn
      let stance := List.replicate n Phase.switchOut
      .ok ⟨if swingLeft then swing else stance, if swingLeft then stance else swing, [0, n],
        0 :: List.range' 1 (n - 1), 1, 1, initTime, swingLeft, false⟩
    else if ⌈fl (fl (fl (last.step.impactTime - initTime) + cfg.endSwitch) / dT)⌉ < 0 then .ub .negativeToUnsigned
    else do
      let s ← addSteps fl cfg dT left.length right.length true (decide (l.impactTime ≠ r.impactTime)) (ordered.drop 2)
        ⟨[], [], [0], [0], 1, 1, initTime, false, false⟩
      addLast fl cfg dT s
  | _, _, _ => .ub .badIterator

/-- `generateFromFootPrints` up to the trajectory generators, src/UnicycleGenerator.cpp:357-411. -/
def timeline (fl : K → K) (cfg : GenSettings K) (left right : FootPrint K) (initTime dT : K) (sorted : List (Ptr K)) :
    Out (List (Ptr K) × Timing K) :=
  match left.steps, right.steps with
  | l :: _, r :: _ =>
    if left.footName = right.footName then .fail
    else if dT ≤ 0 then .fail
    else if initTime < max l.impactTime r.impactTime then .fail
    else do
      let cfg := { cfg with nominalSwitchTime := fl (cfg.switchPercentage * cfg.nominalStepTime) }
      let ordered ← orderSteps sorted
      let t ← createPhasesTimings fl cfg initTime dT left.steps right.steps ordered
      .ok (ordered, t)
  | _, _ => .fail

omit [FloorRing K] in
/-- The setters, src/UnicycleGenerator.cpp:550-635, 665-668: only the first one computes. -/
def run (fl : K → K) (s : GenSettings K) : GenSettings.Op K → Bool × GenSettings K
  | .setSwitchOverSwingRatio ratio =>
    if ratio ≤ 0 then (false, s) else (true, { s with switchPercentage := fl (ratio / fl (1 + ratio)) })
  | o => s.run o

/-- A sequence of setter calls. -/
def runAll (fl : K → K) (s : GenSettings K) (ops : List (GenSettings.Op K)) : GenSettings K :=
  ops.foldl (fun s o => (run fl s o).2) s

end Uni.Rounded
