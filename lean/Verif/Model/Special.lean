import Verif.Model.Generator

/-! # The phases with infinities and values that are not numbers (src/UnicycleGenerator.cpp)

The functions of `Verif.Model.Rounded` once more, with the special values of IEEE 754.  `fl` rounds the result of an operation on
numbers; it may overflow.  The sign of a zero is not modelled: a division by zero is a division by the positive one.  The
exceptions that are thrown when there is no memory for the vectors are not modelled. -/

set_option autoImplicit false

namespace Uni

/-- A value of type `double`. -/
inductive Dbl (K : Type)
  | nan
  | inf (negative : Bool)
  | num (x : K)
  deriving DecidableEq, Repr

namespace Dbl
variable {K : Type}

/-- The number, if it is one. -/
def val [Zero K] : Dbl K → K
  | num x => x
  | _ => 0

/-- A number. -/
def IsNum : Dbl K → Prop
  | num _ => True
  | _ => False

instance (x : Dbl K) : Decidable x.IsNum := by cases x <;> unfold IsNum <;> infer_instance

variable [Field K] [LinearOrder K]

instance : Zero (Dbl K) := ⟨num 0⟩

/-- `x < y`. -/
def lt : Dbl K → Dbl K → Bool
  | nan, _ => false
  | _, nan => false
  | inf a, inf b => a && !b
  | inf a, num _ => a
  | num _, inf b => !b
  | num x, num y => decide (x < y)

/-- `x <= y`. -/
def le : Dbl K → Dbl K → Bool
  | nan, _ => false
  | _, nan => false
  | inf a, inf b => a || !b
  | inf a, num _ => a
  | num _, inf b => !b
  | num x, num y => decide (x ≤ y)

/-- `x == y`. -/
def eq : Dbl K → Dbl K → Bool
  | nan, _ => false
  | _, nan => false
  | inf a, inf b => a == b
  | num x, num y => decide (x = y)
  | _, _ => false

/-- `std::max(x, y)`. -/
def max' (x y : Dbl K) : Dbl K := if lt x y then y else x

variable (fl : K → Dbl K)

/-- `x + y`. -/
def add : Dbl K → Dbl K → Dbl K
  | nan, _ => nan
  | _, nan => nan
  | inf a, inf b => if a = b then inf a else nan
  | inf a, num _ => inf a
  | num _, inf b => inf b
  | num x, num y => fl (x + y)

/-- `x - y`. -/
def sub : Dbl K → Dbl K → Dbl K
  | nan, _ => nan
  | _, nan => nan
  | inf a, inf b => if a = b then nan else inf a
  | inf a, num _ => inf a
  | num _, inf b => inf (!b)
  | num x, num y => fl (x - y)

/-- `x * y`. -/
def mul : Dbl K → Dbl K → Dbl K
  | nan, _ => nan
  | _, nan => nan
  | inf a, inf b => inf (a != b)
  | inf a, num y => if y = 0 then nan else inf (a != decide (y < 0))
  | num x, inf b => if x = 0 then nan else inf (b != decide (x < 0))
  | num x, num y => fl (x * y)

/-- `x / y`. -/
def div : Dbl K → Dbl K → Dbl K
  | nan, _ => nan
  | _, nan => nan
  | inf _, inf _ => nan
  | inf a, num y => inf (a != decide (y < 0))
  | num _, inf _ => num 0
  | num x, num y => if y = 0 then (if x = 0 then nan else inf (decide (x < 0))) else fl (x / y)

/-- `static_cast<size_t>` of an integral value. -/
def sizeOf (n : ℤ) : Out Nat :=
  if n < 0 then .ub .negativeToUnsigned else if 2 ^ 64 ≤ n then .ub .notRepresentable else .ok n.toNat

variable [FloorRing K]

/-- `static_cast<size_t>(std::round(x))`. -/
def roundSize : Dbl K → Out Nat
  | num x => sizeOf (stdRound x)
  | _ => .ub .notRepresentable

/-- `static_cast<size_t>(std::ceil(x))`. -/
def ceilSize : Dbl K → Out Nat
  | num x => sizeOf ⌈x⌉
  | _ => .ub .notRepresentable

end Dbl

namespace Special
open Dbl
variable {K : Type} [Field K] [LinearOrder K]

/-- `std::adjacent_find` of equal impact times, src/UnicycleGenerator.cpp:64-65. -/
def adjacentDup : List (Ptr (Dbl K)) → Bool
  | a :: b :: l => eq a.step.impactTime b.step.impactTime || adjacentDup (b :: l)
  | _ => false

/-- `orderSteps`, src/UnicycleGenerator.cpp:49-80.  The comparison is no strict weak order if there is a value that is not a number
(it is equivalent to any other one) and two values that are different. -/
def orderSteps (sorted : List (Ptr (Dbl K))) : Out (List (Ptr (Dbl K))) :=
  if sorted.any (fun p => p.step.impactTime = .nan) ∧
      sorted.any (fun p => sorted.any fun q => lt p.step.impactTime q.step.impactTime) then .ub .notAnOrder
  else
    match sorted with
    | [] => .ok []
    | [_] => .ub .badIterator
    | a :: b :: rest =>
      if adjacentDup rest then .fail
      else
        match rest with
        | [] => .ok [a, b]
        | c :: rest =>
          if eq a.step.impactTime b.step.impactTime = true ∧ b.step.footName = c.step.footName then .ok (b :: a :: c :: rest)
          else .ok (a :: b :: c :: rest)

variable (fl : K → Dbl K)

/-- The duration of the double support, src/UnicycleGenerator.cpp:129, 140-148. -/
def switchTime (cfg : GenSettings (Dbl K)) (half : Bool) (stepTime : Dbl K) : Dbl K :=
  if half then
    div fl (mul fl (div fl cfg.switchPercentage (sub fl (num 1) (div fl cfg.switchPercentage (num 2)))) stepTime) (num 2)
  else if cfg.pauseActive = true ∧ lt cfg.maxStepTime stepTime = true then
    sub fl stepTime (sub fl cfg.nominalStepTime cfg.nominalSwitchTime)
  else mul fl cfg.switchPercentage stepTime

variable [FloorRing K]

/-- The merge points of a step, src/UnicycleGenerator.cpp:172-180. -/
def stepMerges (cfg : GenSettings (Dbl K)) (dT : Dbl K) (first : Bool) (sw : Dbl K) (back : Nat) : Out (List Nat) :=
  if first then .ok []
  else do
    let a ← Dbl.roundSize (div fl (mul fl sw (sub fl (num 1) cfg.mergeBegin)) dT)
    let initial ← subSize back a
    let b ← Dbl.roundSize (div fl (mul fl sw (sub fl (num 1) cfg.mergeEnd)) dT)
    let final ← subSize back b
    .ok (List.range' initial (final + 1 - initial))

/-- One iteration of the loop, src/UnicycleGenerator.cpp:131-187. -/
def addStep (cfg : GenSettings (Dbl K)) (dT : Dbl K) (nl nr : Nat) (first half : Bool) (q : Ptr (Dbl K)) (s : Timing (Dbl K)) :
    Out (Timing (Dbl K)) :=
  let stepTime := sub fl q.step.impactTime s.prevTime
  if lt stepTime (num 0) = true then .fail
  else do
    let sw := switchTime fl cfg half stepTime
    let stepSamples ← Dbl.roundSize (div fl stepTime dT)
    let switchSamples ← Dbl.roundSize (div fl sw dT)
    let swingSamples ← subSize stepSamples switchSamples
    let swingLeft ← Gen.whichSwings q s.leftIndex s.rightIndex
    let back := s.shifts.getLastD 0 + switchSamples
    let merges ← stepMerges fl cfg dT first sw back
    let swing := List.replicate switchSamples Phase.switchOut ++ List.replicate swingSamples Phase.swing
    let stance := List.replicate switchSamples Phase.switchIn ++ List.replicate swingSamples Phase.stance
    .ok {
      left := s.left ++ if swingLeft then swing else stance
      right := s.right ++ if swingLeft then stance else swing
      shifts := s.shifts ++ [back, back + swingSamples]
      merges := s.merges ++ merges
      leftIndex := if swingLeft then s.leftIndex + 1 else s.leftIndex
      rightIndex := if swingLeft then s.rightIndex else s.rightIndex + 1
      prevTime := add fl s.prevTime (mul fl (fl stepSamples) dT)
      swingLeft := swingLeft
      pastEnd := s.pastEnd || decide (nl ≤ s.leftIndex) ||
        (!decide (q.left = true ∧ q.index = s.leftIndex) && decide (nr ≤ s.rightIndex)) }

/-- The loop, src/UnicycleGenerator.cpp:131-187, over the steps after the first two. -/
def addSteps (cfg : GenSettings (Dbl K)) (dT : Dbl K) (nl nr : Nat) (first half : Bool) :
    List (Ptr (Dbl K)) → Timing (Dbl K) → Out (Timing (Dbl K))
  | [], s => .ok s
  | q :: l, s => do
    let s ← addStep fl cfg dT nl nr first (first && half) q s
    addSteps cfg dT nl nr false half l s

/-- The last double support, src/UnicycleGenerator.cpp:188-193. -/
def addLast (cfg : GenSettings (Dbl K)) (dT : Dbl K) (s : Timing (Dbl K)) : Out (Timing (Dbl K)) := do
  let n ← Dbl.roundSize (div fl cfg.endSwitch dT)
  let back := s.shifts.getLastD 0 + n
  let merge ← subSize back 1
  let swing := List.replicate n Phase.switchIn
  let stance := List.replicate n Phase.switchOut
  .ok { s with
    left := s.left ++ if s.swingLeft then swing else stance
    right := s.right ++ if s.swingLeft then stance else swing
    shifts := s.shifts ++ [back]
    merges := s.merges ++ [merge] }

/-- `createPhasesTimings`, src/UnicycleGenerator.cpp:82-198. -/
def createPhasesTimings (cfg : GenSettings (Dbl K)) (initTime dT : Dbl K) (left right : List (Step (Dbl K)))
    (ordered : List (Ptr (Dbl K))) : Out (Timing (Dbl K)) :=
  match left, right, ordered.getLast? with
  | l :: _, r :: _, some last =>
    if ordered.length = 2 then do
      let n ← Dbl.roundSize (div fl cfg.endSwitch dT)
      let swingLeft := lt r.impactTime l.impactTime
      let swing := List.replicate n Phase.switchIn
      let stance := List.replicate n Phase.switchOut
      .ok ⟨if swingLeft then swing else stance, if swingLeft then stance else swing, [0, n],
        0 :: List.range' 1 (n - 1), 1, 1, initTime, swingLeft, false⟩
    else do
      let _ ← Dbl.ceilSize (div fl (add fl (sub fl last.step.impactTime initTime) cfg.endSwitch) dT)
      let s ← addSteps fl cfg dT left.length right.length true (!eq l.impactTime r.impactTime) (ordered.drop 2)
        ⟨[], [], [0], [0], 1, 1, initTime, false, false⟩
      addLast fl cfg dT s
  | _, _, _ => .ub .badIterator

/-- `generateFromFootPrints` up to the trajectory generators, src/UnicycleGenerator.cpp:357-411; `sorted` is the result of the
sort of `orderSteps`. -/
def timeline (cfg : GenSettings (Dbl K)) (left right : FootPrint (Dbl K)) (initTime dT : Dbl K) (sorted : List (Ptr (Dbl K))) :
    Out (List (Ptr (Dbl K)) × Timing (Dbl K)) :=
  match left.steps, right.steps with
  | l :: _, r :: _ =>
    if left.footName = right.footName then .fail
    else if le dT (num 0) = true then .fail
    else if lt initTime (max' l.impactTime r.impactTime) = true then .fail
    else do
      let cfg := { cfg with nominalSwitchTime := mul fl cfg.switchPercentage cfg.nominalStepTime }
      let ordered ← orderSteps sorted
      let t ← createPhasesTimings fl cfg initTime dT left.steps right.steps ordered
      .ok (ordered, t)
  | _, _ => .fail

omit [FloorRing K] in
/-- `setMergePointRatio`, src/UnicycleGenerator.cpp:606-635. -/
def setMergePointRatios (s : GenSettings (Dbl K)) (a b : Dbl K) : Bool × GenSettings (Dbl K) :=
  if lt a (num 0) = true ∨ lt (num 1) a = true then (false, s)
  else if lt b (num 0) = true ∨ lt (num 1) b = true then (false, s)
  else if lt b a = true then (false, s)
  else (true, { s with mergeBegin := a, mergeEnd := b })

omit [FloorRing K] in
/-- The setters, src/UnicycleGenerator.cpp:550-635, 665-668. -/
def run (s : GenSettings (Dbl K)) : GenSettings.Op (Dbl K) → Bool × GenSettings (Dbl K)
  | .setSwitchOverSwingRatio ratio =>
    if le ratio (num 0) = true then (false, s)
    else (true, { s with switchPercentage := div fl ratio (add fl (num 1) ratio) })
  | .setTerminalHalfSwitchTime t => if le t (num 0) = true then (false, s) else (true, { s with endSwitch := t })
  | .setPauseActive b => (true, { s with pauseActive := b })
  | .setPauseConditions m n =>
    if lt m (num 0) = true then (false, s)
    else if le n (num 0) = true then (false, s)
    else if lt m n = true then (false, s)
    else (true, { s with maxStepTime := m, nominalStepTime := n })
  | .setMergePointRatio r => setMergePointRatios s r r
  | .setMergePointRatios a b => setMergePointRatios s a b
  | .disablePauseConditions => (true, { s with pauseActive := false })

omit [FloorRing K] in
/-- `FootPrint::addStep(position, theta, impactTime)`, src/FootPrint.cpp:23-45. -/
def addContact (fp : FootPrint (Dbl K)) (s : Step (Dbl K)) : Bool × FootPrint (Dbl K) :=
  if lt s.impactTime (num 0) = true then (false, fp)
  else (true, { fp with steps := fp.steps ++ [{ s with footName := fp.footName }] })

end Special
end Uni
