import Verif.Spec.Merge
import Verif.Spec.Rates

/-! # Walking on and on: a walk is executed up to a merge point, replaced by a new one, and so on -/

set_option autoImplicit false

namespace Uni.Spec
open Walker
variable {K : Type} [Field K] [LinearOrder K] [FloorRing K] [Trig K]

/-- A walk, the time of its first sample, the number of its samples that were executed before it was replaced, and the request with
which it was replaced. -/
structure Leg (K : Type) where
  walk : Walker K
  start : K
  count : Nat
  request : Gen.Request K

/-- The walks that have been replaced, and the walk in execution with the time of its first sample.  The walks are replaced at merge
points, any number of times, each time with orders of the user in between (`Merging`), with or without measurements. -/
inductive Walking (integ : Integrator K) (sort : Sorter K) (dT : K) : List (Leg K) → Walker K → K → Prop
  | start {before w : Walker K} {fuel : Nat} {c : Call K} : Reached integ sort before → before.call integ fuel sort c = .done true w →
      (timesOf c).2 = dT → Walking integ sort dT [] w (timesOf c).1
  | again {legs : List (Leg K)} {before old new : Walker K} {c : Call K} {k m : Nat} {q : Gen.Request K} :
      Walking integ sort dT legs old (timesOf c).1 →
      (timesOf c).2 = dT → Merging integ sort before old new c k m q dT →
      Walking integ sort dT (legs ++ [⟨old, (timesOf c).1, m, q⟩]) new (timeOf c m)

/-- What is executed of a trajectory: the first samples of each walk that has been replaced, then the walk in execution. -/
def executed {α : Type} (f : Walker K → List α) (legs : List (Leg K)) (w : Walker K) : List α :=
  (legs.flatMap fun l => (f l.walk).take l.count) ++ f w

/-- Whether the feet are in contact, left foot first. -/
def supportsOf (w : Walker K) : List (Bool × Bool) := w.outputs.leftContact.zip w.outputs.rightContact

/-- Contact and pose of a foot, of one of the generators of trajectories of the feet. -/
def footOf {S : Type} (plugin : Walker K → Option (Plugin S (FeetOut K))) (left : Bool) (w : Walker K) : List (Bool × FootSample K) :=
  match (plugin w).bind (·.result) with
  | some out => (if left then w.outputs.leftContact else w.outputs.rightContact).zip (if left then out.1 else out.2)
  | none => []

/-- The height of the centre of mass. -/
def heightsOf (w : Walker K) : List (Motion K) :=
  match w.height.bind (·.result) with
  | some out => out
  | none => []

/-- The load of a foot and its rate. -/
def loadsOf (left : Bool) (w : Walker K) : List (K × K) :=
  match w.zmp.bind (·.result) with
  | some out => (if left then out.weightL else out.weightR).map fun x => (x.pos, x.vel)
  | none => []

/-- A foot that is in contact is at the same place, with the same orientation, one sample later. -/
def NoSlip (x y : Bool × FootSample K) : Prop := x.1 = true → y.2.pos.x = x.2.pos.x ∧ y.2.pos.y = x.2.pos.y ∧ y.2.yaw = x.2.yaw

/-- A foot that is in contact has moved by at most `e` along each axis, and has turned by at most `a`, one sample later. -/
def SlipsAtMost (e a : K) (x y : Bool × FootSample K) : Prop :=
  x.1 = true → |y.2.pos.x - x.2.pos.x| ≤ e ∧ |y.2.pos.y - x.2.pos.y| ≤ e ∧ |y.2.yaw - x.2.yaw| ≤ a

/-- The measurement of a foot with which a walk was replaced, if there is one, is close to where the foot was in this walk. -/
def CloseMeasurement {S : Type} (plugin : Walker K → Option (Plugin S (FeetOut K))) (left : Bool) (e a : K) (l : Leg K) : Prop :=
  ∀ p angle x, measuredOf left l.request = some (p, angle) → (footOf plugin left l.walk)[l.count]? = some x →
    |p.x - x.2.pos.x| ≤ e ∧ |p.y - x.2.pos.y| ≤ e ∧ |turnBetween x.2.yaw angle| ≤ a

/-- Every phase of the walk has at least `n` samples. -/
def LongPhases (sort : Sorter K) (dT : K) (n : Nat) (w : Walker K) (time : K) : Prop :=
  0 < n ∧ ∀ ordered t, Gen.timeline w.cfg w.left w.right time dT (sort w.left w.right) = .ok (ordered, t) →
    ∀ i a b, t.shifts[i]? = some a → t.shifts[i + 1]? = some b → a + n ≤ b

/-- A walk that was replaced with both feet on the ground, not at the sample of a landing. -/
def LeftStanding (l : Leg K) : Prop := BothDown l.walk l.count ∧ ∀ j, j + 1 = l.count → BothDown l.walk j

/-- A walk that was replaced after its first step. -/
def LeftWalking (l : Leg K) : Prop := ∃ j, j < l.count ∧ ¬ BothDown l.walk j

/-- The loads of the feet change at a rate of at most `r` (`e` at the end of a double support with a pause), whatever the number of samples of a double support, if it is at least `n`. -/
def LoadRate (cfg : GenSettings K) (dT : K) (n : Nat) (r e : K) : Prop :=
  ∀ k, n ≤ k → transferRate cfg dT k (3 / 2) ≤ r ∧ transferRate cfg dT k (9 / 4) ≤ e

/-- The load of the left foot at the first sample of the walk is between zero and one and moves at a rate of at most `r`. -/
def StartsCalmly (r : K) (w : Walker K) : Prop := ∀ x, (loadsOf true w)[0]? = some x → 0 ≤ x.1 ∧ x.1 ≤ 1 ∧ |x.2| ≤ r

/-- A property of the walks holds of the ones that were replaced and of the one in execution. -/
def Everywhere (P : Walker K → K → Prop) (legs : List (Leg K)) (w : Walker K) (time : K) : Prop :=
  (∀ l ∈ legs, P l.walk l.start) ∧ P w time

end Uni.Spec
