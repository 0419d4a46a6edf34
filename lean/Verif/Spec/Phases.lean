import Verif.Model.Generator

/-! # What the phases of a walk must look like

A walk is a list of slots, one per step: a double support of `ds` samples followed by a single support of `ss` samples
during which the foot `left` swings.  It ends with a double support of `rest` samples, in which the weight comes back
to the middle. -/

set_option autoImplicit false

namespace Uni.Spec

/-- One step of a walk. -/
structure Slot where
  left : Bool
  ds : Nat
  ss : Nat
  deriving DecidableEq, Repr

/-- A walk: the steps, the foot that moved last, the length of the final double support. -/
structure Timetable where
  slots : List Slot
  lastLeft : Bool
  rest : Nat
  deriving DecidableEq, Repr

/-- A run of equal phases and its number of samples. -/
abbrev Seg := Phase × Nat

/-- The two runs of a slot as seen by a foot. -/
def Slot.segs (foot : Bool) (s : Slot) : List Seg :=
  if s.left = foot then [(.switchOut, s.ds), (.swing, s.ss)] else [(.switchIn, s.ds), (.stance, s.ss)]

/-- All runs of a walk as seen by a foot (`true`: left). -/
def Timetable.segs (foot : Bool) (t : Timetable) : List Seg :=
  t.slots.flatMap (Slot.segs foot) ++ [(if t.lastLeft = foot then .switchIn else .switchOut, t.rest)]

/-- One phase per sample. -/
def expand (l : List Seg) : List Phase := l.flatMap fun s => List.replicate s.2 s.1

/-- The indices at which the runs end. -/
def ends (start : Nat) : List Seg → List Nat
  | [] => []
  | s :: l => (start + s.2) :: ends (start + s.2) l

/-- Total number of samples. -/
def total (l : List Seg) : Nat := (l.map Prod.snd).sum

/-- The phases of a foot. -/
def Timetable.phases (foot : Bool) (t : Timetable) : List Phase := expand (t.segs foot)

/-- The indices at which a phase ends, preceded by zero. -/
def Timetable.shifts (t : Timetable) : List Nat := 0 :: ends 0 (t.segs true)

/-- Every phase lasts at least a sample. -/
def Timetable.Positive (t : Timetable) : Prop := (∀ s ∈ t.slots, 0 < s.ds ∧ 0 < s.ss) ∧ 0 < t.rest

/-- The foot that moves last is that of the last slot, if there is one. -/
def Timetable.Coherent (t : Timetable) : Prop := ∀ s, t.slots.getLast? = some s → t.lastLeft = s.left

/-- Phases in which the two feet can be at the same time. -/
def Complementary : Phase → Phase → Prop
  | .swing, .stance => True
  | .stance, .swing => True
  | .switchIn, .switchOut => True
  | .switchOut, .switchIn => True
  | _, _ => False

/-- Settings of the timings fit for use. -/
structure ValidTimings {K : Type} [Field K] [LinearOrder K] (s : GenSettings K) : Prop where
  switch_pos : 0 < s.switchPercentage
  switch_lt : s.switchPercentage < 1
  end_pos : 0 < s.endSwitch
  nominal_pos : 0 < s.nominalStepTime
  nominal_le : s.nominalStepTime ≤ s.maxStepTime
  begin_nonneg : 0 ≤ s.mergeBegin
  begin_le : s.mergeBegin ≤ s.mergeEnd
  end_le : s.mergeEnd ≤ 1

/-- Steps that can be executed one after the other from `t0`: the steps after the first of each foot land after `t0`, in the
order of the footprint, and any two of them are separated by at least `gap`. -/
structure WellSpaced {K : Type} [Add K] [LE K] [LT K] (gap t0 : K) (left right : List (Step K)) : Prop where
  after : ∀ s ∈ left.tail ++ right.tail, t0 < s.impactTime
  orderL : left.tail.Pairwise (fun a b => a.impactTime + gap ≤ b.impactTime)
  orderR : right.tail.Pairwise (fun a b => a.impactTime + gap ≤ b.impactTime)
  cross : ∀ a ∈ left.tail, ∀ b ∈ right.tail, a.impactTime + gap ≤ b.impactTime ∨ b.impactTime + gap ≤ a.impactTime

/-- Requests the generator refuses before it computes anything: a foot without steps, feet with the same name, a sampling
period that is not positive, a walk that would begin before the feet have touched the ground. -/
def Rejected {K : Type} [Zero K] [LE K] [LT K] (left right : FootPrint K) (t dT : K) : Prop :=
  left.steps = [] ∨ right.steps = [] ∨ left.footName = right.footName ∨ dT ≤ 0 ∨
    ∃ s, (left.steps.head? = some s ∨ right.steps.head? = some s) ∧ t < s.impactTime

/-- What the getters must return together: one entry per sample in each vector, a foot is in contact unless it swings, the
left foot is fixed in stance and when it is about to leave the ground. -/
def SameHorizon (left right : List Phase) (leftContact rightContact leftFixed : List Bool) : Prop :=
  left.length = right.length ∧ leftContact.length = left.length ∧ rightContact.length = left.length ∧
  leftFixed.length = left.length ∧
  ∀ (j : Nat) (a b : Phase), left[j]? = some a → right[j]? = some b →
    leftContact[j]? = some (a != .swing) ∧ rightContact[j]? = some (b != .swing) ∧
    leftFixed[j]? = some (a == .stance || a == .switchOut)

end Uni.Spec
