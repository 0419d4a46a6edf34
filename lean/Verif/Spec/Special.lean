import Verif.Model.Special
import Verif.Model.Rounded

/-! # Doubles that are numbers -/

set_option autoImplicit false

namespace Uni.Spec
variable {K : Type} [Field K] [LinearOrder K]

/-- The rounding of numbers; arbitrary where `fl` overflows. -/
def numbers (fl : K → Dbl K) (x : K) : K := (fl x).val

/-- The same step, with numbers. -/
def stepNumbers (s : Step (Dbl K)) : Step K := ⟨⟨s.position.x.val, s.position.y.val⟩, s.angle.val, s.impactTime.val, s.footName⟩

/-- The same footprint, with numbers. -/
def footNumbers (fp : FootPrint (Dbl K)) : FootPrint K := ⟨fp.steps.map stepNumbers, fp.footName⟩

/-- The same pointer. -/
def ptrNumbers (p : Ptr (Dbl K)) : Ptr K := ⟨p.left, p.index, stepNumbers p.step⟩

/-- The same settings, with numbers: without a number as the longest step there are no pauses. -/
def cfgNumbers (c : GenSettings (Dbl K)) : GenSettings K where
  switchPercentage := c.switchPercentage.val
  endSwitch := c.endSwitch.val
  nominalSwitchTime := c.nominalSwitchTime.val
  maxStepTime := c.maxStepTime.val
  nominalStepTime := c.nominalStepTime.val
  pauseActive := c.pauseActive && decide c.maxStepTime.IsNum
  mergeBegin := c.mergeBegin.val
  mergeEnd := c.mergeEnd.val

/-- What is required of the rounding of the numbers that results are: those between zero and one do not overflow, the order is respected,
and no result is lost. -/
structure DblRounding (fl : K → Dbl K) : Prop where
  unit : ∀ x, 0 ≤ x → x ≤ 1 → ∃ y, fl x = .num y ∧ 0 ≤ y ∧ y ≤ 1
  mono : ∀ x y, x ≤ y → Dbl.lt (fl y) (fl x) = false
  notNan : ∀ x, fl x ≠ .nan

/-- The rounding `f`, with results beyond `M` being infinite. -/
def overflow (f : K → K) (M : K) (x : K) : Dbl K := if M < f x then .inf false else if f x < -M then .inf true else .num (f x)

/-- Settings fit for use, as far as they are numbers: the share of the double support is in `[0, 1]`, and the longest step is not
infinitely short. -/
structure FitDbl (c : GenSettings (Dbl K)) : Prop where
  nonneg : Dbl.lt c.switchPercentage (.num 0) = false
  le_one : Dbl.lt (.num 1) c.switchPercentage = false
  longest : c.maxStepTime ≠ .inf true

/-- The settings of a new generator. -/
def newDbl : GenSettings (Dbl K) where
  switchPercentage := .num (1 / 2)
  endSwitch := .num 1
  nominalSwitchTime := .num 1
  maxStepTime := .num 10
  nominalStepTime := .num 2
  pauseActive := true
  mergeBegin := .num (1 / 2)
  mergeEnd := .num (1 / 2)

/-- The argument of `setSwitchOverSwingRatio` is a double. -/
def ArgsDbl (fl : K → Dbl K) : GenSettings.Op (Dbl K) → Prop
  | .setSwitchOverSwingRatio (.num r) => fl r = .num r
  | _ => True

/-- What is known of the result of the sort, if the comparison is a strict weak order. -/
def SortedDbl (left right : FootPrint (Dbl K)) (sorted : List (Ptr (Dbl K))) : Prop :=
  sorted.Perm (Ptr.ofFeet left right) ∧ sorted.Pairwise (fun p q => Dbl.lt q.step.impactTime p.step.impactTime = false)

/-- What `generateFromFootPrints` checks before it orders the steps. -/
def AcceptedDbl (left right : FootPrint (Dbl K)) (initTime dT : Dbl K) : Prop :=
  left.footName ≠ right.footName ∧ Dbl.le dT (.num 0) = false ∧
  ∃ l ls r rs, left.steps = l :: ls ∧ right.steps = r :: rs ∧ Dbl.lt initTime (Dbl.max' l.impactTime r.impactTime) = false

/-- The same phases, shifts and merge points. -/
def SamePhases {A B : Type} (s : Timing A) (t : Timing B) : Prop :=
  s.left = t.left ∧ s.right = t.right ∧ s.shifts = t.shifts ∧ s.merges = t.merges

end Uni.Spec

namespace Uni.Spec
variable {K : Type} [Field K] [LinearOrder K]

/-- A step with numbers, as doubles. -/
def stepDbl (s : Step K) : Step (Dbl K) := ⟨⟨.num s.position.x, .num s.position.y⟩, .num s.angle, .num s.impactTime, s.footName⟩

/-- A footprint with numbers, as doubles. -/
def footDbl (fp : FootPrint K) : FootPrint (Dbl K) := ⟨fp.steps.map stepDbl, fp.footName⟩

/-- A pointer to a step with numbers. -/
def ptrDbl (p : Ptr K) : Ptr (Dbl K) := ⟨p.left, p.index, stepDbl p.step⟩

/-- Settings with numbers, as doubles. -/
def cfgDbl (c : GenSettings K) : GenSettings (Dbl K) where
  switchPercentage := .num c.switchPercentage
  endSwitch := .num c.endSwitch
  nominalSwitchTime := .num c.nominalSwitchTime
  maxStepTime := .num c.maxStepTime
  nominalStepTime := .num c.nominalStepTime
  pauseActive := c.pauseActive
  mergeBegin := .num c.mergeBegin
  mergeEnd := .num c.mergeEnd

/-- Timings with numbers, as doubles. -/
def timingDbl (t : Timing K) : Timing (Dbl K) :=
  ⟨t.left, t.right, t.shifts, t.merges, t.leftIndex, t.rightIndex, .num t.prevTime, t.swingLeft, t.pastEnd⟩

/-- The outcome, its result mapped by `g`. -/
def outMap {A B : Type} (g : A → B) : Out A → Out B
  | .ok a => .ok (g a)
  | .fail => .fail
  | .ub w => .ub w

end Uni.Spec
