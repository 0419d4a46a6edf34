import Verif.Spec.Phases

/-! # Floating point numbers -/

set_option autoImplicit false

namespace Uni.Spec
variable {K : Type} [Field K] [LinearOrder K]

/-- What is required of a rounding: it respects the order, does nothing to its own results, and the numbers below are among them. -/
structure Rounding (fl : K → K) : Prop where
  mono : Monotone fl
  idem : ∀ x, fl (fl x) = fl x
  zero : fl 0 = 0
  one : fl 1 = 1
  half : fl (1 / 2) = 1 / 2
  two : fl 2 = 2
  double : ∀ x, fl x = x → fl (2 * x) = 2 * x

/-- The numbers of the format binary64 of IEEE 754 and, beyond the largest one, those with the same precision: 53 bits, smallest
exponent -1074 (which includes the subnormal numbers). -/
def Binary64 (y : K) : Prop := ∃ m e : ℤ, |m| < 2 ^ 53 ∧ -1074 ≤ e ∧ y = m * 2 ^ e

/-- Rounding to a nearest number of the format; ties in any way (IEEE 754 prescribes the even one). -/
def ToNearest (fl : K → K) : Prop := ∀ x, Binary64 (fl x) ∧ ∀ y, Binary64 y → |x - fl x| ≤ |x - y|

/-- Settings fit for use with rounded arithmetic; the ratio may be one. -/
structure ValidRounded (fl : K → K) (s : GenSettings K) : Prop where
  switch_nonneg : 0 ≤ s.switchPercentage
  switch_le : s.switchPercentage ≤ 1
  end_pos : 0 < s.endSwitch
  nominal_pos : 0 < s.nominalStepTime
  nominal : fl s.nominalStepTime = s.nominalStepTime
  nominal_le : s.nominalStepTime ≤ s.maxStepTime
  begin_nonneg : 0 ≤ s.mergeBegin
  begin_le : s.mergeBegin ≤ s.mergeEnd
  end_le : s.mergeEnd ≤ 1

/-- The arguments of the setters are floating point numbers. -/
def ArgsRounded (fl : K → K) : GenSettings.Op K → Prop
  | .setSwitchOverSwingRatio r => fl r = r
  | .setPauseConditions _ n => fl n = n
  | _ => True

/-- Accuracy of the arithmetic, for times up to `R` and a period `dT`: times are rounded with an error of at most `ε`, numbers of
samples with at most as much once converted to time, and whole numbers of samples are exact. -/
structure Accurate (fl : K → K) (R dT ε : K) : Prop where
  times : ∀ x, |x| ≤ 4 * R → |fl x - x| ≤ ε
  samples : ∀ x, |x * dT| ≤ 4 * R → |fl x - x| * dT ≤ ε
  counts : ∀ n : Nat, n * dT ≤ 4 * R → fl n = n

end Uni.Spec
