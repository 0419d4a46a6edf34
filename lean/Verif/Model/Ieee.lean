import Mathlib.Data.Rat.Floor
import Mathlib.Algebra.Order.Round
import Mathlib.Tactic.Linarith
import Mathlib.Tactic.Positivity

/-! # Rounding of doubles

The only place where the rounding of `double` is modelled: the loop of `computeLocalZMP` whose number of iterations is the
rounded quotient of a rounded product (src/ZMPTrajectoryGenerator.cpp:303-338).  Values are rationals.  Exponents are not bounded,
i.e. overflow and underflow are not modelled. -/

set_option autoImplicit false

namespace Uni.Ieee

/-- The numbers with 53 significant bits. -/
def Double (y : ℚ) : Prop := y = 0 ∨ ∃ m e : ℤ, 2 ^ 52 ≤ |m| ∧ |m| < 2 ^ 53 ∧ y = m * 2 ^ e

/-- `y` is `x` rounded to the nearest double, ties to even (IEEE 754, default mode). -/
structure Nearest (x y : ℚ) : Prop where
  double : Double y
  near : ∀ y', Double y' → |x - y| ≤ |x - y'|
  even : ∀ y', Double y' → |x - y'| = |x - y| → y' ≠ y → ∃ m e : ℤ, 2 ^ 52 ≤ |m| ∧ |m| < 2 ^ 53 ∧ y = m * 2 ^ e ∧ Even m

/-- The loop of src/ZMPTrajectoryGenerator.cpp:333-338 for a phase of `n` samples without a pause writes `k` samples: lines
302, 316-318 compute `n * dT` and, unless the phase is the last one, halve it (which is exact); line 333 divides by `dT`. -/
def BackLoop (last : Bool) (dT : ℚ) (n k : Nat) : Prop :=
  ∃ p q : ℚ, Nearest (n * dT) p ∧ Nearest ((if last then p else p / 2) / dT) q ∧ k = ⌈q⌉.toNat

end Uni.Ieee
