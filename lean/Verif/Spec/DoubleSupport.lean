import Mathlib.Analysis.Complex.Trigonometric

/-! # The ZMP between two single supports -/

set_option autoImplicit false

namespace Uni.Spec

/-! Half the product of the frequency and of the duration of the double support is called `y`; the time `x` goes from -1/2 to 1/2. -/

noncomputable def crossP (y : ℝ) : ℝ := 3 / 2 * Real.cosh y - y * Real.sinh y / 2 - 3 * Real.sinh y / (2 * y)
noncomputable def crossQ (y : ℝ) : ℝ := y * Real.cosh y - Real.sinh y
noncomputable def crossR (y : ℝ) : ℝ := -(3 / 4) * Real.sinh y + y * Real.cosh y / 4 + 3 * (Real.cosh y - 1) / (4 * y)
noncomputable def crossU (y : ℝ) : ℝ := 1 / 2 - Real.cosh y / 2 + y * Real.sinh y / 2

/-- How far along the segment from the ZMP of the former support to that of the latter. -/
noncomputable def crossAlong (y x : ℝ) : ℝ := 1 / 2 + x + (1 - 4 * x ^ 2) * (crossR y + crossU y * x)

/-- How much of the distance of the DCM from the middle of the segment. -/
noncomputable def crossAside (y x : ℝ) : ℝ := (1 - 4 * x ^ 2) * (crossP y - crossQ y * x)

/-! The double supports at the two ends of a walk.  The product of the frequency and of the duration of the motion is called `a`; the
time `x` goes from 0 to 1. -/

/-- The last double support: weight of the position of the DCM at its beginning, with respect to the ZMP of the last support. -/
noncomputable def brakeOwn (a x : ℝ) : ℝ := 2 * x * (1 - x) * (2 - x) + 6 * x * (1 - x) / a + a * x * (1 - x) ^ 2

/-- The last double support: weight of the position in which the DCM comes to rest. -/
noncomputable def brakeRest (a x : ℝ) : ℝ := x ^ 2 * (3 - 2 * x) - 6 * x * (1 - x) / a

/-- How far along the segment from the ZMP of the last support to that of the foot that lands, in the last double support, if `c` is how
far the DCM is at its beginning. -/
noncomputable def settle (a c x : ℝ) : ℝ := c * brakeOwn a x + brakeRest a x / 2

/-- The first double support: weights of the position and of the velocity of the DCM at its beginning, and of its position at the end,
with respect to the ZMP of the first support. -/
noncomputable def startOwn (a x : ℝ) : ℝ := (1 - x) ^ 2 * (1 + 2 * x) + 6 * x * (1 - x) / a
noncomputable def startSpeed (a x : ℝ) : ℝ := (1 - x) * (a * x * (1 - x) - 1 + 3 * x)
noncomputable def startNext (a x : ℝ) : ℝ := x * (1 - x) * (2 + 2 * x - a * x - 6 / a)

end Uni.Spec
