import Verif.Model.MinJerk

/-! # `iDynTree::CubicSpline` with two and three knots (external contract)

The spline through the given knots with the given end velocities that has a continuous second derivative.  `setData` fails
unless the times of the knots are strictly increasing.  `evaluatePoint` is used in this repository only between the first and
the last knot. -/

set_option autoImplicit false

namespace Uni

variable {K : Type} [Field K] [LinearOrder K]

/-- The cubic polynomial with the given values and velocities at the ends of an interval of length `T`, at the time `t` from
its beginning. -/
def hermite (y0 v0 y1 v1 T t : K) : Motion K :=
  let c2 := (3 * (y1 - y0) / T - 2 * v0 - v1) / T
  let c3 := (v0 + v1 - 2 * (y1 - y0) / T) / T ^ 2
  ⟨y0 + v0 * t + c2 * t ^ 2 + c3 * t ^ 3, v0 + 2 * c2 * t + 3 * c3 * t ^ 2, 2 * c2 + 6 * c3 * t⟩

/-- Two knots at the times 0 and `T`. -/
def spline2 (y0 v0 y1 v1 T : K) : Out (K → Motion K) :=
  if T ≤ 0 then .fail else .ok (hermite y0 v0 y1 v1 T)

/-- The velocity in the middle knot: the one that makes the second derivative continuous. -/
def midVelocity (y0 v0 y1 y2 v2 T0 T1 : K) : K :=
  (3 / (T0 * T1) * (T0 ^ 2 * (y2 - y1) + T1 ^ 2 * (y1 - y0)) - T1 * v0 - T0 * v2) / (2 * (T0 + T1))

/-- The two polynomials of a spline with knots at 0, `t1` and `t2`. -/
def spline3At (y0 v0 y1 y2 v2 t1 t2 t : K) : Motion K :=
  let v1 := midVelocity y0 v0 y1 y2 v2 t1 (t2 - t1)
  if t ≤ t1 then hermite y0 v0 y1 v1 t1 t else hermite y1 v1 y2 v2 (t2 - t1) (t - t1)

/-- Three knots at the times 0, `t1` and `t2`. -/
def spline3 (y0 v0 y1 y2 v2 t1 t2 : K) : Out (K → Motion K) :=
  if t1 ≤ 0 ∨ t2 ≤ t1 then .fail else .ok (spline3At y0 v0 y1 y2 v2 t1 t2)

end Uni
