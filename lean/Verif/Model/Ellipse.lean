import Verif.Model.Basic

/-! # `FreeSpaceEllipse` (src/FreeSpaceEllipse.cpp) -/

set_option autoImplicit false

namespace Uni
variable {K : Type*}

/-- 2x2 matrix (`iDynTree::MatrixFixSize<2,2>`). -/
@[ext] structure Mat2 (K : Type*) where
  m00 : K
  m01 : K
  m10 : K
  m11 : K
  deriving DecidableEq, Repr

namespace Mat2
/-- matrix-vector product -/
def mulVec [Mul K] [Add K] (m : Mat2 K) (v : Vec2 K) : Vec2 K :=
  ⟨m.m00 * v.x + m.m01 * v.y, m.m10 * v.x + m.m11 * v.y⟩
/-- `Eigen::Matrix2d::determinant` -/
def det [Mul K] [Sub K] (m : Mat2 K) : K := m.m00 * m.m11 - m.m01 * m.m10
/-- `Eigen::Matrix2d::inverse` (adjugate over determinant) -/
def inv [Field K] (m : Mat2 K) : Mat2 K :=
  ⟨m.m11 / m.det, -m.m01 / m.det, -m.m10 / m.det, m.m00 / m.det⟩
/-- identity -/
def one [Zero K] [One K] : Mat2 K := ⟨1, 0, 0, 1⟩
end Mat2

/-- `class FreeSpaceEllipse` (include/FreeSpaceEllipse.h). -/
@[ext] structure Ellipse (K : Type*) where
  C : Mat2 K
  Cinv : Mat2 K
  d : Vec2 K
  semiMajor : K
  semiMinor : K
  angle : K
  isSet : Bool
  deriving DecidableEq, Repr

namespace Ellipse
variable [Field K] [LinearOrder K] [Trig K]

/-- The literal `1e-10`. -/
def eps10 : K := 1 / 10 ^ 10
/-- The literal `1e-15`. -/
def eps15 : K := 1 / 10 ^ 15

/-- `FreeSpaceEllipse::clear`, src/FreeSpaceEllipse.cpp:361-370, and the default constructor
(lines 173-176). -/
def clear : Ellipse K := ⟨Mat2.one, Mat2.one, 0, 1, 1, 0, false⟩

/-- The image matrix `R(θ) diag(a,b)`, src/FreeSpaceEllipse.cpp:56-67. -/
def axesMatrix (a b θ : K) : Mat2 K :=
  ⟨Trig.cos θ * a, -Trig.sin θ * b, Trig.sin θ * a, Trig.cos θ * b⟩

/-- `FreeSpaceEllipse::setEllipse(a, b, theta, centerOffsetX, centerOffsetY)`,
src/FreeSpaceEllipse.cpp:48-79. -/
def setEllipse (e : Ellipse K) (a b θ cx cy : K) : Bool × Ellipse K :=
  if a < eps10 ∨ b < eps10 then (false, e)
  else (true, ⟨axesMatrix a b θ, (axesMatrix a b θ).inv, ⟨cx, cy⟩, a, b, θ, true⟩)

/-- `FreeSpaceEllipse::setEllipse(imageMatrix, centerOffset)`, src/FreeSpaceEllipse.cpp:111-159.
The sign of `b` in the first branch is the code's (line 134). -/
def setEllipseMatrix (e : Ellipse K) (M : Mat2 K) (c : Vec2 K) : Bool × Ellipse K :=
  if M.det < eps10 then (false, e)
  else
    let θ := Trig.atan2 M.m10 M.m00
    let s := Trig.sin θ
    let co := Trig.cos θ
    let a := if |co| < |s| then M.m10 / s else M.m00 / co
    let b := if |co| < |s| then M.m01 / s else M.m11 / co
    if eps10 < |M.det - a * b| then (false, e)
    else (true, ⟨M, M.inv, c, a, b, θ, true⟩)

/-- `FreeSpaceEllipse::computeGenerators`, src/FreeSpaceEllipse.cpp:161-166. -/
def computeGenerators (e : Ellipse K) (p : Vec2 K) : Vec2 K := e.Cinv.mulVec (p - e.d)

/-- Map from the unit-disc space back to the plane (src/FreeSpaceEllipse.cpp:201, 299-300). -/
def image (e : Ellipse K) (g : Vec2 K) : Vec2 K := e.C.mulVec g + e.d

/-- `FreeSpaceEllipse::isPointInside`, src/FreeSpaceEllipse.cpp:38-46 with `generatorsModule`
(168-171). -/
def isPointInside (e : Ellipse K) (p : Vec2 K) : Bool :=
  if !e.isSet then true else decide ((e.computeGenerators p).norm ≤ 1)

/-- The part of `getIntersectionsWithLine` working in the unit-disc space: intersections of the line
through `p` and `q` with the unit circle, src/FreeSpaceEllipse.cpp:224-296. -/
def circleLine (p q : Vec2 K) : Option (Vec2 K × Vec2 K) :=
  let alpha := p.y - q.y
  let beta := q.x - p.x
  let gamma := p.x * q.y - q.x * p.y
  if |alpha| < eps15 ∧ |beta| < eps15 then none
  else if |alpha| < eps15 then
    let y := -gamma / beta
    if |y| ≤ 1 then
      let x := Trig.sqrt (1 - y * y)
      some (⟨x, y⟩, ⟨-x, y⟩)
    else none
  else if |beta| < eps15 then
    let x := -gamma / alpha
    if |x| ≤ 1 then
      let y := Trig.sqrt (1 - x * x)
      some (⟨x, y⟩, ⟨x, -y⟩)
    else none
  else
    let sigma := -alpha / beta
    let delta := -gamma / beta
    let aPoly := 1 + sigma * sigma
    let bPoly := 2 * delta * sigma
    let cPoly := delta * delta - 1
    let determinant := bPoly * bPoly - 4 * aPoly * cPoly
    if determinant < 0 then none
    else
      let x1 := (-bPoly + Trig.sqrt determinant) / (2 * aPoly)
      let x2 := (-bPoly - Trig.sqrt determinant) / (2 * aPoly)
      some (⟨x1, sigma * x1 + delta⟩, ⟨x2, sigma * x2 + delta⟩)

/-- `FreeSpaceEllipse::getIntersectionsWithLine`, src/FreeSpaceEllipse.cpp:208-302. -/
def getIntersectionsWithLine (e : Ellipse K) (p q : Vec2 K) : Option (Vec2 K × Vec2 K) :=
  if !e.isSet then none
  else (circleLine (e.computeGenerators p) (e.computeGenerators q)).map
    fun i => (e.image i.1, e.image i.2)

/-- `FreeSpaceEllipse::getClosestIntersectionsWithLine`, src/FreeSpaceEllipse.cpp:304-324. -/
def getClosestIntersectionsWithLine (e : Ellipse K) (p q : Vec2 K) : Option (Vec2 K) :=
  (e.getIntersectionsWithLine p q).map fun i =>
    if (q - i.1).norm < (q - i.2).norm then i.1 else i.2

/-- `FreeSpaceEllipse::projectPointInsideEllipse`, src/FreeSpaceEllipse.cpp:178-206.  The division by
the module is only reached when the module exceeds 1. -/
def projectPointInsideEllipse (e : Ellipse K) (testPoint projectionPoint : Vec2 K) : Vec2 K :=
  if !e.isSet then testPoint
  else
    let g := e.computeGenerators testPoint
    if g.norm ≤ 1 then testPoint
    else
      match e.getClosestIntersectionsWithLine projectionPoint testPoint with
      | some i => i
      | none => e.image ⟨g.x / g.norm, g.y / g.norm⟩

/-- `FreeSpaceEllipse::getTangentVector`, src/FreeSpaceEllipse.cpp:326-351.  `R_pi_2(1,1)` is never
assigned (line 332 assigns (0,0) a second time): its value is the parameter `garbage`. -/
def getTangentVector (e : Ellipse K) (garbage : K) (p : Vec2 K) : Vec2 K :=
  let g := e.computeGenerators p
  let r : Mat2 K := ⟨0, -1, 1, garbage⟩
  let t := e.C.mulVec (r.mulVec g)
  if eps15 < t.norm then ⟨t.x / t.norm, t.y / t.norm⟩ else 0

/-- How a user obtains an ellipse with the axes form of `setEllipse`, or leaves it unset. -/
def FromAxes (e : Ellipse K) : Prop :=
  e.isSet = false ∨ ∃ e₀ a b θ cx cy, setEllipse e₀ a b θ cx cy = (true, e)

end Ellipse
end Uni
