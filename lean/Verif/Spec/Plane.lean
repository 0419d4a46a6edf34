import Verif.Model.Basic

/-! # Plane geometry used in statements (over ℝ) -/

set_option autoImplicit false

namespace Uni.Spec

/-- Euclidean distance. -/
noncomputable def dist (p q : Vec2 ℝ) : ℝ := Real.sqrt ((p.x - q.x) ^ 2 + (p.y - q.y) ^ 2)

/-- The point of coordinates `v` in the frame placed at `p` with heading `θ`. -/
noncomputable def inFrame (p : Vec2 ℝ) (θ : ℝ) (v : Vec2 ℝ) : Vec2 ℝ :=
  ⟨p.x + Real.cos θ * v.x - Real.sin θ * v.y, p.y + Real.sin θ * v.x + Real.cos θ * v.y⟩

end Uni.Spec
