import Verif.Spec.Plane

/-! # What an ellipse is (over ℝ) -/

set_option autoImplicit false

namespace Uni.Spec

/-- `p` belongs to the filled ellipse of semi-axes `a`, `b`, rotated by `θ`, centred in `c`. -/
def InEllipse (a b θ : ℝ) (c p : Vec2 ℝ) : Prop :=
  ∃ u v : ℝ, u ^ 2 + v ^ 2 ≤ 1 ∧ p = inFrame c θ ⟨a * u, b * v⟩

/-- `p` is on the boundary of that ellipse. -/
def OnEllipse (a b θ : ℝ) (c p : Vec2 ℝ) : Prop :=
  ∃ u v : ℝ, u ^ 2 + v ^ 2 = 1 ∧ p = inFrame c θ ⟨a * u, b * v⟩

/-- The point at parameter `s` of the line through `p` (s = 0) and `q` (s = 1). -/
def lineAt (p q : Vec2 ℝ) (s : ℝ) : Vec2 ℝ := ⟨p.x + s * (q.x - p.x), p.y + s * (q.y - p.y)⟩

end Uni.Spec
