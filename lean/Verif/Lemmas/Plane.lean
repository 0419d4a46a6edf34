import Verif.Spec.Plane

/-! Rotation algebra over ℝ. -/

set_option autoImplicit false

namespace Uni

theorem normSq_rot (θ : ℝ) (v : Vec2 ℝ) : (rot θ v).normSq = v.normSq := by
  simp only [rot, Vec2.normSq, cos_real, sin_real]
  have := Real.sin_sq_add_cos_sq θ
  linear_combination (v.x ^ 2 + v.y ^ 2) * this

theorem normSq_rotT (θ : ℝ) (v : Vec2 ℝ) : (rotT θ v).normSq = v.normSq := by
  simp only [rotT, Vec2.normSq, cos_real, sin_real]
  have := Real.sin_sq_add_cos_sq θ
  linear_combination (v.x ^ 2 + v.y ^ 2) * this

theorem rotT_rot (θ : ℝ) (v : Vec2 ℝ) : rotT θ (rot θ v) = v := by
  have := Real.sin_sq_add_cos_sq θ
  ext <;> simp only [rot, rotT, cos_real, sin_real]
  · linear_combination v.x * this
  · linear_combination v.y * this

theorem rot_rotT (θ : ℝ) (v : Vec2 ℝ) : rot θ (rotT θ v) = v := by
  have := Real.sin_sq_add_cos_sq θ
  ext <;> simp only [rot, rotT, cos_real, sin_real]
  · linear_combination v.x * this
  · linear_combination v.y * this

theorem rot_sub {K : Type*} [CommRing K] [Trig K] (θ : K) (v w : Vec2 K) :
    rot θ (v - w) = rot θ v - rot θ w := by
  ext <;> simp only [rot, Vec2.sub_x, Vec2.sub_y] <;> ring

theorem norm_eq_dist (p q : Vec2 ℝ) : (p - q).norm = Spec.dist p q := by
  simp [Vec2.norm, Vec2.normSq, Spec.dist, pow_two]

theorem normSq_nonneg (v : Vec2 ℝ) : 0 ≤ v.normSq := by
  unfold Vec2.normSq; nlinarith [sq_nonneg v.x, sq_nonneg v.y]

end Uni
