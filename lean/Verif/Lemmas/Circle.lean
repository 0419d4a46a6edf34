import Verif.Spec.Circle
import Verif.Model.BaseController
import Mathlib.Analysis.SpecialFunctions.Trigonometric.Bounds
import Mathlib.Analysis.Real.Pi.Bounds

/-! # Euler steps under a constant command against the circle -/

set_option autoImplicit false
set_option linter.unusedSectionVars false

namespace Uni.Circle
open Spec Complex

/-- A vector as a complex number. -/
noncomputable def cx (p : Vec2 ℝ) : ℂ := ⟨p.x, p.y⟩

theorem dist_cx (p q : Vec2 ℝ) : Spec.dist p q = ‖cx p - cx q‖ := by
  rw [norm_eq_sqrt_sq_add_sq]
  rfl

theorem exp_turn (θ : ℝ) : exp (I * θ) = ⟨Real.cos θ, Real.sin θ⟩ := by
  rw [mul_comm, exp_mul_I]
  apply Complex.ext <;> simp [Complex.cos_ofReal_re, Complex.sin_ofReal_re]

theorem cx_inFrame (p : Vec2 ℝ) (θ : ℝ) (v : Vec2 ℝ) : cx (inFrame p θ v) = cx p + exp (I * θ) * cx v := by
  rw [exp_turn]
  apply Complex.ext <;> simp [cx, inFrame] <;> ring

theorem cx_euler (d : ℝ) (s : UState ℝ) (v : Control ℝ) :
    cx (eulerStep d s v).position = cx s.position + d * (exp (I * s.angle) * cx ⟨v.forward, v.lateral⟩) := by
  rw [exp_turn]
  apply Complex.ext <;> simp only [cx, eulerStep, dynamics, add_re, add_im, mul_re, mul_im, ofReal_re, ofReal_im, Vec2.add_x, Vec2.add_y, Vec2.smul_x, Vec2.smul_y, cos_real, sin_real] <;> ring

/-- The distance of the unit circle from its tangent. -/
theorem tangent_error {x : ℝ} (h : |x| ≤ 1) : ‖exp (I * x) - 1 - I * x‖ ≤ 3 / 5 * x ^ 2 := by
  have e : exp (I * x) - 1 - I * x = ⟨Real.cos x - 1, Real.sin x - x⟩ := by
    rw [exp_turn]
    apply Complex.ext <;> simp
  rw [e, norm_eq_sqrt_sq_add_sq]
  apply Real.sqrt_le_iff.mpr
  refine ⟨by positivity, ?_⟩
  show (Real.cos x - 1) ^ 2 + (Real.sin x - x) ^ 2 ≤ _
  have c1 := Real.one_sub_sq_div_two_le_cos (x := x)
  have c2 := Real.cos_le_one x
  have s1 := Real.sin_bound h
  have hx2 : x ^ 2 ≤ 1 := by rw [← sq_abs]; nlinarith [abs_nonneg x]
  have hs : |Real.sin x - x| ≤ 1 / 5 * x ^ 2 := by
    have h3 : |x| ^ 3 ≤ x ^ 2 := by rw [← sq_abs]; nlinarith [abs_nonneg x, sq_nonneg (|x|)]
    have h5 : |x| ^ 5 ≤ x ^ 2 := by
      have : |x| ^ 5 = |x| ^ 3 * x ^ 2 := by rw [← sq_abs x]; ring
      rw [this]; nlinarith [sq_nonneg x]
    have t : |Real.sin x - x| ≤ |Real.sin x - (x - x ^ 3 / 6)| + |x ^ 3 / 6| := by
      have := abs_sub_le (Real.sin x) (x - x ^ 3 / 6) x
      refine this.trans (by
        have : x - x ^ 3 / 6 - x = -(x ^ 3 / 6) := by ring
        rw [this, abs_neg])
    rw [abs_div, abs_pow, abs_of_pos (by norm_num : (0 : ℝ) < 6)] at t
    linarith
  have a1 : (Real.cos x - 1) ^ 2 ≤ (x ^ 2 / 2) ^ 2 := by
    rw [sq_le_sq, abs_of_nonpos (by linarith), abs_of_nonneg (by positivity)]
    linarith
  have a2 : (Real.sin x - x) ^ 2 ≤ (1 / 5 * x ^ 2) ^ 2 := by
    rw [← sq_abs]
    exact pow_le_pow_left₀ (abs_nonneg _) hs 2
  nlinarith [sq_nonneg (x ^ 2)]

/-- The length of a chord. -/
theorem chord {x : ℝ} (h : |x| ≤ 1) : 2 / Real.pi * |x| ≤ ‖exp (I * x) - 1‖ := by
  rw [norm_exp_I_mul_ofReal_sub_one, Real.norm_eq_abs, abs_mul, abs_of_pos (by norm_num : (0 : ℝ) < 2)]
  have hpi := Real.pi_gt_three
  have : |Real.sin (x / 2)| = Real.sin (|x| / 2) := by
    rcases le_total 0 x with h0 | h0
    · rw [abs_of_nonneg h0] at h ⊢
      exact abs_of_nonneg (Real.sin_nonneg_of_nonneg_of_le_pi (by linarith) (by linarith))
    · rw [abs_of_nonpos h0] at h ⊢
      rw [neg_div, Real.sin_neg]
      exact abs_of_nonpos (Real.sin_nonpos_of_nonpos_of_neg_pi_le (by linarith) (by linarith))
  rw [this]
  have := Real.mul_le_sin (x := |x| / 2) (by positivity) (by linarith)
  calc 2 / Real.pi * |x| = 2 * (2 / Real.pi * (|x| / 2)) := by ring
    _ ≤ _ := by linarith

variable {u : UState ℝ} {v : Control ℝ}

/-- The radius, as a complex number. -/
theorem cx_radius (v : Control ℝ) : cx ⟨v.lateral / v.angular, -(v.forward / v.angular)⟩ =
    -I * (cx ⟨v.forward, v.lateral⟩ / v.angular) := by
  apply Complex.ext <;> simp [cx, Complex.div_re, Complex.div_im, Complex.normSq] <;> ring_nf
  all_goals
    by_cases h : v.angular = 0
    · simp [h]
    · field_simp

theorem cx_goRound (u : UState ℝ) (v : Control ℝ) (s : ℝ) : cx (goRound u v s).position =
    cx (centre u v) + exp (I * (u.angle + s * v.angular : ℝ)) * (-I * (cx ⟨v.forward, v.lateral⟩ / v.angular)) := by
  rw [goRound, cx_inFrame, cx_radius]

/-- What a step of duration `d` does to the error. -/
theorem error_step (hw : v.angular ≠ 0) (s d : ℝ) {x : UState ℝ} (ha : x.angle = u.angle + s * v.angular) :
    cx (eulerStep d x v).position - cx (goRound u v (s + d)).position = (cx x.position - cx (goRound u v s).position) +
      exp (I * (u.angle + s * v.angular : ℝ)) *
        (I * (cx ⟨v.forward, v.lateral⟩ / v.angular) * (exp (I * (d * v.angular : ℝ)) - 1 - I * (d * v.angular : ℝ))) := by
  have hw' : (v.angular : ℂ) ≠ 0 := by exact_mod_cast hw
  have e : exp (I * (u.angle + (s + d) * v.angular : ℝ)) =
      exp (I * (u.angle + s * v.angular : ℝ)) * exp (I * (d * v.angular : ℝ)) := by
    rw [← exp_add]; congr 1; push_cast; ring
  rw [cx_euler, cx_goRound, cx_goRound, ha, e]
  generalize exp (I * (u.angle + s * v.angular : ℝ)) = q
  generalize exp (I * (d * v.angular : ℝ)) = c
  generalize cx ⟨v.forward, v.lateral⟩ = w
  have hI : I * I = -1 := I_mul_I
  push_cast
  field_simp
  linear_combination (q * w * d * v.angular) * hI

theorem speed_cx (v : Control ℝ) : ‖cx ⟨v.forward, v.lateral⟩‖ = speedOf v := by
  rw [norm_eq_sqrt_sq_add_sq]; rfl

/-- The error made in one step. -/
theorem one_error (hw : v.angular ≠ 0) {d : ℝ} (hd : |d * v.angular| ≤ 1) :
    ‖I * (cx ⟨v.forward, v.lateral⟩ / v.angular) * (exp (I * (d * v.angular : ℝ)) - 1 - I * (d * v.angular : ℝ))‖ ≤
      3 / 5 * speedOf v * |d| * |d * v.angular| := by
  have h := tangent_error hd
  rw [norm_mul, norm_mul, norm_I, one_mul, norm_div, speed_cx, norm_real, Real.norm_eq_abs]
  have hp : 0 < |v.angular| := abs_pos.mpr hw
  have hs : 0 ≤ speedOf v / |v.angular| := div_nonneg (Real.sqrt_nonneg _) hp.le
  refine (mul_le_mul_of_nonneg_left h hs).trans (le_of_eq ?_)
  rw [← sq_abs (d * v.angular), abs_mul]
  field_simp

end Uni.Circle
