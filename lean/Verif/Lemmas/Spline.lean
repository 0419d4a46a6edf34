import Verif.Model.Spline
import Verif.Lemmas.Kinematic
import Mathlib.Analysis.Calculus.Deriv.Mul
import Mathlib.Analysis.Calculus.Deriv.Pow
import Mathlib.Tactic.Linarith
import Mathlib.Tactic.FieldSimp

/-! # Cubic splines -/

set_option autoImplicit false
set_option linter.unusedSectionVars false

namespace Uni

section
variable {K : Type} [Field K] [LinearOrder K] [IsStrictOrderedRing K]

theorem hermite_zero (y0 v0 y1 v1 T : K) : (hermite y0 v0 y1 v1 T 0).pos = y0 ∧ (hermite y0 v0 y1 v1 T 0).vel = v0 := by
  simp [hermite]

theorem hermite_end (y0 v0 y1 v1 : K) {T : K} (hT : T ≠ 0) :
    (hermite y0 v0 y1 v1 T T).pos = y1 ∧ (hermite y0 v0 y1 v1 T T).vel = v1 := by
  constructor <;> simp only [hermite] <;> field_simp <;> ring

/-- The values of the polynomial in terms of the fraction of the interval. -/
theorem hermite_pos (y0 v0 y1 v1 : K) {T : K} (hT : T ≠ 0) (t : K) :
    (hermite y0 v0 y1 v1 T t).pos = y0 * ((1 - t / T) ^ 2 * (1 + 2 * (t / T))) + v0 * T * (t / T * (1 - t / T) ^ 2) +
      y1 * ((t / T) ^ 2 * (3 - 2 * (t / T))) - v1 * T * ((t / T) ^ 2 * (1 - t / T)) := by
  simp only [hermite]
  field_simp
  ring

/-- The blending of a cubic that starts and ends at rest. -/
def ease (s : K) : K := s ^ 2 * (3 - 2 * s)

theorem ease_zero : ease (0 : K) = 0 := by simp [ease]
theorem ease_one : ease (1 : K) = 1 := by norm_num [ease]

theorem ease_lt {a b : K} (ha : 0 ≤ a) (hab : a < b) (hb : b ≤ 1) : ease a < ease b := by
  have hd : 0 < b - a := sub_pos.mpr hab
  have key : ease b - ease a = (b - a) * ((a * (1 - a)) + 4 * ((a + b) / 2 * (1 - (a + b) / 2)) + b * (1 - b)) := by
    unfold ease; ring
  have h1 : 0 < (a + b) / 2 * (1 - (a + b) / 2) := mul_pos (by linarith) (by linarith)
  have h2 : 0 ≤ a * (1 - a) := mul_nonneg ha (by linarith)
  have h3 : 0 ≤ b * (1 - b) := mul_nonneg (by linarith) (by linarith)
  have := mul_pos hd (by linarith : 0 < (a * (1 - a)) + 4 * ((a + b) / 2 * (1 - (a + b) / 2)) + b * (1 - b))
  linarith

theorem ease_nonneg {s : K} (_h0 : 0 ≤ s) (h1 : s ≤ 1) : 0 ≤ ease s := mul_nonneg (sq_nonneg _) (by linarith)

theorem ease_le_one {s : K} (h0 : 0 ≤ s) (h1 : s ≤ 1) : ease s ≤ 1 := by
  rcases eq_or_lt_of_le h1 with rfl | h
  · rw [ease_one]
  · rw [← ease_one]; exact (ease_lt h0 h (le_refl _)).le

theorem ease_half : ease (1 / 2 : K) = 1 / 2 := by norm_num [ease]

theorem hermite_rest (y0 y1 : K) {T : K} (hT : T ≠ 0) (t : K) :
    (hermite y0 0 y1 0 T t).pos = y0 + ease (t / T) * (y1 - y0) := by
  rw [hermite_pos _ _ _ _ hT]; unfold ease; ring

theorem spline2_ok (y0 v0 y1 v1 : K) {T : K} (hT : 0 < T) : spline2 y0 v0 y1 v1 T = .ok (hermite y0 v0 y1 v1 T) :=
  if_neg (not_le.mpr hT)

theorem spline3_ok (y0 v0 y1 y2 v2 : K) {t1 t2 : K} (h0 : 0 < t1) (h1 : t1 < t2) :
    spline3 y0 v0 y1 y2 v2 t1 t2 = .ok (spline3At y0 v0 y1 y2 v2 t1 t2) :=
  if_neg (by rw [not_or, not_le, not_le]; exact ⟨h0, h1⟩)

/-- The second derivative is continuous in the middle knot. -/
theorem spline3_acc (y0 v0 y1 y2 v2 : K) {T0 T1 : K} (h0 : 0 < T0) (h1 : 0 < T1) :
    (hermite y0 v0 y1 (midVelocity y0 v0 y1 y2 v2 T0 T1) T0 T0).acc =
      (hermite y1 (midVelocity y0 v0 y1 y2 v2 T0 T1) y2 v2 T1 0).acc := by
  have a := h0.ne'
  have b := h1.ne'
  have c : 2 * (T0 + T1) ≠ 0 := by positivity
  simp only [hermite, midVelocity]
  field_simp
  ring

end

/-- Two differentiable functions that agree up to the derivative can be joined. -/
theorem hasDerivAt_glue {f g : ℝ → ℝ} {d t1 : ℝ} (hf : HasDerivAt f d t1) (hg : HasDerivAt g d t1) (e : f t1 = g t1) :
    HasDerivAt (fun t => if t ≤ t1 then f t else g t) d t1 := by
  rw [← hasDerivWithinAt_univ, ← Set.Iic_union_Ici (a := t1)]
  refine HasDerivWithinAt.union (hf.hasDerivWithinAt.congr ?_ ?_) (hg.hasDerivWithinAt.congr ?_ ?_)
  · intro x hx; simp only [if_pos (Set.mem_Iic.mp hx)]
  · simp
  · intro x hx
    rcases eq_or_lt_of_le (Set.mem_Ici.mp hx) with rfl | h
    · simp [e]
    · simp only [if_neg (not_le.mpr h)]
  · simp [e]

theorem hasDerivAt_join {f g : ℝ → ℝ} {f' g' : ℝ → ℝ} {t1 : ℝ} (hf : ∀ t, HasDerivAt f (f' t) t) (hg : ∀ t, HasDerivAt g (g' t) t)
    (e : f t1 = g t1) (e' : f' t1 = g' t1) (t : ℝ) :
    HasDerivAt (fun t => if t ≤ t1 then f t else g t) (if t ≤ t1 then f' t else g' t) t := by
  rcases lt_trichotomy t t1 with h | h | h
  · rw [if_pos h.le]
    refine (hf t).congr_of_eventuallyEq ?_
    filter_upwards [Iio_mem_nhds h] with x hx
    rw [if_pos (le_of_lt hx)]
  · subst h
    rw [if_pos (le_refl _)]
    exact hasDerivAt_glue (hf t) (e' ▸ hg t) e
  · rw [if_neg (not_le.mpr h)]
    refine (hg t).congr_of_eventuallyEq ?_
    filter_upwards [Ioi_mem_nhds h] with x hx
    rw [if_neg (not_le.mpr hx)]

theorem hermite_smooth (y0 v0 y1 v1 T t : ℝ) : Smooth (fun t => hermite y0 v0 y1 v1 T t) t := by
  have pw : ∀ n : ℕ, HasDerivAt (fun t : ℝ => t ^ n) (n * t ^ (n - 1)) t := fun n => hasDerivAt_pow n t
  have id := hasDerivAt_id' t
  constructor
  · simp only [hermite]
    refine ((((id.const_mul v0).const_add y0).fun_add ((pw 2).const_mul _)).fun_add ((pw 3).const_mul _)).congr_deriv ?_
    push_cast; ring
  · simp only [hermite]
    refine (((id.const_mul _).const_add v0).fun_add ((pw 2).const_mul _)).congr_deriv ?_
    push_cast; ring

theorem spline3_smooth (y0 v0 y1 y2 v2 : ℝ) {t1 t2 : ℝ} (h0 : 0 < t1) (h1 : t1 < t2) (t : ℝ) :
    Smooth (fun t => spline3At y0 v0 y1 y2 v2 t1 t2 t) t := by
  have hT : 0 < t2 - t1 := sub_pos.mpr h1
  set v1 := midVelocity y0 v0 y1 y2 v2 t1 (t2 - t1) with hv
  have sm := fun t => hermite_smooth y0 v0 y1 v1 t1 t
  have sm' : ∀ t, Smooth (fun t => hermite y1 v1 y2 v2 (t2 - t1) (t - t1)) t := fun t =>
    ⟨(hermite_smooth y1 v1 y2 v2 (t2 - t1) (t - t1)).pos.comp_sub_const t t1,
      (hermite_smooth y1 v1 y2 v2 (t2 - t1) (t - t1)).vel.comp_sub_const t t1⟩
  have e0 := hermite_end y0 v0 y1 v1 h0.ne'
  have e1 := hermite_zero y1 v1 y2 v2 (t2 - t1)
  have e2 := spline3_acc y0 v0 y1 y2 v2 h0 hT
  rw [← hv] at e2
  constructor
  · have := hasDerivAt_join (t1 := t1) (fun t => (sm t).pos) (fun t => (sm' t).pos) (by rw [sub_self, e0.1, e1.1])
      (by rw [sub_self, e0.2, e1.2]) t
    refine (this.congr_deriv ?_).congr_of_eventuallyEq (Filter.Eventually.of_forall fun t => ?_)
    · simp only [spline3At]; split_ifs <;> rfl
    · simp only [spline3At]; split_ifs <;> rfl
  · have := hasDerivAt_join (t1 := t1) (fun t => (sm t).vel) (fun t => (sm' t).vel) (by rw [sub_self, e0.2, e1.2])
      (by rw [sub_self]; exact e2) t
    refine (this.congr_deriv ?_).congr_of_eventuallyEq (Filter.Eventually.of_forall fun t => ?_)
    · simp only [spline3At]; split_ifs <;> rfl
    · simp only [spline3At]; split_ifs <;> rfl

end Uni
