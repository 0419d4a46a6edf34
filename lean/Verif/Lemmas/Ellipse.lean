import Verif.Model.Ellipse
import Verif.Lemmas.Plane
import Verif.Spec.Ellipse
import Mathlib.Tactic.FieldSimp
import Mathlib.Tactic.LinearCombination

/-! Helper lemmas on ellipses. -/

set_option autoImplicit false

namespace Uni

theorem norm_real (v : Vec2 ℝ) : v.norm = Real.sqrt v.normSq := rfl

theorem norm_le_one_iff (v : Vec2 ℝ) : v.norm ≤ 1 ↔ v.normSq ≤ 1 := by
  rw [norm_real, Real.sqrt_le_left (by norm_num), one_pow]

theorem norm_nonneg' (v : Vec2 ℝ) : 0 ≤ v.norm := Real.sqrt_nonneg _

theorem norm_sq (v : Vec2 ℝ) : v.norm ^ 2 = v.normSq := Real.sq_sqrt (normSq_nonneg v)

namespace Ellipse

theorem eps10_pos : (0 : ℝ) < eps10 := by unfold eps10; positivity
theorem eps15_pos : (0 : ℝ) < eps15 := by unfold eps15; positivity

theorem mulVec_inv (M : Mat2 ℝ) (h : M.det ≠ 0) (v : Vec2 ℝ) : M.mulVec (M.inv.mulVec v) = v := by
  obtain ⟨Δ, hΔ⟩ : ∃ Δ, Δ = M.det := ⟨_, rfl⟩
  rw [← hΔ] at h
  ext <;> simp only [Mat2.mulVec, Mat2.inv, ← hΔ] <;> field_simp <;> rw [hΔ, Mat2.det] <;> ring

theorem inv_mulVec (M : Mat2 ℝ) (h : M.det ≠ 0) (v : Vec2 ℝ) : M.inv.mulVec (M.mulVec v) = v := by
  obtain ⟨Δ, hΔ⟩ : ∃ Δ, Δ = M.det := ⟨_, rfl⟩
  rw [← hΔ] at h
  ext <;> simp only [Mat2.mulVec, Mat2.inv, ← hΔ] <;> field_simp <;> rw [hΔ, Mat2.det] <;> ring

theorem mulVec_add (M : Mat2 ℝ) (v w : Vec2 ℝ) : M.mulVec (v + w) = M.mulVec v + M.mulVec w := by
  ext <;> simp [Mat2.mulVec] <;> ring

theorem mulVec_smul (M : Mat2 ℝ) (c : ℝ) (v : Vec2 ℝ) : M.mulVec (c * v) = c * M.mulVec v := by
  ext <;> simp [Mat2.mulVec] <;> ring

/-- The stored inverse is the inverse of the stored, non-singular, image matrix. -/
structure Regular (e : Ellipse ℝ) : Prop where
  det : e.C.det ≠ 0
  inv : e.Cinv = e.C.inv

theorem det_axes (a b θ : ℝ) : (axesMatrix a b θ).det = a * b := by
  simp only [Mat2.det, axesMatrix, cos_real, sin_real]
  linear_combination a * b * Real.sin_sq_add_cos_sq θ

theorem setEllipse_eq_true {e₀ e : Ellipse ℝ} {a b θ cx cy : ℝ}
    (h : setEllipse e₀ a b θ cx cy = (true, e)) :
    0 < a ∧ 0 < b ∧ eps10 ≤ a ∧ eps10 ≤ b ∧
      e = ⟨axesMatrix a b θ, (axesMatrix a b θ).inv, ⟨cx, cy⟩, a, b, θ, true⟩ := by
  unfold setEllipse at h
  split_ifs at h with hab
  · simp at h
  push Not at hab
  have := eps10_pos
  refine ⟨by linarith [hab.1], by linarith [hab.2], hab.1, hab.2, ?_⟩
  simpa using h.symm

theorem regular_axes {e₀ e : Ellipse ℝ} {a b θ cx cy : ℝ}
    (h : setEllipse e₀ a b θ cx cy = (true, e)) : e.Regular := by
  obtain ⟨ha, hb, -, -, rfl⟩ := setEllipse_eq_true h
  exact ⟨by simp [det_axes, ha.ne', hb.ne'], rfl⟩

theorem regular_matrix {e₀ e : Ellipse ℝ} {M : Mat2 ℝ} {c : Vec2 ℝ}
    (h : setEllipseMatrix e₀ M c = (true, e)) : e.Regular := by
  unfold setEllipseMatrix at h
  by_cases h1 : M.det < eps10
  · simp [h1] at h
  · simp only [h1, if_false] at h
    have hpos := eps10_pos
    split_ifs at h <;>
    first
    | (simp at h; done)
    | (simp only [Prod.mk.injEq, true_and] at h
       rw [← h]
       exact ⟨by simp only; linarith, rfl⟩)

theorem regular_clear : (clear : Ellipse ℝ).Regular := by
  refine ⟨by simp [clear, Mat2.one, Mat2.det], ?_⟩
  ext <;> simp [clear, Mat2.one, Mat2.inv, Mat2.det]

theorem image_generators {e : Ellipse ℝ} (h : e.Regular) (p : Vec2 ℝ) :
    e.image (e.computeGenerators p) = p := by
  unfold image computeGenerators
  rw [h.inv, mulVec_inv _ h.det]
  ext <;> simp

theorem generators_image {e : Ellipse ℝ} (h : e.Regular) (g : Vec2 ℝ) :
    e.computeGenerators (e.image g) = g := by
  unfold image computeGenerators
  have : e.C.mulVec g + e.d - e.d = e.C.mulVec g := by ext <;> simp
  rw [this, h.inv, inv_mulVec _ h.det]

theorem isPointInside_iff {e : Ellipse ℝ} (hs : e.isSet = true) (p : Vec2 ℝ) :
    e.isPointInside p = true ↔ (e.computeGenerators p).normSq ≤ 1 := by
  simp [isPointInside, hs, norm_le_one_iff]

/-- Both points found by `circleLine` are on the unit circle. -/
theorem circleLine_on_circle {p q i j : Vec2 ℝ} (h : circleLine p q = some (i, j)) :
    i.normSq = 1 ∧ j.normSq = 1 := by
  unfold circleLine at h
  simp only at h
  split_ifs at h with h1 h2 h3 h4 h5 h6
  · simp only [Option.some.injEq, Prod.mk.injEq] at h
    obtain ⟨rfl, rfl⟩ := h
    have hy := abs_le_one_iff_mul_self_le_one.mp h3
    have := Real.mul_self_sqrt (sub_nonneg.mpr hy)
    simp only [Vec2.normSq, sqrt_real]
    constructor <;> linarith
  · simp only [Option.some.injEq, Prod.mk.injEq] at h
    obtain ⟨rfl, rfl⟩ := h
    have hy := abs_le_one_iff_mul_self_le_one.mp h5
    have := Real.mul_self_sqrt (sub_nonneg.mpr hy)
    simp only [Vec2.normSq, sqrt_real]
    constructor <;> linarith
  · simp only [Option.some.injEq, Prod.mk.injEq] at h
    obtain ⟨rfl, rfl⟩ := h
    push Not at h6
    simp only [Vec2.normSq, sqrt_real]
    generalize -(p.y - q.y) / (q.x - p.x) = σ at *
    generalize -(p.x * q.y - q.x * p.y) / (q.x - p.x) = δ at *
    have hsq := Real.mul_self_sqrt h6
    generalize Real.sqrt (2 * δ * σ * (2 * δ * σ) - 4 * (1 + σ * σ) * (δ * δ - 1)) = r at *
    have hA : (1 + σ * σ) ≠ 0 := by nlinarith [mul_self_nonneg σ]
    constructor
    · field_simp
      linear_combination (1 + σ ^ 2) * hsq
    · field_simp
      linear_combination (1 + σ ^ 2) * hsq

end Ellipse
end Uni

namespace Uni.Ellipse
open Spec

/-- The coefficients seen by `getIntersectionsWithLine` are not in the open interval where the code
replaces a small non-zero coefficient by zero. -/
def NoSliver (p q : Vec2 ℝ) : Prop :=
  (p.y - q.y = 0 ∨ eps15 ≤ |p.y - q.y|) ∧ (q.x - p.x = 0 ∨ eps15 ≤ |q.x - p.x|)

theorem lineAt_eq (p q : Vec2 ℝ) (s : ℝ) : lineAt p q s = p + s * (q - p) := by
  ext <;> simp [lineAt]

/-- A solution of the line equation is a point of the line. -/
theorem exists_lineAt {p q x : Vec2 ℝ} (h : ¬ (p.y - q.y = 0 ∧ q.x - p.x = 0))
    (hx : (p.y - q.y) * x.x + (q.x - p.x) * x.y + (p.x * q.y - q.x * p.y) = 0) :
    ∃ s, x = lineAt p q s := by
  by_cases hb : q.x - p.x = 0
  · have ha : p.y - q.y ≠ 0 := fun ha => h ⟨ha, hb⟩
    have hqp : q.x = p.x := by linarith
    have hxx : x.x = p.x := by
      rw [hqp] at hx
      apply mul_left_cancel₀ ha
      linear_combination hx
    have ha' : q.y - p.y ≠ 0 := fun h0 => ha (by linarith)
    refine ⟨(x.y - p.y) / (q.y - p.y), ?_⟩
    ext
    · simp [lineAt, hb, hxx]
    · simp only [lineAt]; field_simp; ring
  · refine ⟨(x.x - p.x) / (q.x - p.x), ?_⟩
    ext
    · simp only [lineAt]; field_simp; ring
    · simp only [lineAt]
      field_simp
      linear_combination hx

/-- `circleLine` is correct and complete outside the slivers: it fails only when the line misses the
unit circle (or is degenerate), and otherwise returns points of the line and all the common points. -/
theorem circleLine_spec {p q : Vec2 ℝ} (hns : NoSliver p q) :
    match circleLine p q with
    | none => (p = q) ∨ ∀ s, (lineAt p q s).normSq ≠ 1
    | some (i, j) => (∃ s, i = lineAt p q s) ∧ (∃ s, j = lineAt p q s) ∧
        ∀ s, (lineAt p q s).normSq = 1 → lineAt p q s = i ∨ lineAt p q s = j := by
  have hline : ∀ s, (p.y - q.y) * (lineAt p q s).x + (q.x - p.x) * (lineAt p q s).y +
      (p.x * q.y - q.x * p.y) = 0 := by
    intro s; simp only [lineAt]; ring
  have hpos := eps15_pos
  have ha : |p.y - q.y| < eps15 → p.y - q.y = 0 := fun h => hns.1.resolve_right (not_le.mpr h)
  have hb : |q.x - p.x| < eps15 → q.x - p.x = 0 := fun h => hns.2.resolve_right (not_le.mpr h)
  have ha' : ¬ |p.y - q.y| < eps15 → p.y - q.y ≠ 0 := by
    intro h h0; rw [h0, abs_zero] at h; exact h hpos
  have hb' : ¬ |q.x - p.x| < eps15 → q.x - p.x ≠ 0 := by
    intro h h0; rw [h0, abs_zero] at h; exact h hpos
  unfold circleLine
  simp only
  by_cases h1 : |p.y - q.y| < eps15 ∧ |q.x - p.x| < eps15
  · rw [if_pos h1]
    simp only
    left
    ext
    · linarith [hb h1.2]
    · linarith [ha h1.1]
  rw [if_neg h1]
  by_cases h2 : |p.y - q.y| < eps15
  · -- horizontal line
    have hα := ha h2
    have hβ : q.x - p.x ≠ 0 := hb' (fun h => h1 ⟨h2, h⟩)
    rw [if_pos h2]
    have hy : ∀ s, (lineAt p q s).y = -(p.x * q.y - q.x * p.y) / (q.x - p.x) := by
      intro s
      have := hline s
      rw [hα] at this
      field_simp
      linear_combination this
    generalize hYdef : -(p.x * q.y - q.x * p.y) / (q.x - p.x) = Y at *
    have hYmul : Y * (q.x - p.x) = -(p.x * q.y - q.x * p.y) := by rw [← hYdef]; field_simp
    by_cases h3 : |Y| ≤ 1
    · rw [if_pos h3]
      have hy1 := abs_le_one_iff_mul_self_le_one.mp h3
      have hsq := Real.mul_self_sqrt (sub_nonneg.mpr hy1)
      simp only [sqrt_real]
      refine ⟨exists_lineAt (fun h => hβ h.2) ?_, exists_lineAt (fun h => hβ h.2) ?_, ?_⟩
      · simp only [hα]; linear_combination hYmul
      · simp only [hα]; linear_combination hYmul
      · intro s hs
        have hys := hy s
        simp only [Vec2.normSq] at hs
        rw [hys] at hs
        have : (lineAt p q s).x * (lineAt p q s).x = Real.sqrt (1 - Y * Y) * Real.sqrt (1 - Y * Y) := by
          linarith
        rcases mul_self_eq_mul_self_iff.mp this with h | h
        · left; ext <;> simp [h, hys]
        · right; ext <;> simp [h, hys]
    · rw [if_neg h3]
      simp only
      right
      intro s hs
      apply h3
      rw [abs_le_one_iff_mul_self_le_one, ← hy s]
      simp only [Vec2.normSq] at hs
      nlinarith [mul_self_nonneg (lineAt p q s).x]
  rw [if_neg h2]
  have hα := ha' h2
  by_cases h4 : |q.x - p.x| < eps15
  · -- vertical line
    have hβ := hb h4
    rw [if_pos h4]
    have hx : ∀ s, (lineAt p q s).x = -(p.x * q.y - q.x * p.y) / (p.y - q.y) := by
      intro s
      have := hline s
      rw [hβ] at this
      field_simp
      linear_combination this
    generalize hYdef : -(p.x * q.y - q.x * p.y) / (p.y - q.y) = X at *
    have hXmul : X * (p.y - q.y) = -(p.x * q.y - q.x * p.y) := by rw [← hYdef]; field_simp
    by_cases h3 : |X| ≤ 1
    · rw [if_pos h3]
      have hy1 := abs_le_one_iff_mul_self_le_one.mp h3
      have hsq := Real.mul_self_sqrt (sub_nonneg.mpr hy1)
      simp only [sqrt_real]
      refine ⟨exists_lineAt (fun h => hα h.1) ?_, exists_lineAt (fun h => hα h.1) ?_, ?_⟩
      · simp only [hβ]; linear_combination hXmul
      · simp only [hβ]; linear_combination hXmul
      · intro s hs
        have hys := hx s
        simp only [Vec2.normSq] at hs
        rw [hys] at hs
        have : (lineAt p q s).y * (lineAt p q s).y = Real.sqrt (1 - X * X) * Real.sqrt (1 - X * X) := by
          linarith
        rcases mul_self_eq_mul_self_iff.mp this with h | h
        · left; ext <;> simp [h, hys]
        · right; ext <;> simp [h, hys]
    · rw [if_neg h3]
      simp only
      right
      intro s hs
      apply h3
      rw [abs_le_one_iff_mul_self_le_one, ← hx s]
      simp only [Vec2.normSq] at hs
      nlinarith [mul_self_nonneg (lineAt p q s).y]
  · rw [if_neg h4]
    have hβ := hb' h4
    have hyl : ∀ s, (lineAt p q s).y = (-(p.y - q.y) / (q.x - p.x)) * (lineAt p q s).x +
        -(p.x * q.y - q.x * p.y) / (q.x - p.x) := by
      intro s
      have := hline s
      field_simp
      linear_combination this
    have hσmul : (-(p.y - q.y) / (q.x - p.x)) * (q.x - p.x) = -(p.y - q.y) := by field_simp
    have hδmul : (-(p.x * q.y - q.x * p.y) / (q.x - p.x)) * (q.x - p.x) = -(p.x * q.y - q.x * p.y) := by
      field_simp
    generalize -(p.y - q.y) / (q.x - p.x) = σ at *
    generalize -(p.x * q.y - q.x * p.y) / (q.x - p.x) = δ at *
    have hA : 0 < 1 + σ * σ := by nlinarith [mul_self_nonneg σ]
    have hA' : 1 + σ * σ ≠ 0 := hA.ne'
    have hquad : ∀ s, (lineAt p q s).normSq = 1 →
        (2 * (1 + σ * σ) * (lineAt p q s).x + 2 * δ * σ) ^ 2 =
          2 * δ * σ * (2 * δ * σ) - 4 * (1 + σ * σ) * (δ * δ - 1) := by
      intro s hs
      simp only [Vec2.normSq] at hs
      rw [hyl s] at hs
      linear_combination 4 * (1 + σ * σ) * hs
    by_cases h6 : 2 * δ * σ * (2 * δ * σ) - 4 * (1 + σ * σ) * (δ * δ - 1) < 0
    · rw [if_pos h6]
      simp only
      right
      intro s hs
      have := hquad s hs
      nlinarith [sq_nonneg (2 * (1 + σ * σ) * (lineAt p q s).x + 2 * δ * σ)]
    · rw [if_neg h6]
      push Not at h6
      have hsq := Real.mul_self_sqrt h6
      simp only [sqrt_real]
      generalize Real.sqrt (2 * δ * σ * (2 * δ * σ) - 4 * (1 + σ * σ) * (δ * δ - 1)) = r at *
      refine ⟨exists_lineAt (fun h => hβ h.2) ?_, exists_lineAt (fun h => hβ h.2) ?_, ?_⟩
      · simp only
        linear_combination ((-(2 * δ * σ) + r) / (2 * (1 + σ * σ))) * hσmul + hδmul
      · simp only
        linear_combination ((-(2 * δ * σ) - r) / (2 * (1 + σ * σ))) * hσmul + hδmul
      · intro s hs
        have h7 := hquad s hs
        have h8 : (2 * (1 + σ * σ) * (lineAt p q s).x + 2 * δ * σ) *
            (2 * (1 + σ * σ) * (lineAt p q s).x + 2 * δ * σ) = r * r := by
          rw [hsq]; linear_combination h7
        rcases mul_self_eq_mul_self_iff.mp h8 with h | h
        · left
          have hx : (lineAt p q s).x = (-(2 * δ * σ) + r) / (2 * (1 + σ * σ)) := by
            field_simp; linear_combination h
          ext
          · exact hx
          · simp only; rw [hyl s, hx]
        · right
          have hx : (lineAt p q s).x = (-(2 * δ * σ) - r) / (2 * (1 + σ * σ)) := by
            field_simp; linear_combination h
          ext
          · exact hx
          · simp only; rw [hyl s, hx]

theorem computeGenerators_lineAt (e : Ellipse ℝ) (p q : Vec2 ℝ) (s : ℝ) :
    e.computeGenerators (lineAt p q s) =
      lineAt (e.computeGenerators p) (e.computeGenerators q) s := by
  ext <;> simp [computeGenerators, lineAt, Mat2.mulVec] <;> ring

theorem image_lineAt (e : Ellipse ℝ) (p q : Vec2 ℝ) (s : ℝ) :
    e.image (lineAt p q s) = lineAt (e.image p) (e.image q) s := by
  ext <;> simp [image, lineAt, Mat2.mulVec] <;> ring

end Uni.Ellipse
