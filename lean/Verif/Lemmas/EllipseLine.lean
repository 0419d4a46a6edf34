import Verif.Lemmas.Ellipse

/-! # Intersections with lines whose coefficients are below the threshold -/

set_option autoImplicit false

namespace Uni.Ellipse
open Spec

/-- The points found by `circleLine` satisfy the equation of the line up to the threshold. -/
theorem circleLine_residual {p q i j : Vec2 ℝ} (h : circleLine p q = some (i, j)) (x : Vec2 ℝ) (hx : x = i ∨ x = j) :
    ¬ (|p.y - q.y| < eps15 ∧ |q.x - p.x| < eps15) ∧
    |(p.y - q.y) * x.x + (q.x - p.x) * x.y + (p.x * q.y - q.x * p.y)| ≤ eps15 := by
  have hon := circleLine_on_circle h
  have hx1 : x.normSq = 1 := by rcases hx with rfl | rfl; exacts [hon.1, hon.2]
  simp only [Vec2.normSq] at hx1
  have hax : |x.x| ≤ 1 := by rw [abs_le]; constructor <;> nlinarith
  have hay : |x.y| ≤ 1 := by rw [abs_le]; constructor <;> nlinarith
  have he := eps15_pos
  by_cases h0 : |p.y - q.y| < eps15 ∧ |q.x - p.x| < eps15
  · simp [circleLine, h0] at h
  refine ⟨h0, ?_⟩
  by_cases h1 : |p.y - q.y| < eps15
  · have hb : q.x - p.x ≠ 0 := by
      intro hb; exact h0 ⟨h1, by rw [hb, abs_zero]; exact he⟩
    have hy : x.y = -(p.x * q.y - q.x * p.y) / (q.x - p.x) := by
      unfold circleLine at h
      simp only [h0, h1, if_true, if_false] at h
      split_ifs at h
      cases h
      rcases hx with rfl | rfl <;> rfl
    have : (p.y - q.y) * x.x + (q.x - p.x) * x.y + (p.x * q.y - q.x * p.y) = (p.y - q.y) * x.x := by
      rw [hy]; field_simp; ring
    rw [this, abs_mul]
    nlinarith [abs_nonneg (p.y - q.y), abs_nonneg x.x]
  by_cases h2 : |q.x - p.x| < eps15
  · have hb : p.y - q.y ≠ 0 := by
      intro hb; exact h1 (by rw [hb, abs_zero]; exact he)
    have hy : x.x = -(p.x * q.y - q.x * p.y) / (p.y - q.y) := by
      unfold circleLine at h
      simp only [h1, h2, false_and, if_true, if_false] at h
      split_ifs at h
      cases h
      rcases hx with rfl | rfl <;> rfl
    have : (p.y - q.y) * x.x + (q.x - p.x) * x.y + (p.x * q.y - q.x * p.y) = (q.x - p.x) * x.y := by
      rw [hy]; field_simp; ring
    rw [this, abs_mul]
    nlinarith [abs_nonneg (q.x - p.x), abs_nonneg x.y]
  · have hns : NoSliver p q := ⟨Or.inr (not_lt.mp h1), Or.inr (not_lt.mp h2)⟩
    have hspec := circleLine_spec hns
    rw [h] at hspec
    obtain ⟨⟨s, hs⟩, ⟨s', hs'⟩, -⟩ := hspec
    have : ∃ s, x = lineAt p q s := by
      rcases hx with rfl | rfl
      exacts [⟨s, hs⟩, ⟨s', hs'⟩]
    obtain ⟨s, rfl⟩ := this
    have : (p.y - q.y) * (lineAt p q s).x + (q.x - p.x) * (lineAt p q s).y + (p.x * q.y - q.x * p.y) = 0 := by
      simp only [lineAt]; ring
    rw [this, abs_zero]
    exact he.le

/-- If `circleLine` finds nothing, the two points nearly coincide or the line passes the circle at a distance that is not
below one by more than the threshold allows. -/
theorem circleLine_none {p q : Vec2 ℝ} (h : circleLine p q = none) :
    (|p.y - q.y| < eps15 ∧ |q.x - p.x| < eps15) ∨
    ∀ s, Real.sqrt ((p.y - q.y) ^ 2 + (q.x - p.x) ^ 2) * (1 - (lineAt p q s).norm) < eps15 := by
  have he := eps15_pos
  by_cases h0 : |p.y - q.y| < eps15 ∧ |q.x - p.x| < eps15
  · exact Or.inl h0
  refine Or.inr fun s => ?_
  set α := p.y - q.y with hα
  set β := q.x - p.x with hβ
  set γ := p.x * q.y - q.x * p.y with hγ
  set L := Real.sqrt (α ^ 2 + β ^ 2) with hL
  have hL0 : 0 ≤ L := Real.sqrt_nonneg _
  have hLs : L ^ 2 = α ^ 2 + β ^ 2 := Real.sq_sqrt (by positivity)
  -- the constant term is large
  have key : L - eps15 < |γ| := by
    by_cases h1 : |α| < eps15
    · have hb : β ≠ 0 := by
        intro hb; exact h0 ⟨h1, by rw [hb, abs_zero]; exact he⟩
      have hg : ¬ |-γ / β| ≤ 1 := by
        intro hc
        unfold circleLine at h
        have h2 : ¬ |β| < eps15 := fun h2 => h0 ⟨h1, h2⟩
        simp only [← hα, ← hβ, ← hγ, h1, h2, hc, true_and, if_true, if_false] at h
        cases h
      rw [abs_div, abs_neg, div_le_one (abs_pos.mpr hb), not_le] at hg
      have : L ≤ |α| + |β| := by
        rw [hL]; apply Real.sqrt_le_iff.mpr ⟨by positivity, ?_⟩
        rw [← sq_abs α, ← sq_abs β]
        nlinarith [abs_nonneg α, abs_nonneg β]
      linarith
    by_cases h2 : |β| < eps15
    · have hb : α ≠ 0 := by
        intro hb; exact h1 (by rw [hb, abs_zero]; exact he)
      have hg : ¬ |-γ / α| ≤ 1 := by
        intro hc
        unfold circleLine at h
        simp only [← hα, ← hβ, ← hγ, h1, h2, hc, false_and, if_true, if_false] at h
        cases h
      rw [abs_div, abs_neg, div_le_one (abs_pos.mpr hb), not_le] at hg
      have : L ≤ |α| + |β| := by
        rw [hL]; apply Real.sqrt_le_iff.mpr ⟨by positivity, ?_⟩
        rw [← sq_abs α, ← sq_abs β]
        nlinarith [abs_nonneg α, abs_nonneg β]
      linarith
    · have hb : β ≠ 0 := by
        intro hb; exact h2 (by rw [hb, abs_zero]; exact he)
      have hdet : 2 * (-γ / β) * (-α / β) * (2 * (-γ / β) * (-α / β)) -
          4 * (1 + -α / β * (-α / β)) * (-γ / β * (-γ / β) - 1) < 0 := by
        by_contra hc
        unfold circleLine at h
        simp only [← hα, ← hβ, ← hγ, h1, h2, hc, false_and, if_false] at h
        cases h
      have e : 2 * (-γ / β) * (-α / β) * (2 * (-γ / β) * (-α / β)) -
          4 * (1 + -α / β * (-α / β)) * (-γ / β * (-γ / β) - 1) = 4 * (L ^ 2 - γ ^ 2) / β ^ 2 := by
        rw [hLs]; field_simp; ring
      rw [e, div_neg_iff] at hdet
      have : L ^ 2 < |γ| ^ 2 := by
        rw [sq_abs]
        rcases hdet with ⟨-, h⟩ | ⟨h, -⟩
        · exact absurd h (not_lt.mpr (sq_nonneg _))
        · linarith
      have := lt_of_pow_lt_pow_left₀ 2 (abs_nonneg γ) this
      linarith
  set g := lineAt p q s with hgdef
  have hline : α * g.x + β * g.y + γ = 0 := by
    rw [hα, hβ, hγ, hgdef]; simp only [lineAt]; ring
  have hγL : |γ| ≤ L * g.norm := by
    have h1 : γ = -(α * g.x + β * g.y) := by linarith
    have hn : g.norm ^ 2 = g.x * g.x + g.y * g.y := norm_sq g
    have h2 : |γ| ^ 2 ≤ (L * g.norm) ^ 2 := by
      rw [sq_abs, mul_pow, hLs, hn, h1]
      nlinarith [sq_nonneg (α * g.y - β * g.x)]
    exact le_of_sq_le_sq h2 (mul_nonneg hL0 (norm_nonneg' g))
  nlinarith

/-- A point that nearly satisfies the equation of a line is near the line. -/
theorem near_line {p q x : Vec2 ℝ} {r : ℝ} (hpq : 0 < (p.y - q.y) ^ 2 + (q.x - p.x) ^ 2)
    (hr : |(p.y - q.y) * x.x + (q.x - p.x) * x.y + (p.x * q.y - q.x * p.y)| ≤ r) :
    ∃ s, Spec.dist x (lineAt p q s) ≤ r / Real.sqrt ((p.y - q.y) ^ 2 + (q.x - p.x) ^ 2) := by
  set α := p.y - q.y with hα
  set β := q.x - p.x with hβ
  set γ := p.x * q.y - q.x * p.y with hγ
  set ρ := α * x.x + β * x.y + γ with hρ
  have hS : α ^ 2 + β ^ 2 ≠ 0 := hpq.ne'
  obtain ⟨s, hs⟩ := exists_lineAt (p := p) (q := q)
    (x := ⟨x.x - ρ / (α ^ 2 + β ^ 2) * α, x.y - ρ / (α ^ 2 + β ^ 2) * β⟩)
    (by rintro ⟨h1, h2⟩; rw [← hα] at h1; rw [← hβ] at h2; rw [h1, h2] at hpq; norm_num at hpq)
    (by
      simp only [← hα, ← hβ, ← hγ]
      have : ρ = ρ / (α ^ 2 + β ^ 2) * (α ^ 2 + β ^ 2) := by field_simp
      linear_combination this)
  refine ⟨s, ?_⟩
  rw [← hs]
  have : Spec.dist x ⟨x.x - ρ / (α ^ 2 + β ^ 2) * α, x.y - ρ / (α ^ 2 + β ^ 2) * β⟩ = |ρ| / Real.sqrt (α ^ 2 + β ^ 2) := by
    simp only [Spec.dist]
    have e : (x.x - (x.x - ρ / (α ^ 2 + β ^ 2) * α)) ^ 2 + (x.y - (x.y - ρ / (α ^ 2 + β ^ 2) * β)) ^ 2 =
        ρ ^ 2 / (α ^ 2 + β ^ 2) := by field_simp; ring
    rw [e, Real.sqrt_div (sq_nonneg _), Real.sqrt_sq_eq_abs]
  rw [this]
  gcongr

/-- The image of an ellipse does not stretch distances more than the longest semi-axis. -/
theorem dist_image {e₀ e : Ellipse ℝ} {a b θ cx cy : ℝ} (h : setEllipse e₀ a b θ cx cy = (true, e)) (g g' : Vec2 ℝ) :
    Spec.dist (e.image g) (e.image g') ≤ max a b * Spec.dist g g' := by
  obtain ⟨ha, hb, -, -, rfl⟩ := setEllipse_eq_true h
  have hM : 0 < max a b := lt_max_of_lt_left ha
  simp only [Spec.dist]
  rw [← Real.sqrt_sq hM.le, ← Real.sqrt_mul (sq_nonneg _)]
  apply Real.sqrt_le_sqrt
  have e1 : ((image ⟨axesMatrix a b θ, (axesMatrix a b θ).inv, ⟨cx, cy⟩, a, b, θ, true⟩ g).x -
        (image ⟨axesMatrix a b θ, (axesMatrix a b θ).inv, ⟨cx, cy⟩, a, b, θ, true⟩ g').x) ^ 2 +
      ((image ⟨axesMatrix a b θ, (axesMatrix a b θ).inv, ⟨cx, cy⟩, a, b, θ, true⟩ g).y -
        (image ⟨axesMatrix a b θ, (axesMatrix a b θ).inv, ⟨cx, cy⟩, a, b, θ, true⟩ g').y) ^ 2 =
      a ^ 2 * (g.x - g'.x) ^ 2 + b ^ 2 * (g.y - g'.y) ^ 2 := by
    simp only [image, Mat2.mulVec, axesMatrix, Vec2.add_x, Vec2.add_y, cos_real, sin_real]
    linear_combination (a ^ 2 * (g.x - g'.x) ^ 2 + b ^ 2 * (g.y - g'.y) ^ 2) * Real.sin_sq_add_cos_sq θ
  rw [e1, mul_add]
  gcongr
  exacts [le_max_left _ _, le_max_right _ _]

end Uni.Ellipse
