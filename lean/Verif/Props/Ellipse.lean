import Verif.Lemmas.Ellipse
import Verif.Lemmas.EllipseLine
import Mathlib.Topology.Order.IntermediateValue
import Mathlib.Analysis.Calculus.Deriv.Pow
import Mathlib.Analysis.Calculus.Deriv.Mul
import Mathlib.Analysis.Calculus.Deriv.Add

/-! # C16–C20: properties of `FreeSpaceEllipse` -/

set_option autoImplicit false

namespace Uni.Ellipse
open Spec

/-! ## C16 -/

/-- C16: membership test of an ellipse set through its axes. -/
theorem C16_inside (e₀ e : Ellipse ℝ) (a b θ cx cy : ℝ)
    (h : setEllipse e₀ a b θ cx cy = (true, e)) (p : Vec2 ℝ) :
    e.isPointInside p = true ↔ InEllipse a b θ ⟨cx, cy⟩ p := by
  have hreg := regular_axes h
  obtain ⟨ha, hb, -, -, he⟩ := setEllipse_eq_true h
  have hset : e.isSet = true := by rw [he]
  have himg : ∀ g : Vec2 ℝ, e.image g = inFrame ⟨cx, cy⟩ θ ⟨a * g.x, b * g.y⟩ := by
    intro g
    rw [he]
    ext <;> simp [image, Mat2.mulVec, axesMatrix, inFrame] <;> ring
  rw [isPointInside_iff hset]
  constructor
  · intro hp
    refine ⟨(e.computeGenerators p).x, (e.computeGenerators p).y, ?_, ?_⟩
    · simpa [Vec2.normSq, pow_two] using hp
    · rw [← himg, image_generators hreg]
  · rintro ⟨u, v, huv, rfl⟩
    have := himg ⟨u, v⟩
    simp only at this
    rw [← this, generators_image hreg]
    simpa [Vec2.normSq, pow_two] using huv

/-- C16: `setEllipse` refuses exactly the ellipses with a semi-axis below 1e-10, without change; with
no ellipse set every point is inside. -/
theorem C16_set_and_default (e : Ellipse ℝ) (a b θ cx cy : ℝ) (p : Vec2 ℝ) :
    ((a < 1e-10 ∨ b < 1e-10) → setEllipse e a b θ cx cy = (false, e)) ∧
    (1e-10 ≤ a → 1e-10 ≤ b → (setEllipse e a b θ cx cy).1 = true) ∧
    (e.isSet = false → e.isPointInside p = true) := by
  have heps : (eps10 : ℝ) = 1e-10 := by norm_num [eps10]
  refine ⟨fun h => ?_, fun h1 h2 => ?_, fun h => by simp [isPointInside, h]⟩
  · rw [setEllipse, heps, if_pos h]
  · rw [setEllipse, heps, if_neg (by push Not; exact ⟨h1, h2⟩)]

/-- Non-vacuity of C16: a rotated, shifted ellipse, one point inside and one outside. -/
example : ∃ e : Ellipse ℝ, setEllipse clear 2 1 (Real.pi / 2) 1 1 = (true, e) ∧
    e.isPointInside ⟨1, 5 / 2⟩ = true ∧ e.isPointInside ⟨5 / 2, 1⟩ = false := by
  have hset : (setEllipse (clear : Ellipse ℝ) 2 1 (Real.pi / 2) 1 1).1 = true :=
    (C16_set_and_default clear 2 1 (Real.pi / 2) 1 1 0).2.1 (by norm_num) (by norm_num)
  refine ⟨(setEllipse (clear : Ellipse ℝ) 2 1 (Real.pi / 2) 1 1).2, by rw [← hset], ?_, ?_⟩
  · rw [C16_inside clear _ 2 1 (Real.pi / 2) 1 1 (by rw [← hset])]
    refine ⟨3 / 4, 0, by norm_num, ?_⟩
    ext <;> simp [inFrame] <;> norm_num
  · rw [Bool.eq_false_iff]
    intro h
    rw [C16_inside clear _ 2 1 (Real.pi / 2) 1 1 (by rw [← hset])] at h
    obtain ⟨u, v, huv, h2⟩ := h
    simp [inFrame] at h2
    nlinarith [h2.1, sq_nonneg u]

/-! ## C17 -/

/-- C17: the projection is always inside the ellipse, for every way of setting it. -/
theorem C17_inside (e : Ellipse ℝ) (hreg : e.Regular) (p c : Vec2 ℝ) :
    e.isPointInside (e.projectPointInsideEllipse p c) = true := by
  cases hset : e.isSet
  · simp [isPointInside, hset]
  rw [isPointInside_iff hset]
  unfold projectPointInsideEllipse
  simp only [hset, Bool.not_true, Bool.false_eq_true, if_false]
  by_cases h1 : (e.computeGenerators p).norm ≤ 1
  · simp [h1, ← norm_le_one_iff]
  · simp only [h1, if_false]
    cases hci : e.getClosestIntersectionsWithLine c p with
    | some i =>
      simp only [getClosestIntersectionsWithLine, getIntersectionsWithLine, hset, Bool.not_true,
        Bool.false_eq_true, if_false, Option.map_map, Option.map_eq_some_iff, Function.comp] at hci
      obtain ⟨⟨x, y⟩, hxy, hi⟩ := hci
      have hon := circleLine_on_circle hxy
      simp only at hi ⊢
      split_ifs at hi
      · rw [← hi, generators_image hreg, hon.1]
      · rw [← hi, generators_image hreg, hon.2]
    | none =>
      simp only
      rw [generators_image hreg]
      have hn : 0 < (e.computeGenerators p).norm := by
        push Not at h1; linarith
      have hsq := norm_sq (e.computeGenerators p)
      apply le_of_eq
      simp only [Vec2.normSq] at hsq ⊢
      field_simp
      linarith

/-- The ellipses a program can hold are `Regular`: the default one and the results of both setters. -/
theorem C17_regular (e₀ e : Ellipse ℝ) :
    (clear : Ellipse ℝ).Regular ∧
    (∀ a b θ cx cy, setEllipse e₀ a b θ cx cy = (true, e) → e.Regular) ∧
    (∀ M c, setEllipseMatrix e₀ M c = (true, e) → e.Regular) :=
  ⟨regular_clear, fun _ _ _ _ _ h => regular_axes h, fun _ _ h => regular_matrix h⟩

/-- C17: a point already inside is returned unchanged. -/
theorem C17_identity (e : Ellipse ℝ) (p c : Vec2 ℝ) (h : e.isPointInside p = true) :
    e.projectPointInsideEllipse p c = p := by
  cases hset : e.isSet
  · simp [projectPointInsideEllipse, hset]
  have := (isPointInside_iff hset p).mp h
  simp [projectPointInsideEllipse, hset, (norm_le_one_iff _).mpr this]

/-- C17 (stronger): if the projection centre is inside and the point is outside, the result is on the
segment between them (`NoSliver`: the line coefficients are not non-zero but below 1e-15). -/
theorem C17_on_segment (e : Ellipse ℝ) (hreg : e.Regular) (hset : e.isSet = true) (p c : Vec2 ℝ)
    (hc : e.isPointInside c = true) (hp : e.isPointInside p = false)
    (hns : NoSliver (e.computeGenerators c) (e.computeGenerators p)) :
    ∃ s, 0 ≤ s ∧ s ≤ 1 ∧ e.projectPointInsideEllipse p c = lineAt c p s := by
  have hc' := (isPointInside_iff hset c).mp hc
  have hp' : ¬ (e.computeGenerators p).normSq ≤ 1 := by
    rw [← isPointInside_iff hset]; simp [hp]
  have hp1 : ¬ (e.computeGenerators p).norm ≤ 1 := by rwa [norm_le_one_iff]
  set P := e.computeGenerators c with hP
  set Q := e.computeGenerators p with hQ
  -- the squared module along the line
  have hf : ∀ s, (lineAt P Q s).normSq = P.normSq + 2 * s * (P.x * (Q.x - P.x) + P.y * (Q.y - P.y))
      + s ^ 2 * ((Q.x - P.x) ^ 2 + (Q.y - P.y) ^ 2) := by
    intro s; simp only [lineAt, Vec2.normSq]; ring
  have hcont : Continuous fun s => (lineAt P Q s).normSq := by
    simp only [hf]; fun_prop
  have h0 : (lineAt P Q 0).normSq ≤ 1 := by simpa [lineAt] using hc'
  have h1 : 1 ≤ (lineAt P Q 1).normSq := by
    have : lineAt P Q 1 = Q := by ext <;> simp [lineAt]
    rw [this]; exact (not_le.mp hp').le
  obtain ⟨s₀, hs₀, hroot⟩ : ∃ s ∈ Set.Icc (0 : ℝ) 1, (lineAt P Q s).normSq = 1 :=
    intermediate_value_Icc zero_le_one hcont.continuousOn ⟨h0, h1⟩
  have hspec := circleLine_spec hns
  cases hcl : circleLine P Q with
  | none =>
    rw [hcl] at hspec
    simp only at hspec
    rcases hspec with h | h
    · rw [h] at hc'; exact absurd hc' hp'
    · exact absurd hroot (h s₀)
  | some ij =>
    obtain ⟨i, j⟩ := ij
    rw [hcl] at hspec
    simp only at hspec
    obtain ⟨⟨si, hi⟩, ⟨sj, hj⟩, hall⟩ := hspec
    have hon := circleLine_on_circle hcl
    have hcP : e.image P = c := image_generators hreg c
    have hpQ : e.image Q = p := image_generators hreg p
    -- squared distance from `p` of a point of the line
    have hdist : ∀ s, (p - lineAt c p s).norm = |1 - s| * (p - c).norm := by
      intro s
      rw [norm_real, norm_real, ← Real.sqrt_sq_eq_abs, ← Real.sqrt_mul (sq_nonneg _)]
      congr 1
      simp only [Vec2.normSq, lineAt, Vec2.sub_x, Vec2.sub_y]; ring
    have hclose : e.getClosestIntersectionsWithLine c p =
        some (if (p - lineAt c p si).norm < (p - lineAt c p sj).norm then lineAt c p si
          else lineAt c p sj) := by
      simp only [getClosestIntersectionsWithLine, getIntersectionsWithLine, hset, Bool.not_true,
        Bool.false_eq_true, if_false, ← hP, ← hQ, hcl, Option.map_some, hi, hj, image_lineAt, hcP, hpQ]
    have hres : e.projectPointInsideEllipse p c =
        if (p - lineAt c p si).norm < (p - lineAt c p sj).norm then lineAt c p si
          else lineAt c p sj := by
      simp only [projectPointInsideEllipse, hset, Bool.not_true, Bool.false_eq_true, if_false, ← hQ,
        hp1, hclose]
    -- a root which is at least as close to `p` as the root `s₀` of the segment is in the segment
    have hconv : ∀ s, (lineAt P Q s).normSq = 1 → |1 - s| ≤ |1 - s₀| → 0 ≤ s ∧ s ≤ 1 := by
      intro s hs hle
      have habs : |1 - s₀| = 1 - s₀ := abs_of_nonneg (by linarith [hs₀.2])
      rw [habs] at hle
      have h2 := abs_le.mp hle
      refine ⟨by linarith [h2.2, hs₀.1], ?_⟩
      by_contra hgt
      push Not at hgt
      -- convexity: the module at 1 would be ≤ 1
      have e0 : P.normSq ≤ 1 := hc'
      have e1 : 1 < Q.normSq := not_le.mp hp'
      have hQ1 : Q.normSq = (lineAt P Q 1).normSq := by
        congr 1; ext <;> simp [lineAt]
      rw [hQ1, hf] at e1
      rw [hf] at hs
      set A := P.x * (Q.x - P.x) + P.y * (Q.y - P.y)
      set B := (Q.x - P.x) ^ 2 + (Q.y - P.y) ^ 2 with hB
      have hB0 : 0 ≤ B := by positivity
      nlinarith [mul_nonneg hB0 (by linarith : (0 : ℝ) ≤ s - 1)]
    have hrooti : (lineAt P Q si).normSq = 1 := by rw [← hi]; exact hon.1
    have hrootj : (lineAt P Q sj).normSq = 1 := by rw [← hj]; exact hon.2
    have hs0ij : lineAt c p s₀ = lineAt c p si ∨ lineAt c p s₀ = lineAt c p sj := by
      rcases hall s₀ hroot with h | h
      · left
        rw [hi] at h
        have := congrArg e.image h
        simpa [image_lineAt, hcP, hpQ] using this
      · right
        rw [hj] at h
        have := congrArg e.image h
        simpa [image_lineAt, hcP, hpQ] using this
    have hD : 0 < (p - c).norm := by
      rcases (norm_nonneg' (p - c)).lt_or_eq with h | h
      · exact h
      · exfalso
        have h2 := norm_sq (p - c)
        rw [← h] at h2
        simp only [Vec2.normSq, Vec2.sub_x, Vec2.sub_y] at h2
        have hx : p.x - c.x = 0 := by nlinarith [mul_self_nonneg (p.x - c.x), mul_self_nonneg (p.y - c.y)]
        have hy : p.y - c.y = 0 := by nlinarith [mul_self_nonneg (p.x - c.x), mul_self_nonneg (p.y - c.y)]
        have : p = c := by ext <;> linarith
        rw [this] at hp
        rw [hp] at hc
        exact absurd hc (by simp)
    rw [hres]
    split_ifs with hlt
    · refine ⟨si, ?_⟩
      have : 0 ≤ si ∧ si ≤ 1 := by
        apply hconv si hrooti
        apply le_of_mul_le_mul_right _ hD
        rw [← hdist, ← hdist]
        rcases hs0ij with h | h <;> rw [h]
        exact hlt.le
      exact ⟨this.1, this.2, rfl⟩
    · refine ⟨sj, ?_⟩
      have : 0 ≤ sj ∧ sj ≤ 1 := by
        apply hconv sj hrootj
        apply le_of_mul_le_mul_right _ hD
        rw [← hdist, ← hdist]
        rcases hs0ij with h | h <;> rw [h]
        exact not_lt.mp hlt
      exact ⟨this.1, this.2, rfl⟩

/-- Non-vacuity of C17 (segment form): unit circle, centre at the origin, point (2,0). -/
example : ∃ e : Ellipse ℝ, e.Regular ∧ e.isSet = true ∧ e.isPointInside ⟨0, 0⟩ = true ∧
    e.isPointInside ⟨2, 0⟩ = false ∧
    NoSliver (e.computeGenerators ⟨0, 0⟩) (e.computeGenerators ⟨2, 0⟩) := by
  refine ⟨⟨⟨1, 0, 0, 1⟩, ⟨1, 0, 0, 1⟩, ⟨0, 0⟩, 1, 1, 0, true⟩, ⟨by simp [Mat2.det], ?_⟩, rfl, ?_, ?_, ?_⟩
  · ext <;> simp [Mat2.inv, Mat2.det]
  · rw [isPointInside_iff rfl]; simp [computeGenerators, Mat2.mulVec, Vec2.normSq]
  · rw [Bool.eq_false_iff, Ne, isPointInside_iff rfl]
    simp [computeGenerators, Mat2.mulVec, Vec2.normSq]; norm_num
  · simp [NoSliver, computeGenerators, Mat2.mulVec, eps15]; norm_num

/-! ## C18 -/

/-- C18: both intersections are on the boundary of the ellipse (always, slivers included). -/
theorem C18_boundary (e₀ e : Ellipse ℝ) (a b θ cx cy : ℝ)
    (h : setEllipse e₀ a b θ cx cy = (true, e)) (p q i j : Vec2 ℝ)
    (hi : e.getIntersectionsWithLine p q = some (i, j)) :
    OnEllipse a b θ ⟨cx, cy⟩ i ∧ OnEllipse a b θ ⟨cx, cy⟩ j := by
  obtain ⟨ha, hb, -, -, he⟩ := setEllipse_eq_true h
  have hset : e.isSet = true := by rw [he]
  have himg : ∀ g : Vec2 ℝ, e.image g = inFrame ⟨cx, cy⟩ θ ⟨a * g.x, b * g.y⟩ := by
    intro g
    rw [he]
    ext <;> simp [image, Mat2.mulVec, axesMatrix, inFrame] <;> ring
  simp only [getIntersectionsWithLine, hset, Bool.not_true, Bool.false_eq_true, if_false,
    Option.map_eq_some_iff, Prod.mk.injEq] at hi
  obtain ⟨⟨x, y⟩, hxy, rfl, rfl⟩ := hi
  have hon := circleLine_on_circle hxy
  exact ⟨⟨x.x, x.y, by simpa [Vec2.normSq, pow_two] using hon.1, himg x⟩,
    ⟨y.x, y.y, by simpa [Vec2.normSq, pow_two] using hon.2, himg y⟩⟩

/-- C18: outside the 1e-15 slivers, the intersections returned are on the line and are all
the intersections of the line with the boundary; if the call fails there are none (or the two points
coincide).  In the slivers the code replaces a tiny non-zero coefficient by zero, see `C18_line`. -/
theorem C18_exact (e₀ e : Ellipse ℝ) (a b θ cx cy : ℝ)
    (h : setEllipse e₀ a b θ cx cy = (true, e)) (p q : Vec2 ℝ)
    (hns : NoSliver (e.computeGenerators p) (e.computeGenerators q)) :
    (∀ i j, e.getIntersectionsWithLine p q = some (i, j) →
      (∃ s, i = lineAt p q s) ∧ (∃ s, j = lineAt p q s) ∧
      ∀ s, OnEllipse a b θ ⟨cx, cy⟩ (lineAt p q s) → lineAt p q s = i ∨ lineAt p q s = j) ∧
    (e.getIntersectionsWithLine p q = none → p = q ∨ ∀ s, ¬ OnEllipse a b θ ⟨cx, cy⟩ (lineAt p q s)) := by
  have hreg := regular_axes h
  obtain ⟨ha, hb, -, -, he⟩ := setEllipse_eq_true h
  have hset : e.isSet = true := by rw [he]
  have himg : ∀ g : Vec2 ℝ, e.image g = inFrame ⟨cx, cy⟩ θ ⟨a * g.x, b * g.y⟩ := by
    intro g
    rw [he]
    ext <;> simp [image, Mat2.mulVec, axesMatrix, inFrame] <;> ring
  have hmod : ∀ s, OnEllipse a b θ ⟨cx, cy⟩ (lineAt p q s) →
      (lineAt (e.computeGenerators p) (e.computeGenerators q) s).normSq = 1 := by
    rintro s ⟨u, v, huv, hs⟩
    rw [← computeGenerators_lineAt, hs]
    have := himg ⟨u, v⟩
    simp only at this
    rw [← this, generators_image hreg]
    simpa [Vec2.normSq, pow_two] using huv
  have hspec := circleLine_spec hns
  constructor
  · intro i j hij
    simp only [getIntersectionsWithLine, hset, Bool.not_true, Bool.false_eq_true, if_false,
      Option.map_eq_some_iff, Prod.mk.injEq] at hij
    obtain ⟨⟨x, y⟩, hxy, rfl, rfl⟩ := hij
    rw [hxy] at hspec
    simp only at hspec
    obtain ⟨⟨sx, hx⟩, ⟨sy, hy⟩, hall⟩ := hspec
    have him : ∀ s, e.image (lineAt (e.computeGenerators p) (e.computeGenerators q) s) = lineAt p q s := by
      intro s; rw [image_lineAt, image_generators hreg, image_generators hreg]
    refine ⟨⟨sx, by rw [hx, him]⟩, ⟨sy, by rw [hy, him]⟩, ?_⟩
    intro s hs
    rcases hall s (hmod s hs) with h' | h'
    · left; rw [← him s, h']
    · right; rw [← him s, h']
  · intro hnone
    simp only [getIntersectionsWithLine, hset, Bool.not_true, Bool.false_eq_true, if_false,
      Option.map_eq_none_iff] at hnone
    rw [hnone] at hspec
    simp only at hspec
    rcases hspec with h' | h'
    · left
      have := congrArg e.image h'
      rwa [image_generators hreg, image_generators hreg] at this
    · right
      intro s hs
      exact h' s (hmod s hs)

/-- C18 for all points and ellipses.  Let `M` be the longest semi-axis and `ε = 1e-15 M / |p - q|`.  The intersections returned are
within `M ε` of the line.  If the call fails, the two points are closer than `2e-15 M`, or the line misses the ellipse
shrunk by the factor `1 - ε`. -/
theorem C18_line (e₀ e : Ellipse ℝ) (a b θ cx cy : ℝ) (h : setEllipse e₀ a b θ cx cy = (true, e)) (p q : Vec2 ℝ) :
    (∀ i j, e.getIntersectionsWithLine p q = some (i, j) →
      (∃ s, dist i (lineAt p q s) ≤ max a b * (1 / 10 ^ 15 * max a b / dist p q)) ∧
      (∃ s, dist j (lineAt p q s) ≤ max a b * (1 / 10 ^ 15 * max a b / dist p q))) ∧
    (e.getIntersectionsWithLine p q = none →
      dist p q < 2 / 10 ^ 15 * max a b ∨
      ∀ r s, 0 ≤ r → r ≤ 1 - 1 / 10 ^ 15 * max a b / dist p q →
        ¬ InEllipse (a * r) (b * r) θ ⟨cx, cy⟩ (lineAt p q s)) := by
  have hreg := regular_axes h
  have hdist := dist_image h
  obtain ⟨ha, hb, -, -, he⟩ := setEllipse_eq_true h
  have hset : e.isSet = true := by rw [he]
  have hM : 0 < max a b := lt_max_of_lt_left ha
  have himg : ∀ g : Vec2 ℝ, e.image g = inFrame ⟨cx, cy⟩ θ ⟨a * g.x, b * g.y⟩ := by
    intro g
    rw [he]
    ext <;> simp [image, Mat2.mulVec, axesMatrix, inFrame] <;> ring
  have him : ∀ s, e.image (lineAt (e.computeGenerators p) (e.computeGenerators q) s) = lineAt p q s := by
    intro s; rw [image_lineAt, image_generators hreg, image_generators hreg]
  have heps : (eps15 : ℝ) = 1 / 10 ^ 15 := rfl
  set P := e.computeGenerators p with hP
  set Q := e.computeGenerators q with hQ
  have hpq : dist p q ≤ max a b * Real.sqrt ((P.y - Q.y) ^ 2 + (Q.x - P.x) ^ 2) := by
    have := hdist P Q
    rw [hP, hQ, image_generators hreg, image_generators hreg] at this
    refine this.trans_eq ?_
    simp only [Spec.dist]
    congr 2
    ring
  have hpq0 : 0 ≤ dist p q := Real.sqrt_nonneg _
  constructor
  · intro i j hij
    simp only [getIntersectionsWithLine, hset, Bool.not_true, Bool.false_eq_true, if_false,
      Option.map_eq_some_iff, Prod.mk.injEq, ← hP, ← hQ] at hij
    obtain ⟨⟨x, y⟩, hxy, rfl, rfl⟩ := hij
    have key : ∀ z, z = x ∨ z = y →
        ∃ s, dist (e.image z) (lineAt p q s) ≤ max a b * (1 / 10 ^ 15 * max a b / dist p q) := by
      intro z hz
      obtain ⟨h0, hr⟩ := circleLine_residual hxy z hz
      have hpos : 0 < (P.y - Q.y) ^ 2 + (Q.x - P.x) ^ 2 := by
        rcases (add_nonneg (sq_nonneg (P.y - Q.y)) (sq_nonneg (Q.x - P.x))).lt_or_eq with h' | h'
        · exact h'
        · exfalso
          apply h0
          have h1 : P.y - Q.y = 0 := by nlinarith [sq_nonneg (P.y - Q.y), sq_nonneg (Q.x - P.x)]
          have h2 : Q.x - P.x = 0 := by nlinarith [sq_nonneg (P.y - Q.y), sq_nonneg (Q.x - P.x)]
          rw [h1, h2, abs_zero]
          exact ⟨eps15_pos, eps15_pos⟩
      obtain ⟨s, hs⟩ := near_line hpos hr
      refine ⟨s, ?_⟩
      have h1 := hdist z (lineAt P Q s)
      rw [him] at h1
      refine h1.trans (mul_le_mul_of_nonneg_left (hs.trans ?_) hM.le)
      have hL : 0 < Real.sqrt ((P.y - Q.y) ^ 2 + (Q.x - P.x) ^ 2) := Real.sqrt_pos.mpr hpos
      have hd : 0 < dist p q := by
        rcases hpq0.lt_or_eq with h' | h'
        · exact h'
        · exfalso
          have hx : p.x = q.x ∧ p.y = q.y := by
            have h2 := Real.sqrt_eq_zero'.mp h'.symm
            constructor <;> nlinarith [sq_nonneg (p.x - q.x), sq_nonneg (p.y - q.y)]
          have : p = q := Vec2.ext hx.1 hx.2
          rw [hP, hQ, this] at hpos
          simp at hpos
      rw [← heps, div_le_div_iff₀ hL hd, mul_assoc]
      exact mul_le_mul_of_nonneg_left hpq eps15_pos.le
    exact ⟨key x (Or.inl rfl), key y (Or.inr rfl)⟩
  · intro hnone
    simp only [getIntersectionsWithLine, hset, Bool.not_true, Bool.false_eq_true, if_false,
      Option.map_eq_none_iff, ← hP, ← hQ] at hnone
    rcases circleLine_none hnone with ⟨h1, h2⟩ | h'
    · left
      have : Real.sqrt ((P.y - Q.y) ^ 2 + (Q.x - P.x) ^ 2) < 2 * eps15 := by
        rw [Real.sqrt_lt' (by linarith [eps15_pos]), ← sq_abs (P.y - Q.y), ← sq_abs (Q.x - P.x)]
        nlinarith [abs_nonneg (P.y - Q.y), abs_nonneg (Q.x - P.x), eps15_pos]
      calc dist p q ≤ max a b * Real.sqrt ((P.y - Q.y) ^ 2 + (Q.x - P.x) ^ 2) := hpq
        _ < max a b * (2 * eps15) := by gcongr
        _ = 2 / 10 ^ 15 * max a b := by rw [heps]; ring
    · by_cases hd : dist p q = 0
      · left; rw [hd]; positivity
      right
      intro r s hr0 hr1 hin
      obtain ⟨u, v, huv, hs⟩ := hin
      have hg : lineAt P Q s = ⟨r * u, r * v⟩ := by
        have h1 : e.image (lineAt P Q s) = e.image ⟨r * u, r * v⟩ := by
          rw [him, hs, himg]
          simp only [mul_assoc]
        have := congrArg e.computeGenerators h1
        rwa [generators_image hreg, generators_image hreg] at this
      have hnorm : (lineAt P Q s).norm ≤ r := by
        rw [hg, norm_real, Real.sqrt_le_left hr0]
        simp only [Vec2.normSq]
        nlinarith [sq_nonneg r]
      have hL := h' s
      have hd' : 0 < dist p q := lt_of_le_of_ne hpq0 (Ne.symm hd)
      have hε : 1 / 10 ^ 15 * max a b / dist p q ≤ 1 - (lineAt P Q s).norm := by linarith
      rw [← heps, div_le_iff₀ hd'] at hε
      have h0 : 0 ≤ 1 - (lineAt P Q s).norm := by
        by_contra hc
        nlinarith [mul_pos eps15_pos hM, mul_neg_of_neg_of_pos (not_le.mp hc) hd']
      have := mul_le_mul_of_nonneg_left hpq h0
      nlinarith [mul_le_mul_of_nonneg_left hpq h0]

/-- C18: the "closest" variant returns the intersection nearest to the second point. -/
theorem C18_closest (e : Ellipse ℝ) (p q i j : Vec2 ℝ)
    (h : e.getIntersectionsWithLine p q = some (i, j)) :
    ∃ k, e.getClosestIntersectionsWithLine p q = some k ∧ (k = i ∨ k = j) ∧
      dist q k ≤ dist q i ∧ dist q k ≤ dist q j := by
  simp only [getClosestIntersectionsWithLine, h, Option.map_some, norm_eq_dist]
  split_ifs with hlt
  · exact ⟨i, rfl, Or.inl rfl, le_rfl, hlt.le⟩
  · exact ⟨j, rfl, Or.inr rfl, not_lt.mp hlt, le_rfl⟩

/-- Non-vacuity of C18: the unit circle and the oblique line y = x through (0,0) and (1,1). -/
example : ∃ i j, circleLine (⟨0, 0⟩ : Vec2 ℝ) ⟨1, 1⟩ = some (i, j) ∧ NoSliver (⟨0, 0⟩ : Vec2 ℝ) ⟨1, 1⟩ := by
  have h1 : ¬ ((1 : ℝ) < 1 / 10 ^ 15) := by norm_num
  have h2 : ¬ ((4 : ℝ) * (1 + 1) < 0) := by norm_num
  have h3 : (1 : ℝ) / 10 ^ 15 ≤ 1 := by norm_num
  refine ⟨_, _, by simp [circleLine, eps15]; norm_num; exact ⟨rfl, rfl⟩, by
    simp [NoSliver, eps15]; norm_num⟩

/-! ## C19 -/

theorem sin_cos_atan2 (a θ : ℝ) (ha : 0 < a) :
    Real.sin (Trig.atan2 (Real.sin θ * a) (Real.cos θ * a)) = Real.sin θ ∧
    Real.cos (Trig.atan2 (Real.sin θ * a) (Real.cos θ * a)) = Real.cos θ := by
  have hn : ‖(⟨Real.cos θ * a, Real.sin θ * a⟩ : ℂ)‖ = a := by
    rw [Complex.norm_def, Complex.normSq_mk]
    have : Real.cos θ * a * (Real.cos θ * a) + Real.sin θ * a * (Real.sin θ * a) = a ^ 2 := by
      linear_combination a ^ 2 * Real.sin_sq_add_cos_sq θ
    rw [this, Real.sqrt_sq ha.le]
  have hne : (⟨Real.cos θ * a, Real.sin θ * a⟩ : ℂ) ≠ 0 := by
    intro h0; rw [h0, norm_zero] at hn; exact ha.ne hn
  constructor
  · show Real.sin (Complex.arg _) = _
    rw [Complex.sin_arg, hn]; field_simp
  · show Real.cos (Complex.arg _) = _
    rw [Complex.cos_arg hne, hn]; field_simp

/-- C19 is violated: the matrix form refuses *every* proper ellipse rotated by more than 45 degrees
(|sin θ| > |cos θ|), whatever its axes: line 134 of src/FreeSpaceEllipse.cpp computes `b` with the
wrong sign. -/
theorem C19_steep_always_refused (e : Ellipse ℝ) (a b θ : ℝ) (c : Vec2 ℝ) (ha : 0 < a) (hb : 0 < b)
    (hsteep : |Real.cos θ| < |Real.sin θ|) :
    setEllipseMatrix e (axesMatrix a b θ) c = (false, e) := by
  have hsc := sin_cos_atan2 a θ ha
  have hs0 : Real.sin θ ≠ 0 := by
    intro h; rw [h, abs_zero] at hsteep; exact absurd hsteep (not_lt.mpr (abs_nonneg _))
  unfold setEllipseMatrix
  by_cases h1 : (axesMatrix a b θ).det < eps10
  · rw [if_pos h1]
  · rw [if_neg h1]
    simp only [axesMatrix, cos_real, sin_real, hsc.1, hsc.2]
    have hst' : (|Real.cos θ| < |Real.sin θ|) = True := by simp [hsteep]
    rw [if_pos hsteep, if_pos hsteep, if_pos]
    have hdet : (⟨Real.cos θ * a, -Real.sin θ * b, Real.sin θ * a, Real.cos θ * b⟩ : Mat2 ℝ).det = a * b := by
      have := det_axes a b θ
      simpa [axesMatrix] using this
    rw [det_axes] at h1
    rw [hdet]
    have he : a * b - Real.sin θ * a / Real.sin θ * (-Real.sin θ * b / Real.sin θ) = 2 * (a * b) := by
      field_simp; ring
    rw [he]
    have hpos := eps10_pos
    push Not at h1
    rw [abs_of_pos (by linarith)]
    linarith

/-- C19 is violated in the other direction too: a shear matrix, which is not `R(θ) diag(a,b)` for any
`a`, `b`, `θ`, is accepted. -/
theorem C19_shear_accepted :
    (setEllipseMatrix (clear : Ellipse ℝ) ⟨1, 5, 0, 1⟩ 0).1 = true ∧
    ¬ ∃ a b θ : ℝ, (⟨1, 5, 0, 1⟩ : Mat2 ℝ) = axesMatrix a b θ := by
  constructor
  · have h0 : (Trig.atan2 (0 : ℝ) 1) = 0 := by
      show Complex.arg ⟨1, 0⟩ = 0
      have : (⟨1, 0⟩ : ℂ) = 1 := rfl
      rw [this, Complex.arg_one]
    have he : ¬ (1 : ℝ) < eps10 := by unfold eps10; norm_num
    have hn : ¬ (eps10 : ℝ) < 0 := not_lt.mpr eps10_pos.le
    have h10 : ¬ (1 : ℝ) < 0 := by norm_num
    simp [setEllipseMatrix, Mat2.det, h0, he]
    simp only [if_neg h10, sub_self, abs_zero, if_neg hn]
  · rintro ⟨a, b, θ, h⟩
    simp only [axesMatrix, cos_real, sin_real, Mat2.mk.injEq] at h
    obtain ⟨h1, h2, h3, h4⟩ := h
    have ha : a ≠ 0 := by rintro rfl; simp at h1
    have hs : Real.sin θ = 0 := by
      rcases mul_eq_zero.mp h3.symm with h | h
      · exact h
      · exact absurd h ha
    rw [hs] at h2
    norm_num at h2

/-- C19 (partial): a proper ellipse rotated by at most 45 degrees (modulo half turns) with `ab ≥ 1e-10`
is accepted, and membership is the intended one.  Missing: the other rotations (refuted above) and the
refusal of improper matrices (refuted above). -/
theorem C19_shallow_partial (e₀ : Ellipse ℝ) (a b θ : ℝ) (c : Vec2 ℝ) (ha : 0 < a) (hb : 0 < b)
    (hab : 1e-10 ≤ a * b) (hshallow : |Real.sin θ| ≤ |Real.cos θ|) :
    ∃ e, setEllipseMatrix e₀ (axesMatrix a b θ) c = (true, e) ∧ e.semiMajor = a ∧ e.semiMinor = b ∧
      ∀ p, e.isPointInside p = true ↔ InEllipse a b θ c p := by
  have hsc := sin_cos_atan2 a θ ha
  have hc0 : Real.cos θ ≠ 0 := by
    intro h
    rw [h, abs_zero] at hshallow
    have hs : Real.sin θ = 0 := abs_eq_zero.mp (le_antisymm hshallow (abs_nonneg _))
    have := Real.sin_sq_add_cos_sq θ
    rw [hs, h] at this
    norm_num at this
  have hdet := det_axes a b θ
  have heps : (eps10 : ℝ) = 1e-10 := by norm_num [eps10]
  have h1 : ¬ (axesMatrix a b θ).det < eps10 := by rw [hdet, heps]; exact not_lt.mpr hab
  have hpos := eps10_pos
  have hA : Real.cos θ * a / Real.cos θ = a := by field_simp
  have hB : Real.cos θ * b / Real.cos θ = b := by field_simp
  refine ⟨⟨axesMatrix a b θ, (axesMatrix a b θ).inv, c, a, b,
    Trig.atan2 (axesMatrix a b θ).m10 (axesMatrix a b θ).m00, true⟩, ?_, rfl, rfl, ?_⟩
  · unfold setEllipseMatrix
    rw [if_neg h1]
    have e1 : Real.sin (Trig.atan2 (axesMatrix a b θ).m10 (axesMatrix a b θ).m00) = Real.sin θ := hsc.1
    have e2 : Real.cos (Trig.atan2 (axesMatrix a b θ).m10 (axesMatrix a b θ).m00) = Real.cos θ := hsc.2
    have e3 : (axesMatrix a b θ).m00 / Real.cos θ = a := hA
    have e4 : (axesMatrix a b θ).m11 / Real.cos θ = b := hB
    have hns : ¬ |Real.cos θ| < |Real.sin θ| := not_lt.mpr hshallow
    have h5 : ¬ eps10 < |(axesMatrix a b θ).det - a * b| := by
      rw [hdet, sub_self, abs_zero]; exact not_lt.mpr hpos.le
    simp only [cos_real, sin_real, e1, e2, e3, e4]
    rw [if_neg hns, if_neg hns, if_neg h5]
  · intro p
    have hreg : Regular (⟨axesMatrix a b θ, (axesMatrix a b θ).inv, c, a, b,
        Trig.atan2 (axesMatrix a b θ).m10 (axesMatrix a b θ).m00, true⟩ : Ellipse ℝ) :=
      ⟨by simp [det_axes, ha.ne', hb.ne'], rfl⟩
    rw [isPointInside_iff rfl]
    have himg : ∀ g : Vec2 ℝ, Ellipse.image (⟨axesMatrix a b θ, (axesMatrix a b θ).inv, c, a, b,
        Trig.atan2 (axesMatrix a b θ).m10 (axesMatrix a b θ).m00, true⟩ : Ellipse ℝ) g =
        inFrame c θ ⟨a * g.x, b * g.y⟩ := by
      intro g
      ext <;> simp [image, Mat2.mulVec, axesMatrix, inFrame] <;> ring
    constructor
    · intro hp
      exact ⟨_, _, by simpa only [Vec2.normSq, pow_two] using hp, by
        rw [← himg, image_generators hreg]⟩
    · rintro ⟨u, v, huv, rfl⟩
      have := himg ⟨u, v⟩
      simp only at this
      rw [← this, generators_image hreg]
      simpa [Vec2.normSq, pow_two] using huv

/-- Non-vacuity of C19: a rotation of 90 degrees is steep, the identity rotation is shallow. -/
example : |Real.cos (Real.pi / 2)| < |Real.sin (Real.pi / 2)| ∧ |Real.sin 0| ≤ |Real.cos 0| := by
  simp

/-! ## C20 -/

/-- The derivative of the squared ellipse "radius" (1 on the boundary) at `p` in direction `t`: a vector
is tangent to the scaled ellipse through `p` iff this is zero. -/
def RadiusStationary (e : Ellipse ℝ) (p t : Vec2 ℝ) : Prop :=
  HasDerivAt (fun h : ℝ => (e.computeGenerators (p + h * t)).normSq) 0 0

theorem radius_deriv (e : Ellipse ℝ) (p t : Vec2 ℝ) :
    HasDerivAt (fun h : ℝ => (e.computeGenerators (p + h * t)).normSq)
      (2 * (e.computeGenerators p).dot (e.Cinv.mulVec t)) 0 := by
  have hexp : (fun h : ℝ => (e.computeGenerators (p + h * t)).normSq) = fun h =>
      (e.computeGenerators p).normSq + h * (2 * (e.computeGenerators p).dot (e.Cinv.mulVec t)) +
        h ^ 2 * (e.Cinv.mulVec t).normSq := by
    funext h
    simp [computeGenerators, Mat2.mulVec, Vec2.normSq, Vec2.dot]; ring
  rw [hexp]
  have h1 := ((hasDerivAt_id (0 : ℝ)).mul_const (2 * (e.computeGenerators p).dot (e.Cinv.mulVec t)))
  have h2 := ((hasDerivAt_pow 2 (0 : ℝ)).mul_const (e.Cinv.mulVec t).normSq)
  have := (h1.const_add (e.computeGenerators p).normSq).add h2
  exact this.congr_deriv (by simp)

/-- C20 (partial): if the uninitialised matrix entry happens to be zero, the vector returned is tangent
to the scaled ellipse through the point.  Missing: any other content of that memory (refuted below). -/
theorem C20_tangent_partial (e : Ellipse ℝ) (hreg : e.Regular) (p : Vec2 ℝ) :
    RadiusStationary e p (e.getTangentVector 0 p) := by
  unfold RadiusStationary
  have hd := radius_deriv e p (e.getTangentVector 0 p)
  have : (e.computeGenerators p).dot (e.Cinv.mulVec (e.getTangentVector 0 p)) = 0 := by
    unfold getTangentVector
    simp only
    split_ifs
    · set g := e.computeGenerators p
      set t := e.C.mulVec ((⟨0, -1, 1, 0⟩ : Mat2 ℝ).mulVec g) with ht
      have h1 : (⟨t.x / t.norm, t.y / t.norm⟩ : Vec2 ℝ) = (1 / t.norm) * t := by
        ext <;> simp <;> ring
      rw [h1, mulVec_smul, ht, hreg.inv, inv_mulVec _ hreg.det]
      simp [Mat2.mulVec, Vec2.dot]; ring
    · simp [Mat2.mulVec, Vec2.dot]
  rw [this] at hd
  simpa using hd

/-- C20 is violated: with another content of the uninitialised entry (here 1, on the unit circle) the
vector returned is not tangent. -/
theorem C20_garbage_not_tangent : ∃ (e : Ellipse ℝ) (garbage : ℝ) (p : Vec2 ℝ), e.Regular ∧
    (e.computeGenerators p).normSq = 1 ∧ ¬ RadiusStationary e p (e.getTangentVector garbage p) := by
  refine ⟨⟨⟨1, 0, 0, 1⟩, ⟨1, 0, 0, 1⟩, ⟨0, 0⟩, 1, 1, 0, true⟩, 1, ⟨0, 1⟩, ⟨by simp [Mat2.det], ?_⟩, ?_, ?_⟩
  · ext <;> simp [Mat2.inv, Mat2.det]
  · simp [computeGenerators, Mat2.mulVec, Vec2.normSq]
  · intro h
    have hd := (radius_deriv _ _ _).unique h
    have hn : (⟨-1, 1⟩ : Vec2 ℝ).norm = Real.sqrt 2 := by
      rw [norm_real]; congr 1; simp [Vec2.normSq]; norm_num
    have hpos : (0 : ℝ) < Real.sqrt 2 := by positivity
    have hlt : (1 : ℝ) / 10 ^ 15 < Real.sqrt 2 := by
      have : (1 : ℝ) ≤ Real.sqrt 2 := by rw [Real.one_le_sqrt]; norm_num
      have h2 : (1 : ℝ) / 10 ^ 15 < 1 := by norm_num
      linarith
    have hn' : (⟨-1, 1⟩ : Vec2 ℝ).norm ≠ 0 := by rw [hn]; exact hpos.ne'
    have hlt' : eps15 < (⟨-1, 1⟩ : Vec2 ℝ).norm := by rw [hn]; exact hlt
    simp [computeGenerators, Mat2.mulVec, Vec2.dot, getTangentVector, hlt', hn'] at hd

end Uni.Ellipse
