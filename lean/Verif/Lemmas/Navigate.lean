import Verif.Model.Navigation
import Verif.Lemmas.Plane
import Mathlib.Tactic.Positivity
import Mathlib.Tactic.Linarith
import Mathlib.Tactic.NormNum
import Mathlib.Tactic.LinearCombination

/-! # The motion of the unicycle driven by the navigation controller -/

set_option autoImplicit false
set_option linter.unusedSectionVars false

namespace Uni.NavCtrl
open Real

section
variable {K : Type*} [Field K] [LinearOrder K] [IsStrictOrderedRing K] [Trig K]

/-- The difference of heading seen by the controller. -/
def headingError (g θ : K) : K := wrapOnce (g - wrapOnce θ)

theorem wrapOnce_mod (a : K) : ∃ k : ℤ, wrapOnce a = a + 2 * Trig.pi * k := by
  unfold wrapOnce
  split_ifs
  · exact ⟨-1, by push_cast; ring⟩
  · exact ⟨1, by push_cast; ring⟩
  · exact ⟨0, by push_cast; ring⟩

theorem wrapOnce_abs {a : K} (h : |a| ≤ 3 * Trig.pi) : |wrapOnce a| ≤ Trig.pi := by
  obtain ⟨h1, h2⟩ := abs_le.mp h
  unfold wrapOnce
  split_ifs with g1 g2
  · exact abs_le.mpr ⟨by linarith, by linarith⟩
  · exact abs_le.mpr ⟨by linarith, by linarith⟩
  · exact abs_le.mpr ⟨by linarith, by linarith⟩

theorem headingError_mod (g θ : K) : ∃ k : ℤ, headingError g θ = g - θ + 2 * Trig.pi * k := by
  obtain ⟨i, hi⟩ := wrapOnce_mod θ
  obtain ⟨j, hj⟩ := wrapOnce_mod (g - wrapOnce θ)
  exact ⟨j - i, by rw [headingError, hj, hi]; push_cast; ring⟩

theorem wrapOnce_cases (a : K) : (Trig.pi < a ∧ wrapOnce a = a - 2 * Trig.pi) ∨
    (a < -Trig.pi ∧ wrapOnce a = a + 2 * Trig.pi) ∨ (-Trig.pi ≤ a ∧ a ≤ Trig.pi ∧ wrapOnce a = a) := by
  unfold wrapOnce
  split_ifs with h1 h2
  · exact Or.inl ⟨h1, rfl⟩
  · exact Or.inr (Or.inl ⟨h2, rfl⟩)
  · exact Or.inr (Or.inr ⟨not_lt.mp h2, not_lt.mp h1, rfl⟩)

set_option maxHeartbeats 2000000 in
/-- Turning by `s` towards the goal, first direction. -/
theorem headingError_add {g θ s : K} (hp : (0 : K) < Trig.pi) (hg : |g| ≤ Trig.pi) (hs : 0 ≤ s) (hs' : s ≤ Trig.pi)
    (h : 0 ≤ headingError g θ) : |headingError g (θ + s)| = |headingError g θ - s| := by
  obtain ⟨g1, g2⟩ := abs_le.mp hg
  apply abs_eq_abs.mpr
  revert h
  unfold headingError
  have c1 := wrapOnce_cases (K := K) θ
  have c2 := wrapOnce_cases (K := K) (θ + s)
  generalize wrapOnce θ = w1 at *
  generalize wrapOnce (θ + s) = w2 at *
  have c3 := wrapOnce_cases (K := K) (g - w1)
  have c4 := wrapOnce_cases (K := K) (g - w2)
  generalize wrapOnce (g - w1) = e1 at *
  generalize wrapOnce (g - w2) = e2 at *
  generalize (Trig.pi : K) = p at *
  intro h
  rcases c1 with ⟨a1, b1⟩ | ⟨a1, b1⟩ | ⟨a1, a1', b1⟩ <;> rcases c2 with ⟨a2, b2⟩ | ⟨a2, b2⟩ | ⟨a2, a2', b2⟩ <;>
  rcases c3 with ⟨a3, b3⟩ | ⟨a3, b3⟩ | ⟨a3, a3', b3⟩ <;> rcases c4 with ⟨a4, b4⟩ | ⟨a4, b4⟩ | ⟨a4, a4', b4⟩ <;>
  first | (exfalso; linarith) | (left; linarith) | (right; linarith)

set_option maxHeartbeats 2000000 in
/-- Turning by `s` towards the goal, second direction. -/
theorem headingError_sub {g θ s : K} (hp : (0 : K) < Trig.pi) (hg : |g| ≤ Trig.pi) (hs : 0 ≤ s) (hs' : s ≤ Trig.pi)
    (h : headingError g θ < 0) : |headingError g (θ - s)| = |headingError g θ + s| := by
  obtain ⟨g1, g2⟩ := abs_le.mp hg
  apply abs_eq_abs.mpr
  revert h
  unfold headingError
  have c1 := wrapOnce_cases (K := K) θ
  have c2 := wrapOnce_cases (K := K) (θ - s)
  generalize wrapOnce θ = w1 at *
  generalize wrapOnce (θ - s) = w2 at *
  have c3 := wrapOnce_cases (K := K) (g - w1)
  have c4 := wrapOnce_cases (K := K) (g - w2)
  generalize wrapOnce (g - w1) = e1 at *
  generalize wrapOnce (g - w2) = e2 at *
  generalize (Trig.pi : K) = p at *
  intro h
  rcases c1 with ⟨a1, b1⟩ | ⟨a1, b1⟩ | ⟨a1, a1', b1⟩ <;> rcases c2 with ⟨a2, b2⟩ | ⟨a2, b2⟩ | ⟨a2, a2', b2⟩ <;>
  rcases c3 with ⟨a3, b3⟩ | ⟨a3, b3⟩ | ⟨a3, a3', b3⟩ <;> rcases c4 with ⟨a4, b4⟩ | ⟨a4, b4⟩ | ⟨a4, a4', b4⟩ <;>
  first | (exfalso; linarith) | (left; linarith)

end

theorem tol_pos : (0 : ℝ) < zeroTolerance := by unfold zeroTolerance; positivity

/-- The speed along the segment is at least the smaller limit and at most the diagonal of the limits. -/
theorem linearSpeed_bounds {v l c s : ℝ} (hv : 0 < v) (hl : 0 < l) (h : c ^ 2 + s ^ 2 = 1) :
    min v l ≤ linearSpeed v l c s ∧ linearSpeed v l c s ^ 2 ≤ v ^ 2 + l ^ 2 := by
  have hc : |c| ≤ 1 := abs_le_one_iff_mul_self_le_one.mpr (by nlinarith [sq_nonneg s])
  have hs : |s| ≤ 1 := abs_le_one_iff_mul_self_le_one.mpr (by nlinarith [sq_nonneg c])
  have ht := tol_pos
  simp only [linearSpeed]
  split_ifs with h1 h2 h3
  · exact ⟨min_le_right _ _, by nlinarith⟩
  · exact ⟨min_le_left _ _, by nlinarith⟩
  · have hc0 : 0 < |c| := lt_of_lt_of_le ht (not_lt.mp h1)
    have hs0 : 0 < |s| := lt_of_lt_of_le ht (not_lt.mp h2)
    refine ⟨(min_le_left _ _).trans ((le_div_iff₀ hc0).mpr (by nlinarith)), ?_⟩
    set x := v / |c| with hx
    have e1 : v = x * |c| := by rw [hx]; field_simp
    have e2 : x * |s| ≤ l := by
      have := (lt_div_iff₀ hs0).mp h3
      exact this.le
    have hx0 : 0 < x := div_pos hv hc0
    have e3 : (x * |s|) ^ 2 ≤ l ^ 2 := by
      have : 0 ≤ x * |s| := by positivity
      nlinarith
    have e4 : v ^ 2 = x ^ 2 * c ^ 2 := by rw [e1, mul_pow, sq_abs]
    rw [mul_pow, sq_abs] at e3
    nlinarith
  · have hc0 : 0 < |c| := lt_of_lt_of_le ht (not_lt.mp h1)
    have hs0 : 0 < |s| := lt_of_lt_of_le ht (not_lt.mp h2)
    refine ⟨(min_le_right _ _).trans ((le_div_iff₀ hs0).mpr (by nlinarith)), ?_⟩
    set x := l / |s| with hx
    have e1 : l = x * |s| := by rw [hx]; field_simp
    have e2 : x * |c| ≤ v := by
      have := (le_div_iff₀ hc0).mp (not_lt.mp h3)
      exact this
    have hx0 : 0 < x := div_pos hl hs0
    have e3 : (x * |c|) ^ 2 ≤ v ^ 2 := by
      have : 0 ≤ x * |c| := by positivity
      nlinarith
    have e4 : l ^ 2 = x ^ 2 * s ^ 2 := by rw [e1, mul_pow, sq_abs]
    rw [mul_pow, sq_abs] at e3
    nlinarith

/-- What the controller asks for, seen from the segment `q` to the pose tracked: `r` is the velocity in the frame of the
robot before small components are dropped. -/
structure Aim (s g : UState ℝ) (v l a eta : ℝ) (u : Control ℝ) (speed : ℝ) (r : Vec2 ℝ) : Prop where
  slow : min v l ≤ speed
  fast : speed ^ 2 ≤ v ^ 2 + l ^ 2
  size : r.normSq = speed ^ 2
  dir : g.position - s.position = (Real.sqrt (g.position - s.position).normSq / speed) * rot s.angle r
  turn : u.angular = if 0 ≤ wrapOnce (g.angle - s.angle) then a else -a
  eta : eta = max (Real.sqrt (g.position - s.position).normSq / speed) (|wrapOnce (g.angle - s.angle)| / a)
  move : (Real.sqrt (g.position - s.position).normSq / speed < |wrapOnce (g.angle - s.angle)| / a ∧
      u.forward = 0 ∧ u.lateral = 0) ∨
    (|wrapOnce (g.angle - s.angle)| / a ≤ Real.sqrt (g.position - s.position).normSq / speed ∧
      u.forward = clip r.x ∧ u.lateral = clip r.y)

theorem velocitiesTo_aim {s g : UState ℝ} {v l a eta : ℝ} {u : Control ℝ} (hv : 0 < v) (hl : 0 < l)
    (h : velocitiesTo s g (v, l, a) = .ok (eta, u)) : ∃ speed r, Aim s g v l a eta u speed r := by
  set q := g.position - s.position with hq
  set z : ℂ := ⟨q.x, q.y⟩ with hz
  have hn : ‖z‖ = Real.sqrt q.normSq := by
    rw [Complex.norm_def, Complex.normSq_mk]; rfl
  have hx : Real.sqrt q.normSq * Real.cos z.arg = q.x := by rw [← hn]; exact Complex.norm_mul_cos_arg z
  have hy : Real.sqrt q.normSq * Real.sin z.arg = q.y := by rw [← hn]; exact Complex.norm_mul_sin_arg z
  have hcs := Real.cos_sq_add_sin_sq z.arg
  have hcs' := Real.cos_sq_add_sin_sq s.angle
  obtain ⟨b1, b2⟩ := linearSpeed_bounds hv hl hcs
  set sp := linearSpeed v l (Real.cos z.arg) (Real.sin z.arg) with hsp
  have hsp0 : 0 < sp := lt_of_lt_of_le (lt_min hv hl) b1
  have hD : (Trig.sqrt ((g.position.x - s.position.x) ^ 2 + (g.position.y - s.position.y) ^ 2) : ℝ) =
      Real.sqrt q.normSq := by
    rw [sqrt_real]; congr 1; simp only [Vec2.normSq, hq, Vec2.sub_x, Vec2.sub_y]; ring
  have hA : (Trig.atan2 (g.position.y - s.position.y) (g.position.x - s.position.x) : ℝ) = z.arg := rfl
  refine ⟨sp, ⟨sp * Real.cos z.arg * Real.cos s.angle + sp * Real.sin z.arg * Real.sin s.angle,
    -(sp * Real.cos z.arg) * Real.sin s.angle + sp * Real.sin z.arg * Real.cos s.angle⟩, b1, b2, ?_, ?_, ?_, ?_, ?_⟩
  · simp only [Vec2.normSq]
    linear_combination (sp ^ 2) * hcs + sp ^ 2 * (Real.cos z.arg ^ 2 + Real.sin z.arg ^ 2) * hcs'
  · ext
    · simp only [rot, Vec2.smul_x, cos_real, sin_real]
      rw [← hx]
      field_simp
      linear_combination (-Real.sqrt q.normSq * Real.cos z.arg) * hcs'
    · simp only [rot, Vec2.smul_y, cos_real, sin_real]
      rw [← hy]
      field_simp
      linear_combination (-Real.sqrt q.normSq * Real.sin z.arg) * hcs'
  all_goals
    simp only [velocitiesTo, hD, hA, cos_real, sin_real, ← hsp] at h
    split_ifs at h with h0 h1 h2 h2 <;> cases h <;> simp_all [le_of_lt]

/-- `y` is `x` or closer to zero. -/
def Shrunk (y x : ℝ) : Prop := ∃ k, 0 ≤ k ∧ k ≤ 1 ∧ y = k * x

theorem Shrunk.trans {x y z : ℝ} (h : Shrunk z y) (h' : Shrunk y x) : Shrunk z x := by
  obtain ⟨k, a, b, rfl⟩ := h
  obtain ⟨j, c, d, rfl⟩ := h'
  exact ⟨k * j, mul_nonneg a c, by nlinarith, by ring⟩

theorem Shrunk.mul {x y : ℝ} (h : Shrunk y x) : y ^ 2 ≤ y * x ∧ y ^ 2 ≤ x ^ 2 := by
  obtain ⟨k, a, b, rfl⟩ := h
  constructor <;> nlinarith [sq_nonneg x, mul_nonneg a (sub_nonneg.mpr b), mul_nonneg (mul_nonneg a (sub_nonneg.mpr b)) (sq_nonneg x)]

theorem shrunk_of {x y : ℝ} (h : (0 ≤ y ∧ y ≤ x) ∨ (x ≤ y ∧ y ≤ 0)) : Shrunk y x := by
  by_cases hx : x = 0
  · have : y = 0 := by rcases h with h | h <;> linarith [h.1, h.2]
    exact ⟨0, le_refl _, zero_le_one, by rw [this]; ring⟩
  · refine ⟨y / x, ?_, ?_, by field_simp⟩
    · rcases h with h | h
      · exact div_nonneg h.1 (h.1.trans h.2)
      · exact div_nonneg_of_nonpos h.2 (h.1.trans h.2)
    · rcases h with h | h
      · exact (div_le_one (lt_of_le_of_ne (h.1.trans h.2) (Ne.symm hx))).mpr h.2
      · exact (div_le_one_of_neg (lt_of_le_of_ne (h.1.trans h.2) hx)).mpr h.1

theorem clip_shrunk (x : ℝ) : Shrunk (clip x) x := by
  unfold clip
  split_ifs
  · exact ⟨0, le_refl _, zero_le_one, by ring⟩
  · exact ⟨1, zero_le_one, le_refl _, by ring⟩

theorem saturate_shrunk {x p n : ℝ} (hp : 0 < p) (hn : n < 0) : Shrunk (BaseCtrl.saturate x p n) x ∧
    (BaseCtrl.saturate x p n = x ∨ min p (-n) ≤ |BaseCtrl.saturate x p n|) := by
  unfold BaseCtrl.saturate
  rw [if_neg (by rintro (h | h) <;> linarith)]
  split_ifs with h1 h2
  · exact ⟨shrunk_of (Or.inl ⟨hp.le, h1.le⟩), Or.inr ((min_le_left _ _).trans (le_abs_self _))⟩
  · exact ⟨shrunk_of (Or.inr ⟨h2.le, hn.le⟩), Or.inr ((min_le_right _ _).trans (neg_le_abs _))⟩
  · exact ⟨⟨1, zero_le_one, le_refl _, by ring⟩, Or.inl rfl⟩

/-- The settings of the controller: `v`, `l`, `a` are the forward, lateral and angular speeds. -/
structure Limits (c : NavCtrl ℝ) (v l a : ℝ) : Prop where
  vel : c.maxVel = some (v, l, a)
  linear : c.base.maxLinear = v
  lateral : l = v * c.base.sideFactor
  angular : a = c.base.maxAngular / (1 + c.base.turnGain)
  turn : 0 ≤ c.base.turnGain
  back : 0 < c.base.backFactor
  vpos : 2 * zeroTolerance ≤ v
  lpos : 2 * zeroTolerance ≤ l
  apos : 0 < a

/-- A bound from below of the speed. -/
noncomputable def crawl (b : BaseCtrl ℝ) (a : ℝ) : ℝ :=
  min zeroTolerance (min (min (b.maxLinear / (1 + b.turnGain * a)) (b.backFactor * (b.maxLinear / (1 + b.turnGain * a))))
    (b.sideFactor * b.maxLinear))

theorem Limits.side {c : NavCtrl ℝ} {v l a : ℝ} (h : Limits c v l a) : 0 < c.base.sideFactor := by
  have hv : 0 < v := lt_of_lt_of_le (by have := tol_pos; linarith) h.vpos
  have hl : 0 < l := lt_of_lt_of_le (by have := tol_pos; linarith) h.lpos
  rw [h.lateral] at hl
  exact (pos_iff_pos_of_mul_pos hl).mp hv

theorem Limits.crawl_pos {c : NavCtrl ℝ} {v l a : ℝ} (h : Limits c v l a) : 0 < crawl c.base a := by
  have hv : 0 < v := lt_of_lt_of_le (by have := tol_pos; linarith) h.vpos
  have h1 := h.turn
  have h2 := h.apos
  have h3 := h.back
  have h4 := h.side
  have h5 : 0 < c.base.maxLinear := by rw [h.linear]; exact hv
  have := tol_pos
  unfold crawl
  refine lt_min this (lt_min (lt_min ?_ ?_) ?_) <;> positivity

/-- The saturation does not change the angular velocity and shortens the others, but not below `crawl`. -/
theorem Limits.doControl {c : NavCtrl ℝ} {v l a : ℝ} (h : Limits c v l a) {u : Control ℝ} (hu : |u.angular| = a) :
    ∃ u', c.base.doControl (some u) = some u' ∧ u'.angular = u.angular ∧ Shrunk u'.forward u.forward ∧
      Shrunk u'.lateral u.lateral ∧ (u'.forward = u.forward ∨ crawl c.base a ≤ |u'.forward|) ∧
      (u'.lateral = u.lateral ∨ crawl c.base a ≤ |u'.lateral|) := by
  have hv : 0 < v := lt_of_lt_of_le (by have := tol_pos; linarith) h.vpos
  have h1 := h.turn
  have h2 := h.apos
  have h3 := h.back
  have h4 := h.side
  have h5 : 0 < c.base.maxLinear := by rw [h.linear]; exact hv
  have ht : 0 < 1 + c.base.turnGain := by linarith
  have hA : c.base.maxAngular = a * (1 + c.base.turnGain) := by rw [h.angular]; field_simp
  have hle : a ≤ c.base.maxAngular := by rw [hA]; nlinarith
  have hw : BaseCtrl.saturateSym u.angular c.base.maxAngular = u.angular := by
    obtain ⟨g1, g2⟩ := abs_le.mp hu.le
    unfold BaseCtrl.saturateSym BaseCtrl.saturate
    rw [if_neg (by rintro (h | h) <;> linarith), if_neg (by linarith), if_neg (by linarith)]
  have hvs : c.base.velocitySaturation u.angular = c.base.maxLinear / (1 + c.base.turnGain * a) := by
    unfold BaseCtrl.velocitySaturation
    rw [sqrt_real, Real.sqrt_mul_self_eq_abs, hu]
  have hvs0 : 0 < c.base.maxLinear / (1 + c.base.turnGain * a) := by positivity
  set m := c.base.maxLinear / (1 + c.base.turnGain * a) with hm
  have hb0 : 0 < c.base.backFactor * m := by positivity
  have hl0 : 0 < c.base.sideFactor * c.base.maxLinear := by positivity
  refine ⟨_, rfl, hw, ?_, ?_, ?_, ?_⟩
  all_goals simp only [hw, hvs]
  · exact (saturate_shrunk hvs0 (by linarith)).1
  · exact (saturate_shrunk hl0 (by linarith)).1
  · refine (saturate_shrunk hvs0 (by linarith)).2.imp id fun g => le_trans ?_ g
    rw [crawl, ← hm]
    refine (min_le_right _ _).trans ((min_le_left _ _).trans (le_of_eq ?_))
    congr 1; ring
  · refine (saturate_shrunk hl0 (by linarith)).2.imp id fun g => le_trans ?_ g
    rw [crawl, neg_neg, min_self]
    exact (min_le_right _ _).trans (min_le_right _ _)

theorem cos_wrapOnce (θ : ℝ) : Real.cos (wrapOnce θ) = Real.cos θ := by
  unfold wrapOnce
  split_ifs
  · rw [pi_real, Real.cos_sub_two_pi]
  · rw [pi_real, Real.cos_add_two_pi]
  · rfl

theorem sin_wrapOnce (θ : ℝ) : Real.sin (wrapOnce θ) = Real.sin θ := by
  unfold wrapOnce
  split_ifs
  · rw [pi_real, Real.sin_sub_two_pi]
  · rw [pi_real, Real.sin_add_two_pi]
  · rfl

/-- The heading after a step. -/
theorem turn_step {c : NavCtrl ℝ} {v l a h : ℝ} (hc : Limits c v l a) {s g : UState ℝ} (hg : |g.angle| ≤ π) (hh : 0 ≤ h)
    (hha : h * a ≤ π) {u : Control ℝ} (hu : u.angular = if 0 ≤ headingError g.angle s.angle then a else -a) :
    |headingError g.angle (eulerStep h s u).angle| = |(|headingError g.angle s.angle| - h * a)| := by
  have ha := hc.apos
  have h0 : 0 ≤ h * a := mul_nonneg hh ha.le
  have e : (eulerStep h s u).angle = s.angle + h * u.angular := rfl
  rw [e, hu]
  split_ifs with hp
  · rw [headingError_add (by rw [pi_real]; exact Real.pi_pos) hg h0 hha hp, abs_of_nonneg hp]
  · have hp' := not_le.mp hp
    have : s.angle + h * -a = s.angle - h * a := by ring
    rw [this, headingError_sub (by rw [pi_real]; exact Real.pi_pos) hg h0 hha hp', abs_of_neg hp']
    rw [← abs_neg (-headingError g.angle s.angle - h * a)]
    congr 1; ring

/-- At least one component of the velocity survives. -/
theorem fast_enough {m speed rx ry fx fy f w : ℝ} (hm : 0 < m) (hmt : m ≤ zeroTolerance) (hs : 2 * zeroTolerance ≤ speed)
    (hsz : rx ^ 2 + ry ^ 2 = speed ^ 2) (hfx : fx = clip rx) (hfy : fy = clip ry) (hf : f = fx ∨ m ≤ |f|)
    (hw : w = fy ∨ m ≤ |w|) : m ^ 2 ≤ f ^ 2 + w ^ 2 := by
  have htol := tol_pos
  have main : ∀ x y z : ℝ, zeroTolerance ≤ |x| → (z = y ∨ m ≤ |z|) → y = clip x → m ^ 2 ≤ z ^ 2 := by
    intro x y z hx hz hy
    have : m ≤ |z| := by
      rcases hz with rfl | hz
      · rw [hy, clip, if_neg (not_lt.mpr hx)]; exact hmt.trans hx
      · exact hz
    rw [← sq_abs z]
    exact pow_le_pow_left₀ hm.le this 2
  by_cases hx : zeroTolerance ≤ |rx|
  · have := main _ _ _ hx hf hfx
    linarith [sq_nonneg w]
  · have hy : zeroTolerance ≤ |ry| := by
      by_contra hy
      have g1 : rx ^ 2 ≤ zeroTolerance ^ 2 := by
        rw [← sq_abs rx]; exact pow_le_pow_left₀ (abs_nonneg _) (not_le.mp hx).le 2
      have g2 : ry ^ 2 ≤ zeroTolerance ^ 2 := by
        rw [← sq_abs ry]; exact pow_le_pow_left₀ (abs_nonneg _) (not_le.mp hy).le 2
      have g3 : (2 * zeroTolerance : ℝ) ^ 2 ≤ speed ^ 2 := pow_le_pow_left₀ (by linarith) hs 2
      have g4 : 0 < (zeroTolerance : ℝ) ^ 2 := by positivity
      rw [mul_pow] at g3
      linarith
    have := main _ _ _ hy hw hfy
    linarith [sq_nonneg f]

/-- The distance after a step. -/
theorem move_step {c : NavCtrl ℝ} {v l a h eta : ℝ} (hc : Limits c v l a) {s g : UState ℝ} (hh : 0 < h) {u u' : Control ℝ}
    {speed : ℝ} {r : Vec2 ℝ} (haim : Aim ⟨s.position, wrapOnce s.angle⟩ g v l a eta u speed r)
    (hmove : u.forward = clip r.x ∧ u.lateral = clip r.y)
    (hf : Shrunk u'.forward u.forward) (hl : Shrunk u'.lateral u.lateral)
    (hf' : u'.forward = u.forward ∨ crawl c.base a ≤ |u'.forward|)
    (hl' : u'.lateral = u.lateral ∨ crawl c.base a ≤ |u'.lateral|) :
    let q := g.position - s.position
    let q' := g.position - (eulerStep h s u').position
    (h ≤ Real.sqrt q.normSq / speed → q'.normSq ≤ q.normSq - (h * crawl c.base a) ^ 2) ∧
      q'.normSq ≤ q.normSq + h ^ 2 * speed ^ 2 := by
  intro q q'
  have hv : 0 < v := lt_of_lt_of_le (by have := tol_pos; linarith) hc.vpos
  have hlp : 0 < l := lt_of_lt_of_le (by have := tol_pos; linarith) hc.lpos
  have hsp : 0 < speed := lt_of_lt_of_le (lt_min hv hlp) haim.slow
  have htol := tol_pos
  have hcr := hc.crawl_pos
  set k := Real.sqrt q.normSq / speed with hk
  have hk0 : 0 ≤ k := div_nonneg (Real.sqrt_nonneg _) hsp.le
  have hdir : q = k * rot s.angle r := by
    have := haim.dir
    simp only [rot, cos_real, sin_real, cos_wrapOnce, sin_wrapOnce] at this ⊢
    exact this
  set f := u'.forward with hfd
  set w := u'.lateral with hwd
  have sx : Shrunk f r.x := hf.trans (by rw [hmove.1]; exact clip_shrunk _)
  have sy : Shrunk w r.y := hl.trans (by rw [hmove.2]; exact clip_shrunk _)
  obtain ⟨x1, x2⟩ := sx.mul
  obtain ⟨y1, y2⟩ := sy.mul
  have hq' : q' = q - h * rot s.angle ⟨f, w⟩ := by
    ext <;> simp [q', q, eulerStep, dynamics, rot, hfd, hwd] <;> ring
  have cs := Real.cos_sq_add_sin_sq s.angle
  have hn : q'.normSq = q.normSq - 2 * h * k * (r.x * f + r.y * w) + h ^ 2 * (f ^ 2 + w ^ 2) := by
    rw [hq', hdir]
    simp only [Vec2.normSq, rot, Vec2.sub_x, Vec2.sub_y, Vec2.smul_x, Vec2.smul_y, cos_real, sin_real]
    linear_combination (h ^ 2 * (f ^ 2 + w ^ 2) - 2 * h * k * (r.x * f + r.y * w)) * cs
  have hsz : r.x ^ 2 + r.y ^ 2 = speed ^ 2 := by rw [← haim.size]; simp only [Vec2.normSq]; ring
  constructor
  · intro hkh
    have low : (crawl c.base a) ^ 2 ≤ f ^ 2 + w ^ 2 :=
      fast_enough hcr (min_le_left _ _) ((le_min hc.vpos hc.lpos).trans haim.slow) hsz hmove.1 hmove.2 hf' hl'
    have e1 : f ^ 2 + w ^ 2 ≤ r.x * f + r.y * w := by linarith [mul_comm f r.x, mul_comm w r.y]
    have e2 : h * (f ^ 2 + w ^ 2) ≤ k * (r.x * f + r.y * w) :=
      mul_le_mul hkh e1 (by positivity) hk0
    have e3 : h * (h * (f ^ 2 + w ^ 2)) ≤ h * (k * (r.x * f + r.y * w)) := mul_le_mul_of_nonneg_left e2 hh.le
    have e4 : h ^ 2 * crawl c.base a ^ 2 ≤ h ^ 2 * (f ^ 2 + w ^ 2) := mul_le_mul_of_nonneg_left low (by positivity)
    rw [hn, mul_pow]
    linarith
  · have e1 : 0 ≤ r.x * f + r.y * w := by linarith [sq_nonneg f, sq_nonneg w, mul_comm f r.x, mul_comm w r.y]
    have e2 : 0 ≤ h * k * (r.x * f + r.y * w) := by positivity
    have e3 : f ^ 2 + w ^ 2 ≤ speed ^ 2 := by rw [← hsz]; linarith
    have e4 : h ^ 2 * (f ^ 2 + w ^ 2) ≤ h ^ 2 * speed ^ 2 := mul_le_mul_of_nonneg_left e3 (by positivity)
    rw [hn]
    linarith

end Uni.NavCtrl
