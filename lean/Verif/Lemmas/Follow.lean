import Verif.Spec.Follow
import Verif.Props.PersonFollowing
import Mathlib.Analysis.SpecialFunctions.Trigonometric.Bounds

/-! # One step of the integrator towards a target -/

set_option autoImplicit false
set_option linter.unusedSectionVars false

namespace Uni.Follow
open Spec PersonCtrl

/-- A limited value is the value times a factor. -/
theorem saturate_factor {x p n M m : ℝ} (hx : |x| ≤ M) (hp : 0 < p) (hn : n < 0) (hmp : m ≤ p) (hmn : m ≤ -n) :
    ∃ l, BaseCtrl.saturate x p n = l * x ∧ min 1 (m / M) ≤ l ∧ 0 ≤ l ∧ l ≤ 1 := by
  unfold BaseCtrl.saturate
  have hx' := abs_le.mp hx
  split_ifs with h1 h2 h3
  · rcases h1 with h | h <;> linarith
  · have hx0 : 0 < x := hp.trans h2
    refine ⟨p / x, by field_simp, ?_, by positivity, (div_le_one hx0).mpr h2.le⟩
    refine (min_le_right _ _).trans ?_
    have hM : 0 < M := lt_of_lt_of_le hx0 hx'.2
    rw [div_le_div_iff₀ hM hx0]
    nlinarith
  · have hx0 : x < 0 := h3.trans hn
    refine ⟨n / x, by field_simp [hx0.ne], ?_, (div_pos_of_neg_of_neg hn hx0).le, ?_⟩
    · refine (min_le_right _ _).trans ?_
      have hM : 0 < M := by linarith
      rw [show n / x = (-n) / (-x) by rw [neg_div_neg_eq], div_le_div_iff₀ hM (by linarith)]
      nlinarith
    · rw [show n / x = (-n) / (-x) by rw [neg_div_neg_eq], div_le_one (by linarith)]
      linarith
  · exact ⟨1, (one_mul _).symm, min_le_left _ _, zero_le_one, le_rfl⟩

/-- The sine of a small angle. -/
theorem sin_bounds {u : ℝ} (h0 : 0 ≤ u) (h1 : u ≤ 1) : 5 / 6 * u ≤ Real.sin u ∧ Real.sin u ≤ u := by
  refine ⟨?_, Real.sin_le h0⟩
  rcases h0.eq_or_lt with rfl | h0
  · simp
  · have := Real.sin_gt_sub_cube h0
    nlinarith [mul_nonneg h0.le h0.le, mul_nonneg h0.le (sub_nonneg.mpr h1), mul_nonneg (mul_nonneg h0.le h0.le) (sub_nonneg.mpr h1)]

/-- The arc followed to the side in one step. -/
theorem side_step {b dx x φ : ℝ} (hdx : 0 < dx) (hx0 : 0 ≤ x) (hx1 : x ≤ 1) (hφ : dx * φ = -(x * b)) (hφ1 : |φ| ≤ 1) :
    (b + dx * Real.sin φ) ^ 2 ≤ (1 - 5 / 6 * x) ^ 2 * b ^ 2 := by
  rcases le_total 0 φ with h | h
  · have hb := sin_bounds h (abs_le.mp hφ1).2
    have e1 : 5 / 6 * (dx * φ) ≤ dx * Real.sin φ := by nlinarith
    have e2 : dx * Real.sin φ ≤ dx * φ := by nlinarith
    have hd : 0 ≤ dx * φ := mul_nonneg hdx.le h
    rcases hx0.eq_or_lt with rfl | hx0
    · have : dx * Real.sin φ = 0 := by nlinarith
      rw [this]; nlinarith
    have hb0 : b ≤ 0 := by nlinarith
    rw [← mul_pow, ← neg_sq (b + _), ← neg_sq ((1 - _) * b)]
    exact sq_le_sq' (by nlinarith) (by nlinarith)
  · have hb := sin_bounds (neg_nonneg.mpr h) (by linarith [(abs_le.mp hφ1).1])
    rw [Real.sin_neg] at hb
    have e1 : dx * Real.sin φ ≤ 5 / 6 * (dx * φ) := by nlinarith
    have e2 : dx * φ ≤ dx * Real.sin φ := by nlinarith
    have hd : dx * φ ≤ 0 := mul_nonpos_of_nonneg_of_nonpos hdx.le h
    rcases hx0.eq_or_lt with rfl | hx0
    · have : dx * Real.sin φ = 0 := by nlinarith
      rw [this]; nlinarith
    have hb0 : 0 ≤ b := by nlinarith
    rw [← mul_pow]
    exact sq_le_sq' (by nlinarith) (by nlinarith)

private theorem shrink_front {y z : ℝ} (h0 : 0 ≤ z) (hzy : z ≤ y) (h1 : y ≤ 1) : (1 - y) ^ 2 ≤ 1 - z / 6 := by nlinarith

private theorem shrink_side {x z : ℝ} (h0 : 0 ≤ x) (hzx : z ≤ x) (h1 : x ≤ 1 / 2) :
    (1 - 5 / 6 * x) ^ 2 + x + x ^ 2 / 4 ≤ 1 - z / 6 := by nlinarith

/-- One step brings the followed point closer. -/
theorem contract {a b dx c l₁ l₂ R α φ : ℝ} (hdx : 0 < dx) (hc0 : 0 ≤ c) (hc : c ≤ 1 / 2) (hcR : c * R ≤ dx) (hR : 0 ≤ R)
    (hab : a ^ 2 + b ^ 2 ≤ R ^ 2) (hα : 0 ≤ α) (h1 : α ≤ l₁) (h1' : l₁ ≤ 1) (h2 : α ≤ l₂) (h2' : l₂ ≤ 1)
    (hφ : dx * φ = -(c * l₂ * b)) :
    (a - c * l₁ * a + dx * (Real.cos φ - 1)) ^ 2 + (b + dx * Real.sin φ) ^ 2 ≤ (1 - c * α / 6) * (a ^ 2 + b ^ 2) := by
  have hl1 : 0 ≤ l₁ := hα.trans h1
  have hl2 : 0 ≤ l₂ := hα.trans h2
  have hx0 : 0 ≤ c * l₂ := mul_nonneg hc0 hl2
  have hxc : c * l₂ ≤ c := mul_le_of_le_one_right hc0 h2'
  have hy1 : c * l₁ ≤ 1 := (mul_le_of_le_one_right hc0 h1').trans (by linarith)
  have haR : |a| ≤ R := abs_le_of_sq_le_sq (by linarith [sq_nonneg a, sq_nonneg b]) hR
  have hbR : |b| ≤ R := abs_le_of_sq_le_sq (by linarith [sq_nonneg a, sq_nonneg b]) hR
  have hφ1 : |φ| ≤ 1 := by
    have e : dx * |φ| = c * l₂ * |b| := by
      rw [← abs_of_pos hdx, ← abs_mul, hφ, abs_neg, abs_mul, abs_of_nonneg hx0]
    have : c * l₂ * |b| ≤ c * R := mul_le_mul hxc hbR (abs_nonneg b) hc0
    have h3 : dx * |φ| ≤ dx * 1 := by linarith
    exact le_of_mul_le_mul_left h3 hdx
  have hside := side_step hdx hx0 (by linarith) hφ hφ1
  have hq0 : 0 ≤ dx * (1 - Real.cos φ) := mul_nonneg hdx.le (by linarith [Real.cos_le_one φ])
  have hq1 : dx * (1 - Real.cos φ) ≤ dx * φ ^ 2 / 2 := by
    have := Real.one_sub_sq_div_two_le_cos (x := φ)
    nlinarith
  -- the size of the second-order term
  have hw : R * (dx * φ ^ 2) ≤ c * l₂ * b ^ 2 := by
    have e : dx * (dx * φ ^ 2) = (c * l₂) ^ 2 * b ^ 2 := by
      have : dx * (dx * φ ^ 2) = (dx * φ) ^ 2 := by ring
      rw [this, hφ]; ring
    have h3 : dx * (R * (dx * φ ^ 2)) ≤ dx * (c * l₂ * b ^ 2) := by
      have : dx * (R * (dx * φ ^ 2)) = R * ((c * l₂) ^ 2 * b ^ 2) := by rw [← e]; ring
      rw [this]
      have h4 : R * ((c * l₂) ^ 2 * b ^ 2) = (c * R) * (l₂ * (c * l₂ * b ^ 2)) := by ring
      rw [h4]
      have h5 : 0 ≤ c * l₂ * b ^ 2 := mul_nonneg hx0 (sq_nonneg b)
      have h6 : l₂ * (c * l₂ * b ^ 2) ≤ c * l₂ * b ^ 2 := mul_le_of_le_one_left h5 h2'
      exact mul_le_mul hcR h6 (mul_nonneg hl2 h5) hdx.le
    exact le_of_mul_le_mul_left h3 hdx
  have hq2 : (dx * (1 - Real.cos φ)) ^ 2 ≤ (c * l₂) ^ 2 * b ^ 2 / 4 := by
    have h3 : (dx * (1 - Real.cos φ)) ^ 2 ≤ (dx * φ ^ 2 / 2) ^ 2 := pow_le_pow_left₀ hq0 hq1 2
    have h4 : (dx * φ ^ 2 / 2) ^ 2 = (dx * φ) ^ 2 * φ ^ 2 / 4 := by ring
    have h5 : φ ^ 2 ≤ 1 := by rw [← sq_abs]; nlinarith [abs_nonneg φ]
    have h6 : (dx * φ) ^ 2 = (c * l₂) ^ 2 * b ^ 2 := by rw [hφ]; ring
    rw [h4, h6] at h3
    have h7 : 0 ≤ (c * l₂) ^ 2 * b ^ 2 := by positivity
    have h8 : (c * l₂) ^ 2 * b ^ 2 * φ ^ 2 ≤ (c * l₂) ^ 2 * b ^ 2 := mul_le_of_le_one_right h7 h5
    linarith
  generalize hq : dx * (1 - Real.cos φ) = q at *
  have hfront : (a - c * l₁ * a + dx * (Real.cos φ - 1)) ^ 2 ≤
      (1 - c * l₁) ^ 2 * a ^ 2 + c * l₂ * b ^ 2 + (c * l₂) ^ 2 * b ^ 2 / 4 := by
    have e : a - c * l₁ * a + dx * (Real.cos φ - 1) = (1 - c * l₁) * a - q := by rw [← hq]; ring
    rw [e]
    have hcl : 0 ≤ 1 - c * l₁ ∧ 1 - c * l₁ ≤ 1 := ⟨by linarith, by linarith [mul_nonneg hc0 hl1]⟩
    have h3 : -((1 - c * l₁) * a) ≤ R := by
      have : -((1 - c * l₁) * a) ≤ |(1 - c * l₁) * a| := neg_le_abs _
      rw [abs_mul, abs_of_nonneg hcl.1] at this
      exact this.trans ((mul_le_of_le_one_left (abs_nonneg a) hcl.2).trans haR)
    have h4 : -((1 - c * l₁) * a) * q ≤ R * q := mul_le_mul_of_nonneg_right h3 hq0
    have h5 : R * q ≤ R * (dx * φ ^ 2 / 2) := mul_le_mul_of_nonneg_left hq1 hR
    have e2 : ((1 - c * l₁) * a - q) ^ 2 = (1 - c * l₁) ^ 2 * a ^ 2 + 2 * (-((1 - c * l₁) * a) * q) + q ^ 2 := by ring
    have e3 : R * (dx * φ ^ 2 / 2) = R * (dx * φ ^ 2) / 2 := by ring
    rw [e2]
    linarith
  have hfa : (1 - c * l₁) ^ 2 * a ^ 2 ≤ (1 - c * α / 6) * a ^ 2 := by
    exact mul_le_mul_of_nonneg_right
      (shrink_front (mul_nonneg hc0 hα) (mul_le_mul_of_nonneg_left h1 hc0) hy1) (sq_nonneg a)
  have hfb : ((1 - 5 / 6 * (c * l₂)) ^ 2 + c * l₂ + (c * l₂) ^ 2 / 4) * b ^ 2 ≤ (1 - c * α / 6) * b ^ 2 := by
    exact mul_le_mul_of_nonneg_right
      (shrink_side hx0 (mul_le_mul_of_nonneg_left h2 hc0) (hxc.trans hc)) (sq_nonneg b)
  have e4 : ((1 - 5 / 6 * (c * l₂)) ^ 2 + c * l₂ + (c * l₂) ^ 2 / 4) * b ^ 2 =
      (1 - 5 / 6 * (c * l₂)) ^ 2 * b ^ 2 + c * l₂ * b ^ 2 + (c * l₂) ^ 2 * b ^ 2 / 4 := by ring
  have e5 : (1 - c * α / 6) * (a ^ 2 + b ^ 2) = (1 - c * α / 6) * a ^ 2 + (1 - c * α / 6) * b ^ 2 := by ring
  linarith

/-- The command in the frame of the unicycle: each component of the error is reduced. -/
theorem command (p : Planner ℝ) (garbage : ℝ) (target : Vec2 ℝ) (t : ℝ) (s : UState ℝ) (R : ℝ)
    (hp : Follows p target t) (hR : offBy p.ctrl.person.personDistance target s ≤ R) :
    let d := p.ctrl.person.personDistance.x
    let k := p.ctrl.person.gain
    let e := inFrame s.position s.angle p.ctrl.person.personDistance - target
    let a := Real.cos s.angle * e.x + Real.sin s.angle * e.y
    let b := -(Real.sin s.angle) * e.x + Real.cos s.angle * e.y
    a ^ 2 + b ^ 2 = offBy p.ctrl.person.personDistance target s ^ 2 ∧
    ∃ l₁ l₂, p.controlAt garbage t s = some ⟨-(l₁ * k * a), -(l₂ * k * b / d), 0⟩ ∧
      effective p.ctrl.person.base k d R ≤ l₁ ∧ l₁ ≤ 1 ∧ effective p.ctrl.person.base k d R ≤ l₂ ∧ l₂ ≤ 1 := by
  intro d k e a b
  have hsc := Real.sin_sq_add_cos_sq s.angle
  have hoff : offBy p.ctrl.person.personDistance target s ^ 2 = e.x ^ 2 + e.y ^ 2 := by
    unfold offBy Spec.dist
    rw [Real.sq_sqrt (by positivity)]
    rfl
  have hab : a ^ 2 + b ^ 2 = e.x ^ 2 + e.y ^ 2 := by
    have : a ^ 2 + b ^ 2 = (Real.sin s.angle ^ 2 + Real.cos s.angle ^ 2) * (e.x ^ 2 + e.y ^ 2) := by
      simp only [a, b]; ring
    rw [this, hsc, one_mul]
  refine ⟨hab.trans hoff.symm, ?_⟩
  have hd : 0 < d := hp.ahead
  have hk : 0 < k := hp.gain
  have hoff0 : 0 ≤ offBy p.ctrl.person.personDistance target s := Real.sqrt_nonneg _
  have hR0 : 0 ≤ R := hoff0.trans hR
  have hR2 : a ^ 2 + b ^ 2 ≤ R ^ 2 := by
    rw [hab, ← hoff]
    exact pow_le_pow_left₀ hoff0 hR 2
  have haR : |a| ≤ R := abs_le_of_sq_le_sq (by linarith [sq_nonneg a, sq_nonneg b]) hR0
  have hbR : |b| ≤ R := abs_le_of_sq_le_sq (by linarith [sq_nonneg a, sq_nonneg b]) hR0
  -- the control law
  have hu : (p.ctrl.person.setFeedback t s.position s.angle).doUnicycleControl garbage =
      .ok ⟨-(k * a), -(k * b / d), 0⟩ := by
    have href : ∀ g, (p.ctrl.person.setFeedback t s.position s.angle).referenceInEllipse g s.position s.angle target = target := by
      intro g
      rcases hp.free with ⟨h1, h2⟩ | ⟨h1, h2⟩
      · simp only [referenceInEllipse, setFeedback, h1, h2, Bool.false_and, Bool.false_eq_true, if_false, blending, mul_zero]
        ext <;> simp
      · simp only [referenceInEllipse, setFeedback, h1, h2, Bool.and_self, if_true]
    have hdes : (p.ctrl.person.setFeedback t s.position s.angle).getDesiredPoint t = .ok (target, 0) := hp.fixed t le_rfl
    simp only [doUnicycleControl, getDesiredPointInFreeSpaceEllipse, bind, Out.bind]
    rw [show (p.ctrl.person.setFeedback t s.position s.angle).time = t from rfl, hdes]
    simp only
    rw [show (p.ctrl.person.setFeedback t s.position s.angle).unicyclePosition = s.position from rfl,
      show (p.ctrl.person.setFeedback t s.position s.angle).theta = s.angle from rfl, href]
    refine congrArg Out.ok ?_
    have hst := hp.straight
    ext
    · simp only [controlLaw, setFeedback, PersonCtrl.getPersonPosition, a, e, inFrame, rot, k, Trig.cos, Trig.sin]
      simp [hst]
      ring
    · simp only [controlLaw, setFeedback, PersonCtrl.getPersonPosition, b, e, inFrame, rot, k, d, Trig.cos, Trig.sin]
      simp [hst]
      field_simp
      ring
    · rfl
  -- the limits
  have hA := hp.angular
  have hL := hp.linear
  have hg := hp.turn
  have hb := hp.back
  set β := p.ctrl.person.base with hβ
  obtain ⟨l₂, hl₂, hα₂, hl₂0, hl₂1⟩ := saturate_factor (x := -(k * b / d)) (p := β.maxAngular) (n := -β.maxAngular)
    (M := k * R / d) (m := β.maxAngular)
    (by rw [abs_neg, abs_div, abs_mul, abs_of_pos hk, abs_of_pos hd]; gcongr) hA (by linarith) le_rfl (by simp)
  set w := BaseCtrl.saturateSym (-(k * b / d)) β.maxAngular with hw
  have hwA : |w| ≤ β.maxAngular := by
    rw [hw]
    unfold BaseCtrl.saturateSym BaseCtrl.saturate
    rw [abs_le]
    split_ifs with h1 h2 h3 <;> constructor <;> first | linarith | (rcases h1 with h | h <;> linarith)
  have hvs : β.maxLinear / (1 + β.turnGain * β.maxAngular) ≤ β.velocitySaturation w := by
    unfold BaseCtrl.velocitySaturation
    have : Trig.sqrt (w * w) = |w| := Real.sqrt_mul_self_eq_abs w
    rw [this]
    have h1 : 0 ≤ β.turnGain * |w| := mul_nonneg hg (abs_nonneg w)
    gcongr
  have hm0 : 0 < β.maxLinear / (1 + β.turnGain * β.maxAngular) := by positivity
  have hvs0 : 0 < β.velocitySaturation w := hm0.trans_le hvs
  have hmin : 0 < min 1 β.backFactor := lt_min one_pos hb
  obtain ⟨l₁, hl₁, hα₁, hl₁0, hl₁1⟩ := saturate_factor (x := -(k * a)) (p := β.velocitySaturation w)
    (n := -β.backFactor * β.velocitySaturation w) (M := k * R)
    (m := min 1 β.backFactor * (β.maxLinear / (1 + β.turnGain * β.maxAngular)))
    (by rw [abs_neg, abs_mul, abs_of_pos hk]; gcongr) hvs0 (by nlinarith)
    ((mul_le_of_le_one_left hm0.le (min_le_left _ _)).trans hvs)
    (by rw [neg_mul, neg_neg]; exact mul_le_mul (min_le_right _ _) hvs hm0.le hb.le)
  refine ⟨l₁, l₂, ?_, ?_, hl₁1, ?_, hl₂1⟩
  · simp only [Planner.controlAt, hp.controller, hu, BaseCtrl.doControl, Option.map_some, Option.some.injEq]
    ext
    · simp only
      rw [← hβ, ← hw, hl₁]; ring
    · simp only
      rw [← hβ, BaseCtrl.saturateSym, hl₂]; ring
    · simp only [BaseCtrl.saturateSym, BaseCtrl.saturate]
      split_ifs with h1 h2 h3
      · rfl
      · exact absurd (Or.inl h2) h1
      · exact absurd (Or.inl (by linarith)) h1
      · rfl
  · refine le_trans ?_ hα₁
    exact le_min (min_le_left _ _) ((min_le_right _ _).trans (min_le_left _ _))
  · refine le_trans ?_ hα₂
    refine le_min (min_le_left _ _) ((min_le_right _ _).trans ((min_le_right _ _).trans ?_))
    rw [div_div_eq_mul_div]

/-- The limits leave a part of the gain. -/
theorem effective_nonneg (p : Planner ℝ) (target : Vec2 ℝ) (t R : ℝ) (hp : Follows p target t) (hR : 0 ≤ R) :
    0 ≤ effective p.ctrl.person.base p.ctrl.person.gain p.ctrl.person.personDistance.x R := by
  have := hp.angular
  have := hp.linear
  have := hp.turn
  have := hp.ahead
  have := hp.gain
  have := (lt_min one_pos hp.back).le
  unfold effective
  refine le_min zero_le_one (le_min ?_ ?_) <;> positivity

/-- One step of the integrator. -/
theorem step_closer (p : Planner ℝ) (garbage : ℝ) (target : Vec2 ℝ) (t : ℝ) (s : UState ℝ) (R h : ℝ)
    (hp : Follows p target t) (hR : offBy p.ctrl.person.personDistance target s ≤ R)
    (hh : Short p.ctrl.person.gain p.ctrl.person.personDistance.x R h) :
    ∃ u, p.controlAt garbage t s = some u ∧
      offBy p.ctrl.person.personDistance target (eulerStep h s u) ^ 2 ≤
        (1 - h * p.ctrl.person.gain * effective p.ctrl.person.base p.ctrl.person.gain p.ctrl.person.personDistance.x R / 6) *
          offBy p.ctrl.person.personDistance target s ^ 2 := by
  obtain ⟨hab, l₁, l₂, hu, h1, h1', h2, h2'⟩ := command p garbage target t s R hp hR
  obtain ⟨hh0, hh1, hh2⟩ := hh
  refine ⟨_, hu, ?_⟩
  have hd := hp.ahead
  have hk := hp.gain
  have hoff0 : 0 ≤ offBy p.ctrl.person.personDistance target s := Real.sqrt_nonneg _
  have hR0 : 0 ≤ R := hoff0.trans hR
  have hα := effective_nonneg p target t R hp hR0
  rw [← hab]
  set θ := s.angle with hθ
  set e := inFrame s.position θ p.ctrl.person.personDistance - target with he
  set a := Real.cos θ * e.x + Real.sin θ * e.y with ha
  set b := -(Real.sin θ) * e.x + Real.cos θ * e.y with hb
  set d := p.ctrl.person.personDistance.x with hdd
  set k := p.ctrl.person.gain with hkk
  refine le_trans (le_of_eq ?_) (contract (a := a) (b := b) (dx := d) (c := h * k) (l₁ := l₁) (l₂ := l₂) (R := R)
    (φ := h * -(l₂ * k * b / d)) hd (mul_nonneg hh0 hk.le) hh1 hh2 hR0
    (by rw [hab]; exact pow_le_pow_left₀ hoff0 hR 2) hα h1 h1' h2 h2' (by field_simp))
  -- the error after the step, in the frame before it
  have hsc := Real.sin_sq_add_cos_sq θ
  have hoff' : ∀ q : UState ℝ, offBy p.ctrl.person.personDistance target q ^ 2 =
      ((inFrame q.position q.angle p.ctrl.person.personDistance).x - target.x) ^ 2 +
      ((inFrame q.position q.angle p.ctrl.person.personDistance).y - target.y) ^ 2 := by
    intro q
    unfold offBy Spec.dist
    rw [Real.sq_sqrt (by positivity)]
  rw [hoff']
  generalize hφ : h * -(l₂ * k * b / d) = φ
  set A := a - h * k * l₁ * a + d * (Real.cos φ - 1) with hA
  set B := b + d * Real.sin φ with hB
  have hst := hp.straight
  have hex : e.x = Real.cos θ * a - Real.sin θ * b := by
    have : Real.cos θ * a - Real.sin θ * b = (Real.sin θ ^ 2 + Real.cos θ ^ 2) * e.x := by rw [ha, hb]; ring
    rw [this, hsc, one_mul]
  have hey : e.y = Real.sin θ * a + Real.cos θ * b := by
    have : Real.sin θ * a + Real.cos θ * b = (Real.sin θ ^ 2 + Real.cos θ ^ 2) * e.y := by rw [ha, hb]; ring
    rw [this, hsc, one_mul]
  have hex' : e.x = s.position.x + Real.cos θ * d - target.x := by
    rw [he]; simp [inFrame, hst, hdd]
  have hey' : e.y = s.position.y + Real.sin θ * d - target.y := by
    rw [he]; simp [inFrame, hst, hdd]
  have hx : (inFrame (eulerStep h s ⟨-(l₁ * k * a), -(l₂ * k * b / d), 0⟩).position
      (eulerStep h s ⟨-(l₁ * k * a), -(l₂ * k * b / d), 0⟩).angle p.ctrl.person.personDistance).x - target.x =
      Real.cos θ * A - Real.sin θ * B := by
    have : (eulerStep h s ⟨-(l₁ * k * a), -(l₂ * k * b / d), 0⟩).angle = θ + φ := by
      rw [← hφ]; simp [eulerStep, dynamics, hθ]
    simp only [inFrame, this, hst, Real.cos_add, Real.sin_add]
    simp only [eulerStep, dynamics, Trig.cos, Trig.sin]
    simp only [Vec2.add_x, Vec2.smul_x, hA, hB]
    rw [← hdd, ← hθ]
    linear_combination hex - hex'
  have hy : (inFrame (eulerStep h s ⟨-(l₁ * k * a), -(l₂ * k * b / d), 0⟩).position
      (eulerStep h s ⟨-(l₁ * k * a), -(l₂ * k * b / d), 0⟩).angle p.ctrl.person.personDistance).y - target.y =
      Real.sin θ * A + Real.cos θ * B := by
    have : (eulerStep h s ⟨-(l₁ * k * a), -(l₂ * k * b / d), 0⟩).angle = θ + φ := by
      rw [← hφ]; simp [eulerStep, dynamics, hθ]
    simp only [inFrame, this, hst, Real.cos_add, Real.sin_add]
    simp only [eulerStep, dynamics, Trig.cos, Trig.sin]
    simp only [Vec2.add_y, Vec2.smul_y, hA, hB]
    rw [← hdd, ← hθ]
    linear_combination hey - hey'
  rw [hx, hy]
  linear_combination (A ^ 2 + B ^ 2) * hsc

end Uni.Follow
