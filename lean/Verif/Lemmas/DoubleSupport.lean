import Mathlib.Analysis.Complex.Exponential
import Verif.Model.DCM
import Verif.Spec.DoubleSupport

/-! # The cubic of a double support between two exponential arcs -/

set_option autoImplicit false
set_option linter.unusedSectionVars false

namespace Uni
open Spec

/-- The ZMP of the cubic that joins the arc about `z0` to the arc about `z1`, which meet in `b` in the middle of the double support of
duration `T`; `E` and `F` are the exponentials of half the duration and of its opposite. -/
theorem cubic_zmp {ω T z0 z1 b x E F : ℝ} (hω : ω ≠ 0) (hT : T ≠ 0) :
    cubicPos (cubicCoeffs (z0 + F * (b - z0)) (ω * F * (b - z0)) (z1 + E * (b - z1)) (ω * E * (b - z1)) T) (T * (x + 1 / 2)) -
      1 / ω * cubicVel (cubicCoeffs (z0 + F * (b - z0)) (ω * F * (b - z0)) (z1 + E * (b - z1)) (ω * E * (b - z1)) T) (T * (x + 1 / 2)) =
    (z0 + z1) / 2 + (x + (1 - 4 * x ^ 2) * (-(3 / 4) * ((E - F) / 2) + (ω * T / 2) * ((E + F) / 2) / 4 +
        3 * ((E + F) / 2 - 1) / (4 * (ω * T / 2)) + (1 / 2 - (E + F) / 2 / 2 + (ω * T / 2) * ((E - F) / 2) / 2) * x)) * (z1 - z0) +
      (1 - 4 * x ^ 2) * (3 / 2 * ((E + F) / 2) - (ω * T / 2) * ((E - F) / 2) / 2 - 3 * ((E - F) / 2) / (2 * (ω * T / 2)) -
        ((ω * T / 2) * ((E + F) / 2) - (E - F) / 2) * x) * (b - (z0 + z1) / 2) := by
  simp only [cubicPos, cubicVel, cubicCoeffs]
  field_simp
  ring

private theorem series {y : ℝ} (h0 : 0 ≤ y) (h1 : y ≤ 1) :
    |Real.cosh y - (1 + y ^ 2 / 2 + y ^ 4 / 24 + y ^ 6 / 720)| ≤ y ^ 8 / 35840 ∧
    |Real.sinh y - (y + y ^ 3 / 6 + y ^ 5 / 120 + y ^ 7 / 5040)| ≤ y ^ 8 / 35840 := by
  have a := Real.exp_bound (x := y) (by rw [abs_of_nonneg h0]; exact h1) (n := 8) (by norm_num)
  have b := Real.exp_bound (x := -y) (by rw [abs_neg, abs_of_nonneg h0]; exact h1) (n := 8) (by norm_num)
  rw [abs_neg] at b
  rw [abs_of_nonneg h0] at a b
  norm_num [Finset.sum_range_succ, Nat.factorial] at a b
  rw [abs_le] at a b
  rw [Real.cosh_eq, Real.sinh_eq, abs_le, abs_le]
  obtain ⟨a1, a2⟩ := a
  obtain ⟨b1, b2⟩ := b
  have e1 : (-y) ^ 3 = -y ^ 3 := by ring
  have e2 : (-y) ^ 5 = -y ^ 5 := by ring
  have e3 : (-y) ^ 7 = -y ^ 7 := by ring
  have e4 : (-y) ^ 2 = y ^ 2 := by ring
  have e5 : (-y) ^ 4 = y ^ 4 := by ring
  have e6 : (-y) ^ 6 = y ^ 6 := by ring
  simp only [e1, e2, e3, e4, e5, e6] at b1 b2
  refine ⟨⟨?_, ?_⟩, ?_, ?_⟩ <;> linarith

theorem cross_Q {y : ℝ} (h0 : 0 ≤ y) (h1 : y ≤ 1) : 0 ≤ crossQ y ∧ crossQ y ≤ 2 / 5 * y ^ 3 := by
  obtain ⟨hc, hs⟩ := series h0 h1
  rw [abs_le] at hc hs
  unfold crossQ
  have p5 : y ^ 5 ≤ y ^ 3 := pow_le_pow_of_le_one h0 h1 (by norm_num)
  have p7 : y ^ 7 ≤ y ^ 3 := pow_le_pow_of_le_one h0 h1 (by norm_num)
  have p8 : y ^ 8 ≤ y ^ 3 := pow_le_pow_of_le_one h0 h1 (by norm_num)
  have p9 : y ^ 9 ≤ y ^ 3 := pow_le_pow_of_le_one h0 h1 (by norm_num)
  have q3 := pow_nonneg h0 3
  have q5 := pow_nonneg h0 5
  have q7 := pow_nonneg h0 7
  have c1 := mul_le_mul_of_nonneg_left hc.1 h0
  have c2 := mul_le_mul_of_nonneg_left hc.2 h0
  constructor
  · nlinarith
  · nlinarith

theorem cross_P {y : ℝ} (h0 : 0 < y) (h1 : y ≤ 1) : -(y ^ 4 / 25) ≤ crossP y ∧ crossP y ≤ 0 := by
  obtain ⟨hc, hs⟩ := series h0.le h1
  rw [abs_le] at hc hs
  have e : crossP y = (3 * y * Real.cosh y - (y ^ 2 + 3) * Real.sinh y) / (2 * y) := by
    unfold crossP; field_simp; ring
  have p7 : y ^ 7 ≤ y ^ 5 := pow_le_pow_of_le_one h0.le h1 (by norm_num)
  have p8 : y ^ 8 ≤ y ^ 5 := pow_le_pow_of_le_one h0.le h1 (by norm_num)
  have p9 : y ^ 9 ≤ y ^ 5 := pow_le_pow_of_le_one h0.le h1 (by norm_num)
  have p10 : y ^ 10 ≤ y ^ 5 := pow_le_pow_of_le_one h0.le h1 (by norm_num)
  have q5 := pow_nonneg h0.le 5
  have q7 := pow_nonneg h0.le 7
  have q9 := pow_nonneg h0.le 9
  have c1 := mul_le_mul_of_nonneg_left hc.1 (show 0 ≤ 3 * y by linarith)
  have c2 := mul_le_mul_of_nonneg_left hc.2 (show 0 ≤ 3 * y by linarith)
  have s1 := mul_le_mul_of_nonneg_left hs.1 (show 0 ≤ y ^ 2 + 3 by positivity)
  have s2 := mul_le_mul_of_nonneg_left hs.2 (show 0 ≤ y ^ 2 + 3 by positivity)
  rw [e]
  constructor
  · rw [le_div_iff₀ (by linarith)]
    nlinarith
  · rw [div_le_iff₀ (by linarith)]
    nlinarith

theorem cross_U {y : ℝ} (h0 : 0 ≤ y) (h1 : y ≤ 1) : 0 ≤ crossU y := by
  obtain ⟨hc, hs⟩ := series h0 h1
  rw [abs_le] at hc hs
  unfold crossU
  have s1 := mul_le_mul_of_nonneg_left hs.1 h0
  have p : ∀ n, y ^ (n + 1) ≤ y ^ n := fun n => pow_le_pow_of_le_one h0 h1 (by omega)
  have q : ∀ n, 0 ≤ y ^ n := fun n => pow_nonneg h0 n
  have k : 0 ≤ y ^ 2 / 2 + y ^ 4 / 8 + y ^ 6 / 144 - y ^ 8 / 35840 - y ^ 9 / 35840 := by
    have := p 2; have := p 3; have := p 4; have := p 5; have := p 6; have := p 7; have := p 8
    have := q 2; have := q 4; have := q 6
    simp only [Nat.reduceAdd] at *
    linarith
  nlinarith [q 8]

theorem cross_RU {y : ℝ} (h0 : 0 < y) (h1 : y ≤ 1) : -(1 / 4) ≤ crossR y - crossU y / 2 ∧ crossR y + crossU y / 2 ≤ 1 / 4 := by
  obtain ⟨hc, hs⟩ := series h0.le h1
  rw [abs_le] at hc hs
  have p : ∀ n, y ^ (n + 1) ≤ y ^ n := fun n => pow_le_pow_of_le_one h0.le h1 (by omega)
  have q : ∀ n, 0 ≤ y ^ n := fun n => pow_nonneg h0.le n
  have m : 0 ≤ y - y ^ 2 / 2 - y ^ 3 / 2 := by
    have m := mul_nonneg h0.le (mul_nonneg (show 0 ≤ 1 - y by linarith) (show 0 ≤ 1 + y / 2 by linarith))
    have e : y * ((1 - y) * (1 + y / 2)) = y - y ^ 2 / 2 - y ^ 3 / 2 := by ring
    linarith
  constructor
  · have e : crossR y - crossU y / 2 = -(1 / 4) +
        ((y ^ 2 + y + 3) * Real.cosh y - (y ^ 2 + 3 * y) * Real.sinh y - 3) / (4 * y) := by
      unfold crossR crossU; field_simp; ring
    rw [e]
    have c1 := mul_le_mul_of_nonneg_left hc.1 (show 0 ≤ y ^ 2 + y + 3 by positivity)
    have s2 := mul_le_mul_of_nonneg_left hs.2 (show 0 ≤ y ^ 2 + 3 * y by positivity)
    have : 0 ≤ ((y ^ 2 + y + 3) * Real.cosh y - (y ^ 2 + 3 * y) * Real.sinh y - 3) / (4 * y) := by
      refine div_nonneg ?_ (by linarith)
      have k : 0 ≤ y - y ^ 2 / 2 - y ^ 3 / 2 + y ^ 4 / 8 - y ^ 5 / 8 + y ^ 6 / 48 - y ^ 7 / 144 - 5 / 16128 * y ^ 9 - y ^ 10 / 17920 := by
        have := p 4; have := p 6; have := p 7; have := p 8; have := p 9; have := q 6
        simp only [Nat.reduceAdd] at *
        linarith
      nlinarith [q 8]
    linarith
  · have e : crossR y + crossU y / 2 = 1 / 4 +
        ((y ^ 2 - y + 3) * Real.cosh y + (y ^ 2 - 3 * y) * Real.sinh y - 3) / (4 * y) := by
      unfold crossR crossU; field_simp; ring
    rw [e]
    have c1 := mul_le_mul_of_nonneg_left hc.2 (show 0 ≤ y ^ 2 - y + 3 by nlinarith)
    have s2 := mul_le_mul_of_nonneg_left hs.1 (show 0 ≤ 3 * y - y ^ 2 by nlinarith)
    have : ((y ^ 2 - y + 3) * Real.cosh y + (y ^ 2 - 3 * y) * Real.sinh y - 3) / (4 * y) ≤ 0 := by
      refine div_nonpos_of_nonpos_of_nonneg ?_ (by linarith)
      have k : -y - y ^ 2 / 2 + y ^ 3 / 2 + y ^ 4 / 8 + y ^ 5 / 8 + y ^ 6 / 48 + y ^ 7 / 144 + 283 / 322560 * y ^ 8 +
          41 / 161280 * y ^ 9 ≤ 0 := by
        have := p 1; have := p 2; have := p 3; have := p 4; have := p 5; have := p 6; have := p 7; have := p 8; have := q 1
        simp only [Nat.reduceAdd, pow_one] at *
        linarith
      nlinarith
    linarith

/-- Where the weights are. -/
theorem cross_range {y x : ℝ} (h0 : 0 < y) (h1 : y ≤ 1) (hx : -(1 / 2) ≤ x) (hx' : x ≤ 1 / 2) :
    0 ≤ crossAlong y x ∧ crossAlong y x ≤ 1 ∧ |crossAside y x| ≤ 3 / 25 * y ^ 3 := by
  obtain ⟨r1, r2⟩ := cross_RU h0 h1
  obtain ⟨q1, q2⟩ := cross_Q h0.le h1
  obtain ⟨p1, p2⟩ := cross_P h0 h1
  have hU := cross_U h0.le h1
  have u1 := mul_le_mul_of_nonneg_left hx hU
  have u2 := mul_le_mul_of_nonneg_left hx' hU
  refine ⟨?_, ?_, ?_⟩
  · have e : crossAlong y x = (x + 1 / 2) * (1 + 2 * ((1 - 2 * x) * (crossR y + crossU y * x))) := by unfold crossAlong; ring
    rw [e]
    refine mul_nonneg (by linarith) ?_
    have := mul_le_mul_of_nonneg_left (show -(1 / 4) ≤ crossR y + crossU y * x by linarith) (show 0 ≤ 1 - 2 * x by linarith)
    linarith
  · have e : crossAlong y x = 1 - (1 / 2 - x) * (1 - 2 * ((1 + 2 * x) * (crossR y + crossU y * x))) := by unfold crossAlong; ring
    rw [e]
    have := mul_le_mul_of_nonneg_left (show crossR y + crossU y * x ≤ 1 / 4 by linarith) (show 0 ≤ 1 + 2 * x by linarith)
    have := mul_nonneg (show 0 ≤ 1 / 2 - x by linarith) (show 0 ≤ 1 - 2 * ((1 + 2 * x) * (crossR y + crossU y * x)) by linarith)
    linarith
  · have g0 : 0 ≤ 1 - 4 * x ^ 2 := by nlinarith
    have g1 : 1 - 4 * x ^ 2 ≤ 1 := by nlinarith
    have hk : ∀ z : ℝ, 0 ≤ z → (1 - 4 * z ^ 2) * z ≤ 1 / 5 := fun z hz => by
      nlinarith [mul_nonneg hz (sq_nonneg (z - 29 / 100)), sq_nonneg (z - 29 / 100)]
    have g2 : (1 - 4 * x ^ 2) * |x| ≤ 1 / 5 := by
      have := hk |x| (abs_nonneg x)
      rwa [sq_abs] at this
    have y3 : 0 ≤ y ^ 3 := by positivity
    have y4 : y ^ 4 ≤ y ^ 3 := pow_le_pow_of_le_one h0.le h1 (by norm_num)
    have hP : |crossP y| ≤ y ^ 3 / 25 := by rw [abs_le]; constructor <;> linarith
    have hQ : |crossQ y| ≤ 2 / 5 * y ^ 3 := by rw [abs_of_nonneg q1]; exact q2
    unfold crossAside
    rw [abs_mul, abs_of_nonneg g0]
    have t1 : |crossP y - crossQ y * x| ≤ y ^ 3 / 25 + 2 / 5 * y ^ 3 * |x| := by
      refine (abs_sub _ _).trans ?_
      rw [abs_mul]
      exact add_le_add hP (mul_le_mul_of_nonneg_right hQ (abs_nonneg x))
    have t2 := mul_le_mul_of_nonneg_left t1 g0
    have t3 := mul_le_mul_of_nonneg_right g1 (show 0 ≤ y ^ 3 / 25 by positivity)
    have t4 := mul_le_mul_of_nonneg_left g2 (show 0 ≤ 2 / 5 * y ^ 3 by positivity)
    nlinarith

/-! ## The double supports at the ends -/

/-- The ZMP of the cubic that brings the DCM to rest in `m`. -/
theorem brake_zmp {ω T z p m x : ℝ} (hω : ω ≠ 0) (hT : T ≠ 0) :
    cubicPos (cubicCoeffs p (ω * (p - z)) m 0 T) (T * x) - 1 / ω * cubicVel (cubicCoeffs p (ω * (p - z)) m 0 T) (T * x) =
    z + brakeOwn (ω * T) x * (p - z) + brakeRest (ω * T) x * (m - z) := by
  simp only [cubicPos, cubicVel, cubicCoeffs, brakeOwn, brakeRest]
  field_simp
  ring

/-- The ZMP of the cubic that brings the DCM from `p`, with velocity `v`, to the arc about `z` in `q`. -/
theorem start_zmp {ω T z p v q x : ℝ} (hω : ω ≠ 0) (hT : T ≠ 0) :
    cubicPos (cubicCoeffs p v q (ω * (q - z)) T) (T * x) - 1 / ω * cubicVel (cubicCoeffs p v q (ω * (q - z)) T) (T * x) =
    z + startOwn (ω * T) x * (p - z) + startSpeed (ω * T) x * (1 / ω * v) + startNext (ω * T) x * (q - z) := by
  simp only [cubicPos, cubicVel, cubicCoeffs, startOwn, startSpeed, startNext]
  field_simp
  ring

theorem settle_factor {a c x : ℝ} (ha : a ≠ 0) :
    a * settle a c x = x * (c * (2 * a * (1 - x) * (2 - x) + 6 * (1 - x) + a ^ 2 * (1 - x) ^ 2) + a * x * (3 - 2 * x) / 2 - 3 * (1 - x)) := by
  unfold settle brakeOwn brakeRest
  field_simp
  ring

/-- The ZMP never leaves the last support on the side opposite to the other foot exactly when the DCM is advanced enough. -/
theorem settle_nonneg_iff {a c : ℝ} (ha : 0 < a) :
    (∀ x, 0 ≤ x → x ≤ 1 → 0 ≤ settle a c x) ↔ 3 ≤ c * (a ^ 2 + 4 * a + 6) := by
  constructor
  · intro h
    by_contra hc
    push Not at hc
    -- the factor is continuous and negative in zero
    have hpos : 0 < 3 - c * (a ^ 2 + 4 * a + 6) := by linarith
    obtain ⟨δ, d1, d2, d3⟩ : ∃ δ : ℝ, 0 < δ ∧ δ ≤ 1 ∧
        c * (2 * a * (1 - δ) * (2 - δ) + 6 * (1 - δ) + a ^ 2 * (1 - δ) ^ 2) + a * δ * (3 - 2 * δ) / 2 - 3 * (1 - δ) < 0 := by
      have hcont : Continuous fun δ : ℝ =>
          c * (2 * a * (1 - δ) * (2 - δ) + 6 * (1 - δ) + a ^ 2 * (1 - δ) ^ 2) + a * δ * (3 - 2 * δ) / 2 - 3 * (1 - δ) := by
        fun_prop
      have h0 := (hcont.tendsto 0).eventually (gt_mem_nhds (show
        c * (2 * a * (1 - 0) * (2 - 0) + 6 * (1 - 0) + a ^ 2 * (1 - 0) ^ 2) + a * 0 * (3 - 2 * 0) / 2 - 3 * (1 - 0) < (0 : ℝ) by
          nlinarith))
      obtain ⟨ε, e1, e2⟩ := Metric.eventually_nhds_iff.mp h0
      refine ⟨min (ε / 2) 1, by positivity, min_le_right _ _, e2 ?_⟩
      rw [Real.dist_eq, sub_zero, abs_of_pos (by positivity)]
      exact lt_of_le_of_lt (min_le_left _ _) (by linarith)
    have := h δ d1.le d2
    have e := settle_factor (a := a) (c := c) (x := δ) ha.ne'
    have h1 : 0 ≤ a * settle a c δ := mul_nonneg ha.le this
    rw [e] at h1
    have := mul_neg_of_pos_of_neg d1 d3
    linarith
  · intro h x h0 h1
    have e := settle_factor (a := a) (c := c) (x := x) ha.ne'
    have : 0 ≤ a * settle a c x := by
      rw [e]
      refine mul_nonneg h0 ?_
      obtain ⟨q, rfl⟩ : ∃ q, x = 1 - q := ⟨1 - x, by ring⟩
      have q0 : 0 ≤ q := by linarith
      have q1 : q ≤ 1 := by linarith
      have hc : 0 ≤ c := by
        by_contra hc
        push Not at hc
        nlinarith [mul_neg_of_neg_of_pos hc (show 0 < a ^ 2 + 4 * a + 6 by positivity)]
      have e1 : c * (2 * a * (1 - (1 - q)) * (2 - (1 - q)) + 6 * (1 - (1 - q)) + a ^ 2 * (1 - (1 - q)) ^ 2) +
          a * (1 - q) * (3 - 2 * (1 - q)) / 2 - 3 * (1 - (1 - q)) =
          q * (c * (2 * a + 6) + a / 2 - 3) + q ^ 2 * (a * (c * (2 + a) - 1)) + a / 2 := by ring
      rw [e1]
      rcases le_total (c * (2 + a)) 1 with k | k
      · -- concave: the ends decide
        have : q ^ 2 * (a * (c * (2 + a) - 1)) ≥ q * (a * (c * (2 + a) - 1)) := by
          have : a * (c * (2 + a) - 1) ≤ 0 := mul_nonpos_of_nonneg_of_nonpos ha.le (by linarith)
          nlinarith [mul_nonneg q0 (sub_nonneg.mpr q1)]
        have e2 : q * (c * (2 * a + 6) + a / 2 - 3) + q * (a * (c * (2 + a) - 1)) + a / 2 =
            q * (c * (a ^ 2 + 4 * a + 6) - 3) + (1 - q) * (a / 2) := by ring
        have := mul_nonneg q0 (sub_nonneg.mpr h)
        have := mul_nonneg (sub_nonneg.mpr q1) (show 0 ≤ a / 2 by positivity)
        linarith
      · have k1 : 0 ≤ q ^ 2 * (a * (c * (2 + a) - 1)) := mul_nonneg (sq_nonneg q) (mul_nonneg ha.le (by linarith))
        have k2 : 0 ≤ c * (2 * a + 6) + a / 2 - 3 := by
          have : (2 + a) * (c * (2 * a + 6) + a / 2 - 3) ≥ 0 := by nlinarith [mul_le_mul_of_nonneg_right k (show 0 ≤ 2 * a + 6 by positivity)]
          exact nonneg_of_mul_nonneg_right (by linarith) (show 0 < 2 + a by positivity)
        have := mul_nonneg q0 k2
        linarith
    exact nonneg_of_mul_nonneg_right this ha

theorem settle_le_one {a c x : ℝ} (ha : 0 < a) (ha' : a ≤ 5) (hc : c ≤ 1 / 2) (h0 : 0 ≤ x) (h1 : x ≤ 1) : settle a c x ≤ 1 := by
  have hb : 0 ≤ brakeOwn a x := by
    unfold brakeOwn
    have := sub_nonneg.mpr h1
    have : 0 ≤ 2 - x := by linarith
    positivity
  have e : settle a (1 / 2) x = (4 * x - 3 * x ^ 2 + a * x * (1 - x) ^ 2) / 2 := by
    unfold settle brakeOwn brakeRest
    field_simp
    ring
  have h2 : settle a c x ≤ settle a (1 / 2) x := by
    unfold settle
    linarith [mul_le_mul_of_nonneg_right hc hb]
  rw [e] at h2
  have h3 : a * x * (1 - x) ^ 2 ≤ 5 * x * (1 - x) ^ 2 :=
    mul_le_mul_of_nonneg_right (mul_le_mul_of_nonneg_right ha' h0) (sq_nonneg _)
  nlinarith [mul_nonneg (sub_nonneg.mpr h1) (sq_nonneg (x - 1 / 2)), sq_nonneg (x - 1 / 2), mul_nonneg h0 (sub_nonneg.mpr h1)]

/-- Without advance the ZMP begins by going to the side opposite to the other foot. -/
theorem settle_neg {a x : ℝ} (ha : 0 < a) (h0 : 0 < x) (h : a * x * (3 - 2 * x) < 6 * (1 - x)) : settle a 0 x < 0 := by
  have e := settle_factor (a := a) (c := 0) (x := x) ha.ne'
  have : a * settle a 0 x < 0 := by
    rw [e]
    refine mul_neg_of_pos_of_neg h0 ?_
    linarith
  exact neg_of_mul_neg_right this ha.le

end Uni
