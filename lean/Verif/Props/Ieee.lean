import Verif.Lemmas.Ieee
import Verif.Model.Basic

/-! # C72: rounding and the end of the vectors -/

set_option autoImplicit false

namespace Uni.Ieee

/-- C72 (negative): with a period of 0.01 s and a terminal half switch of 0.07 s the last double support has seven samples, and the
loop that brings the ZMP back writes eight, one past the end of the vectors.  All numbers are rounded as IEEE doubles. -/
theorem C72_overrun_witness : ∃ dT endSwitch r : ℚ, Nearest (1 / 100) dT ∧ Nearest (7 / 100) endSwitch ∧
    Nearest (endSwitch / dT) r ∧ stdRound r = 7 ∧ BackLoop true dT 7 8 := by
  refine ⟨(5764607523034235 : ℤ) * 2 ^ (-59 : ℤ), (5044031582654956 : ℤ) * 2 ^ (-56 : ℤ), (7881299347898369 : ℤ) * 2 ^ (-50 : ℤ),
    nearest_of (by norm_num) (by norm_num) (by rw [abs_lt]; constructor <;> norm_num),
    nearest_of (by norm_num) (by norm_num) (by rw [abs_lt]; constructor <;> norm_num),
    nearest_of (by norm_num) (by norm_num) (by rw [abs_lt]; constructor <;> norm_num), by decide +kernel,
    (5044031582654956 : ℤ) * 2 ^ (-56 : ℤ), (7881299347898369 : ℤ) * 2 ^ (-50 : ℤ),
    nearest_of (by norm_num) (by norm_num) (by rw [abs_lt]; constructor <;> norm_num),
    nearest_of (by norm_num) (by norm_num) (by rw [abs_lt]; constructor <;> norm_num), by decide +kernel⟩

theorem quotient_bound {dT T x q : ℚ} (hd : 0 < dT) (hx : 0 < x) (hp : Nearest (x * dT) T) (hq : Nearest (T / dT) q) :
    q ≤ x * (1 + 1 / 2 ^ 53) ^ 2 := by
  have h1 := abs_le.mp (nearest_error (mul_pos hx hd) hp)
  have hT : 0 < T := by
    have : x * dT / 2 ^ 53 < x * dT := by rw [div_lt_iff₀ (by positivity)]; nlinarith [mul_pos hx hd]
    linarith
  have h2 := abs_le.mp (nearest_error (div_pos hT hd) hq)
  have h3 : T / dT ≤ x * (1 + 1 / 2 ^ 53) := by
    rw [div_le_iff₀ hd]
    have : x * (1 + 1 / 2 ^ 53) * dT = x * dT + x * dT / 2 ^ 53 := by ring
    linarith
  have h4 : q ≤ T / dT * (1 + 1 / 2 ^ 53) := by
    have : T / dT * (1 + 1 / 2 ^ 53) = T / dT + T / dT / 2 ^ 53 := by ring
    linarith
  have : (0 : ℚ) ≤ 1 + 1 / 2 ^ 53 := by norm_num
  nlinarith

/-- Half of a double is a double. -/
theorem half {y : ℚ} (h : Double y) : Double (y / 2) := by
  rcases h with rfl | ⟨m, e, h1, h2, rfl⟩
  · left; norm_num
  · exact Or.inr ⟨m, e - 1, h1, h2, by rw [zpow_sub₀ (by norm_num), zpow_one]; ring⟩

/-- C72 (partial).  Full statement: the loop that brings the ZMP back never writes past the end of the phase.  False in the last
phase, see `C72_overrun_witness`.  Proved for all the other phases, whatever the period and the length. -/
theorem C72_half_partial (dT : ℚ) (hd : 0 < dT) (n k : Nat) (hn : 0 < n) (h : BackLoop false dT n k) : k ≤ n := by
  obtain ⟨p, q, hp, hq, rfl⟩ := h
  simp only [Bool.false_eq_true, if_false] at hq
  have hn' : (1 : ℚ) ≤ n := by exact_mod_cast hn
  have h1 := abs_le.mp (nearest_error (mul_pos (by linarith : (0 : ℚ) < n) hd) hp)
  have hx : 0 < (n : ℚ) * dT := mul_pos (by linarith) hd
  have hp0 : 0 < p := by
    have : n * dT / 2 ^ 53 < n * dT := by rw [div_lt_iff₀ (by positivity)]; nlinarith
    linarith
  have h2 := abs_le.mp (nearest_error (div_pos (half_pos hp0) hd) hq)
  have h3 : p / 2 / dT ≤ (n : ℚ) * (2 / 3) := by
    rw [div_le_iff₀ hd]
    have : n * dT / 2 ^ 53 ≤ n * dT / 4 := div_le_div_of_nonneg_left hx.le (by norm_num) (by norm_num)
    nlinarith
  have h4 : q ≤ n := by
    have h0 : 0 ≤ p / 2 / dT := (div_pos (half_pos hp0) hd).le
    have : p / 2 / dT / 2 ^ 53 ≤ p / 2 / dT / 4 := div_le_div_of_nonneg_left h0 (by norm_num) (by norm_num)
    linarith
  have : ⌈q⌉ ≤ (n : ℤ) := Int.ceil_le.mpr (by exact_mod_cast h4)
  omega

/-- C72 (partial): in the last phase at most one sample is written past the end. -/
theorem C72_one_partial (dT : ℚ) (hd : 0 < dT) (n k : Nat) (hn : 0 < n) (hs : n < 2 ^ 51) (h : BackLoop true dT n k) : k ≤ n + 1 := by
  obtain ⟨p, q, hp, hq, rfl⟩ := h
  simp only [if_true] at hq
  have hn' : (1 : ℚ) ≤ n := by exact_mod_cast hn
  have hs' : (n : ℚ) ≤ 2 ^ 51 := by exact_mod_cast hs.le
  have b := quotient_bound hd (by linarith) hp hq
  have : (n : ℚ) * (1 + 1 / 2 ^ 53) ^ 2 ≤ n + 1 := by
    have : (n : ℚ) * (1 + 1 / 2 ^ 53) ^ 2 = n + n * (2 / 2 ^ 53 + 1 / 2 ^ 106) := by ring
    rw [this]
    have : (n : ℚ) * (2 / 2 ^ 53 + 1 / 2 ^ 106) ≤ 2 ^ 51 * (2 / 2 ^ 53 + 1 / 2 ^ 106) :=
      mul_le_mul_of_nonneg_right hs' (by norm_num)
    have : (2 : ℚ) ^ 51 * (2 / 2 ^ 53 + 1 / 2 ^ 106) ≤ 1 := by norm_num
    linarith
  have : ⌈q⌉ ≤ ((n + 1 : Nat) : ℤ) := Int.ceil_le.mpr (by push_cast; linarith)
  omega

/-- C72 (partial): with a period that is a power of two (such as 1/128 s) the loop ends exactly at the end of the phase. -/
theorem C72_dyadic_partial (e : ℤ) (n k : Nat) (hs : n < 2 ^ 53) (h : BackLoop true (2 ^ e) n k) : k = n := by
  obtain ⟨p, q, hp, hq, rfl⟩ := h
  simp only [if_true] at hq
  have e1 := nearest_self (double_nat n hs e) hp
  have hpos := two_zpow_pos e
  rw [e1, mul_div_assoc, div_self hpos.ne', mul_one] at hq
  have := double_nat n hs 0
  rw [zpow_zero, mul_one] at this
  rw [nearest_self this hq, Int.ceil_natCast, Int.toNat_natCast]

/-- Non-vacuity of the partial results: the loop runs for every length. -/
example : BackLoop true (2 ^ (-7 : ℤ)) 7 7 := by
  refine ⟨7 * 2 ^ (-7 : ℤ), 7, self_nearest ?_, ?_, by decide +kernel⟩
  · have := double_nat 7 (by norm_num) (-7); exact_mod_cast this
  · have := double_nat 7 (by norm_num) 0
    have e : (if true = true then (7 : ℚ) * 2 ^ (-7 : ℤ) else 7 * 2 ^ (-7 : ℤ) / 2) / 2 ^ (-7 : ℤ) = 7 := by norm_num
    rw [e]
    exact self_nearest (by simpa using this)

/-- Non-vacuity of `C72_half_partial`. -/
example : BackLoop false (2 ^ (-7 : ℤ)) 7 4 := by
  refine ⟨7 * 2 ^ (-7 : ℤ), 7 * 2 ^ (-1 : ℤ), self_nearest ?_, ?_, by decide +kernel⟩
  · have := double_nat 7 (by norm_num) (-7); exact_mod_cast this
  · have := double_nat 7 (by norm_num) (-1)
    have e : (if false = true then (7 : ℚ) * 2 ^ (-7 : ℤ) else 7 * 2 ^ (-7 : ℤ) / 2) / 2 ^ (-7 : ℤ) = 7 * 2 ^ (-1 : ℤ) := by norm_num
    rw [e]
    exact self_nearest (by exact_mod_cast this)

end Uni.Ieee
