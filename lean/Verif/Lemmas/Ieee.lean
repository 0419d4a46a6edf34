import Verif.Model.Ieee
import Mathlib.Data.Int.Log
import Mathlib.Algebra.Order.Field.Power
import Mathlib.Tactic.NormNum
import Mathlib.Tactic.Ring
import Mathlib.Tactic.FieldSimp

/-! # Facts about rounding -/

set_option autoImplicit false

namespace Uni.Ieee

theorem two_zpow_pos (e : ℤ) : (0 : ℚ) < 2 ^ e := zpow_pos (by norm_num) e

/-- Between two consecutive multiples of the unit in the last place there is no double. -/
theorem gap {m e : ℤ} (h1 : 2 ^ 52 < m) {y' : ℚ} (hd : Double y') (hne : y' ≠ m * 2 ^ e) :
    (2 : ℚ) ^ e ≤ |m * 2 ^ e - y'| := by
  have hp := two_zpow_pos e
  have hm : (2 : ℚ) ^ 52 + 1 ≤ m := by exact_mod_cast h1
  rcases hd with rfl | ⟨m', e', -, h3, rfl⟩
  · rw [sub_zero, abs_of_pos (mul_pos (by linarith) hp)]
    nlinarith
  · rcases le_or_gt e e' with hle | hlt
    · obtain ⟨k, hk⟩ := Int.le.dest hle
      have e1 : (2 : ℚ) ^ e' = 2 ^ k * 2 ^ e := by rw [← hk, zpow_add₀ (by norm_num), zpow_natCast, mul_comm]
      rw [e1] at hne ⊢
      have e2 : (m : ℚ) * 2 ^ e - m' * (2 ^ k * 2 ^ e) = ((m - m' * 2 ^ k : ℤ) : ℚ) * 2 ^ e := by push_cast; ring
      rw [e2, abs_mul, abs_of_pos hp]
      have hz : m - m' * 2 ^ k ≠ 0 := by
        intro h0
        rw [h0] at e2
        apply hne
        push_cast at e2
        linarith
      have : (1 : ℚ) ≤ |((m - m' * 2 ^ k : ℤ) : ℚ)| := by exact_mod_cast Int.one_le_abs hz
      nlinarith
    · have h4 : (2 : ℚ) ^ e' ≤ 2 ^ e / 2 := by
        have : (2 : ℚ) ^ e' ≤ 2 ^ (e - 1) := zpow_le_zpow_right₀ (by norm_num) (by omega)
        rwa [zpow_sub₀ (by norm_num), zpow_one] at this
      have h5 : (m' : ℚ) ≤ 2 ^ 53 := by
        have := (le_abs_self m').trans h3.le
        exact_mod_cast this
      have h6 := two_zpow_pos e'
      have h7 : (m' : ℚ) * 2 ^ e' ≤ 2 ^ 52 * 2 ^ e := by nlinarith
      rw [abs_of_nonneg (by nlinarith)]
      nlinarith

/-- A double closer than half a unit is the rounded value. -/
theorem nearest_of {x : ℚ} {m e : ℤ} (h1 : 2 ^ 52 < m) (h2 : m < 2 ^ 53) (h : |x - m * 2 ^ e| < 2 ^ e / 2) :
    Nearest x (m * 2 ^ e) := by
  have hm : |m| = m := abs_of_pos (by omega)
  have key : ∀ y', Double y' → y' ≠ m * 2 ^ e → |x - m * 2 ^ e| < |x - y'| := by
    intro y' hd hne
    have g := gap (e := e) h1 hd hne
    have t : |(m : ℚ) * 2 ^ e - y'| ≤ |x - m * 2 ^ e| + |x - y'| := by
      have := abs_sub_le ((m : ℚ) * 2 ^ e) x y'
      rwa [abs_sub_comm ((m : ℚ) * 2 ^ e) x] at this
    linarith
  refine ⟨Or.inr ⟨m, e, by rw [hm]; omega, by rw [hm]; exact h2, rfl⟩, fun y' hd => ?_, fun y' hd he hne => ?_⟩
  · by_cases hne : y' = m * 2 ^ e
    · rw [hne]
    · exact (key y' hd hne).le
  · have := key y' hd hne; linarith

/-- A double is its own rounding, and the only one. -/
theorem nearest_self {x y : ℚ} (hx : Double x) (h : Nearest x y) : y = x := by
  have := h.near x hx
  rw [sub_self, abs_zero] at this
  have := abs_nonpos_iff.mp this
  linarith

theorem self_nearest {x : ℚ} (hx : Double x) : Nearest x x :=
  ⟨hx, fun y' _ => by rw [sub_self, abs_zero]; exact abs_nonneg _, fun y' _ h hne => by
    rw [sub_self, abs_zero, abs_eq_zero] at h
    exact absurd (by linarith) hne⟩

/-- There is a double within half a unit in the last place of every positive number. -/
theorem exists_close {x : ℚ} (hx : 0 < x) : ∃ y, Double y ∧ |x - y| ≤ x / 2 ^ 53 := by
  set k := Int.log 2 x with hk
  have l1 : (2 : ℚ) ^ k ≤ x := by have := Int.zpow_log_le_self (b := 2) (by norm_num) hx; exact_mod_cast this
  have l2 : x < (2 : ℚ) ^ (k + 1) := by have := Int.lt_zpow_succ_log_self (b := 2) (by norm_num) x; exact_mod_cast this
  set u : ℚ := 2 ^ (k - 52) with hu
  have hup : 0 < u := two_zpow_pos _
  have e1 : (2 : ℚ) ^ k = 2 ^ 52 * u := by
    rw [hu, ← zpow_natCast, ← zpow_add₀ (by norm_num)]; congr 1; push_cast; ring
  have e2 : (2 : ℚ) ^ (k + 1) = 2 ^ 53 * u := by
    rw [hu, ← zpow_natCast, ← zpow_add₀ (by norm_num)]; congr 1; push_cast; ring
  rw [e1] at l1
  rw [e2] at l2
  have hr := abs_sub_round (x / u)
  set m := round (x / u) with hm
  have b1 : (2 : ℚ) ^ 52 ≤ x / u := (le_div_iff₀ hup).mpr l1
  have b2 : x / u < (2 : ℚ) ^ 53 := (div_lt_iff₀ hup).mpr l2
  obtain ⟨r1, r2⟩ := abs_le.mp hr
  have m1 : 2 ^ 52 ≤ m := by
    have : ((2 ^ 52 - 1 : ℤ) : ℚ) < m := by push_cast; linarith
    have := Int.cast_lt.mp this
    omega
  have m2 : m ≤ 2 ^ 53 := by
    have : (m : ℚ) < ((2 ^ 53 + 1 : ℤ) : ℚ) := by push_cast; linarith
    have := Int.cast_lt.mp this
    omega
  refine ⟨m * u, Or.inr ?_, ?_⟩
  · rcases m2.lt_or_eq with hlt | heq
    · exact ⟨m, k - 52, by rw [abs_of_pos (by omega)]; exact m1, by rw [abs_of_pos (by omega)]; exact hlt, rfl⟩
    · refine ⟨2 ^ 52, k - 51, by norm_num, by norm_num, ?_⟩
      rw [heq, hu, show k - 51 = (k - 52) + 1 by ring, zpow_add₀ (by norm_num), zpow_one]
      push_cast; ring
  · have : x - m * u = (x / u - m) * u := by field_simp
    rw [this, abs_mul, abs_of_pos hup]
    have h3 : |x / u - m| * u ≤ 1 / 2 * u := mul_le_mul_of_nonneg_right hr hup.le
    have h4 : u ≤ x / 2 ^ 52 := by rw [le_div_iff₀ (by positivity)]; linarith
    have h5 : x / 2 ^ 53 = x / 2 ^ 52 / 2 := by ring
    linarith

/-- The relative error of a rounding. -/
theorem nearest_error {x y : ℚ} (hx : 0 < x) (h : Nearest x y) : |x - y| ≤ x / 2 ^ 53 := by
  obtain ⟨y', d, e⟩ := exists_close hx
  exact (h.near y' d).trans e

/-- Small naturals times a power of two are doubles. -/
theorem double_nat (n : Nat) (h : n < 2 ^ 53) (k : ℤ) : Double ((n : ℚ) * 2 ^ k) := by
  rcases Nat.eq_zero_or_pos n with rfl | hn
  · left; simp
  · right
    set l := Nat.log 2 n with hl
    have l1 : 2 ^ l ≤ n := Nat.pow_log_le_self 2 hn.ne'
    have l2 : n < 2 ^ (l + 1) := Nat.lt_pow_succ_log_self (by norm_num) n
    have l3 : l ≤ 52 := by
      have : 2 ^ l < 2 ^ 53 := lt_of_le_of_lt l1 h
      have := (Nat.pow_lt_pow_iff_right (by norm_num : 1 < 2)).mp this
      omega
    have s1 : 2 ^ l * 2 ^ (52 - l) = 2 ^ 52 := by rw [← pow_add]; congr 1; omega
    have s2 : 2 ^ (l + 1) * 2 ^ (52 - l) = 2 ^ 53 := by rw [← pow_add]; congr 1; omega
    have hp : 0 < 2 ^ (52 - l) := by positivity
    refine ⟨((n * 2 ^ (52 - l) : Nat) : ℤ), k - (52 - l : Nat), ?_, ?_, ?_⟩
    · rw [abs_of_nonneg (by positivity)]
      have := Nat.mul_le_mul_right (2 ^ (52 - l)) l1
      rw [s1] at this
      exact_mod_cast this
    · rw [abs_of_nonneg (by positivity)]
      have := Nat.mul_lt_mul_of_pos_right l2 hp
      rw [s2] at this
      exact_mod_cast this
    · rw [zpow_sub₀ (by norm_num), zpow_natCast]
      push_cast
      field_simp

end Uni.Ieee
