import Verif.Spec.Rounded
import Mathlib.Algebra.Order.Round
import Mathlib.Algebra.Order.Archimedean.Basic
import Mathlib.Algebra.Order.Field.Power
import Mathlib.Tactic.NormNum
import Mathlib.Tactic.Ring
import Mathlib.Tactic.FieldSimp
import Mathlib.Tactic.Linarith
import Mathlib.Tactic.Positivity

/-! # Facts about the format binary64 -/

set_option autoImplicit false
set_option linter.unusedSectionVars false

namespace Uni.Rounded
open Spec
variable {K : Type} [Field K] [LinearOrder K] [IsStrictOrderedRing K]

theorem zpow_pos2 (e : ℤ) : (0 : K) < 2 ^ e := zpow_pos (by norm_num) e

/-- The largest significand is allowed too. -/
theorem binary64_of_le {m e : ℤ} (hm : |m| ≤ 2 ^ 53) (he : -1074 ≤ e) : Binary64 ((m : K) * 2 ^ e) := by
  rcases lt_or_eq_of_le hm with h | h
  · exact ⟨m, e, h, he, rfl⟩
  · have h' : m = 2 ^ 53 ∨ m = -2 ^ 53 := eq_or_eq_neg_of_abs_eq h
    have e1 : (2 : K) ^ (e + 1) = 2 * 2 ^ e := by rw [zpow_add_one₀ (by norm_num)]; ring
    rcases h' with rfl | rfl
    · exact ⟨2 ^ 52, e + 1, by norm_num, by omega, by rw [e1]; push_cast; ring⟩
    · exact ⟨-2 ^ 52, e + 1, by norm_num, by omega, by rw [e1]; push_cast; ring⟩

theorem binary64_int {m : ℤ} (hm : |m| ≤ 2 ^ 53) : Binary64 (m : K) := by
  have := binary64_of_le (K := K) hm (e := 0) (by norm_num)
  simpa using this

section
variable {fl : K → K}

/-- A number of the format is not changed. -/
theorem _root_.Uni.Spec.ToNearest.fixed (h : ToNearest fl) {y : K} (hy : Binary64 y) : fl y = y := by
  have := (h y).2 y hy
  rw [sub_self, abs_zero] at this
  have := abs_nonpos_iff.mp this
  linarith

theorem _root_.Uni.Spec.ToNearest.mono (h : ToNearest fl) : Monotone fl := by
  intro x y hxy
  rcases hxy.lt_or_eq with hlt | rfl
  · by_contra hc
    have hc := not_le.mp hc
    have h1 := (h x).2 _ (h y).1
    have h2 := (h y).2 _ (h x).1
    have a1 : fl x + fl y ≤ 2 * x := by
      rcases abs_cases (x - fl x) with ⟨e, s⟩ | ⟨e, s⟩ <;> rcases abs_cases (x - fl y) with ⟨e', s'⟩ | ⟨e', s'⟩ <;> linarith
    have a2 : 2 * y ≤ fl x + fl y := by
      rcases abs_cases (y - fl x) with ⟨e, s⟩ | ⟨e, s⟩ <;> rcases abs_cases (y - fl y) with ⟨e', s'⟩ | ⟨e', s'⟩ <;> linarith
    linarith
  · exact le_rfl

/-- Rounding to nearest is a rounding. -/
theorem _root_.Uni.Spec.ToNearest.rounding (h : ToNearest fl) : Rounding fl where
  mono := h.mono
  idem := fun x => h.fixed (h x).1
  zero := h.fixed ⟨0, 0, by norm_num, by norm_num, by simp⟩
  one := h.fixed ⟨1, 0, by norm_num, by norm_num, by simp⟩
  half := h.fixed ⟨1, -1, by norm_num, by norm_num, by norm_num⟩
  two := h.fixed ⟨2, 0, by norm_num, by norm_num, by simp⟩
  double := by
    intro x hx
    obtain ⟨m, e, h1, h2, h3⟩ := (h x).1
    rw [hx] at h3
    refine h.fixed ⟨m, e + 1, h1, by omega, ?_⟩
    rw [h3, zpow_add_one₀ (by norm_num)]; ring

end

variable [FloorRing K]

/-- The nearest multiple of `2 ^ e`. -/
def onGrid (e : ℤ) (x : K) : K := (round (x / 2 ^ e) : K) * 2 ^ e

theorem onGrid_error (e : ℤ) (x : K) : |x - onGrid e x| ≤ 2 ^ e / 2 := by
  have hp := zpow_pos2 (K := K) e
  have h := abs_sub_round (x / 2 ^ e)
  have e1 : x - onGrid e x = (x / 2 ^ e - round (x / 2 ^ e)) * 2 ^ e := by
    unfold onGrid; field_simp
  rw [e1, abs_mul, abs_of_pos hp]
  calc |x / 2 ^ e - round (x / 2 ^ e)| * 2 ^ e ≤ 1 / 2 * (2 : K) ^ e := by gcongr
    _ = 2 ^ e / 2 := by ring

theorem onGrid_nearest (e : ℤ) (x : K) (m : ℤ) : |x - onGrid e x| ≤ |x - m * 2 ^ e| := by
  have hp := zpow_pos2 (K := K) e
  have h := round_le (x / 2 ^ e) m
  have e1 : x - onGrid e x = (x / 2 ^ e - round (x / 2 ^ e)) * 2 ^ e := by
    unfold onGrid; field_simp
  have e2 : x - m * 2 ^ e = (x / 2 ^ e - m) * 2 ^ e := by field_simp
  rw [e1, e2, abs_mul, abs_mul]
  exact mul_le_mul_of_nonneg_right h (abs_nonneg _)

theorem round_bound {y : K} {n : ℤ} (h : |y| ≤ n) : |round y| ≤ n := by
  obtain ⟨h1, h2⟩ := abs_le.mp h
  rw [abs_le]
  rw [round_eq]
  refine ⟨Int.le_floor.mpr (by push_cast; linarith), ?_⟩
  have : ⌊y + 1 / 2⌋ < n + 1 := Int.floor_lt.mpr (by push_cast; linarith)
  omega

theorem onGrid_binary64 {e : ℤ} {x : K} (he : -1074 ≤ e) (hx : |x| ≤ 2 ^ 53 * 2 ^ e) : Binary64 (onGrid e x) := by
  have hp := zpow_pos2 (K := K) e
  refine binary64_of_le (round_bound ?_) he
  rw [abs_div, abs_of_pos hp, div_le_iff₀ hp]
  have : (((2 : ℤ) ^ 53 : ℤ) : K) = 2 ^ 53 := by norm_num
  rw [this]
  exact hx

/-- The absolute error of rounding to nearest. -/
theorem _root_.Uni.Spec.ToNearest.error {fl : K → K} (h : ToNearest fl) {e : ℤ} {x : K} (he : -1021 ≤ e) (hx : |x| ≤ 2 ^ e) :
    |fl x - x| ≤ 2 ^ (e - 54) := by
  have e1 : (2 : K) ^ e = 2 ^ 53 * 2 ^ (e - 53) := by
    rw [zpow_sub₀ (by norm_num)]; norm_num; ring
  have e2 : (2 : K) ^ (e - 54) = 2 ^ (e - 53) / 2 := by
    rw [show e - 54 = e - 53 - 1 by ring, zpow_sub_one₀ (by norm_num)]; ring
  rw [e1] at hx
  rw [e2, abs_sub_comm]
  exact ((h x).2 _ (onGrid_binary64 (by omega) hx)).trans (onGrid_error _ _)

/-- There is a nearest number. -/
theorem exists_nearest [Archimedean K] (x : K) : ∃ z, Binary64 z ∧ ∀ y, Binary64 y → |x - z| ≤ |x - y| := by
  by_cases hs : |x| ≤ 2 ^ 53 * 2 ^ (-1074 : ℤ)
  · refine ⟨onGrid (-1074) x, onGrid_binary64 le_rfl hs, ?_⟩
    rintro y ⟨m, e, -, he, rfl⟩
    obtain ⟨k, hk⟩ := Int.le.dest he
    have : (m : K) * 2 ^ e = ((m * 2 ^ k : ℤ) : K) * 2 ^ (-1074 : ℤ) := by
      rw [← hk, zpow_add₀ (by norm_num), zpow_natCast]; push_cast; ring
    rw [this]
    exact onGrid_nearest _ _ _
  · have hs := not_le.mp hs
    have hpos : 0 < |x| := lt_trans (by positivity) hs
    obtain ⟨n, h1, h2⟩ := exists_mem_Ico_zpow hpos (by norm_num : (1 : K) < 2)
    -- the unit in the last place
    have e1 : ∀ j : ℤ, (2 : K) ^ j = 2 ^ 53 * 2 ^ (j - 53) := by
      intro j; rw [zpow_sub₀ (by norm_num)]; norm_num; ring
    have e2 : (2 : K) ^ n = 2 ^ 52 * 2 ^ (n - 52) := by rw [zpow_sub₀ (by norm_num)]; norm_num; ring
    have hn : -1074 ≤ n - 52 := by
      by_contra hc
      have : (2 : K) ^ (n + 1) ≤ 2 ^ (-1021 : ℤ) := zpow_le_zpow_right₀ (by norm_num) (by omega)
      have : |x| < 2 ^ 53 * 2 ^ (-1074 : ℤ) := by
        refine lt_of_lt_of_le h2 (this.trans ?_)
        rw [e1]; norm_num
      exact absurd hs (not_lt.mpr this.le)
    have e4 : (2 : K) ^ (n + 1) = 2 ^ 53 * 2 ^ (n - 52) := by
      rw [e1 (n + 1), show n + 1 - 53 = n - 52 by ring]
    rw [e4] at h2
    rw [e2] at h1
    have hg := onGrid_binary64 hn h2.le
    refine ⟨onGrid (n - 52) x, hg, ?_⟩
    rintro y ⟨m, e, hm, he, rfl⟩
    have hp := zpow_pos2 (K := K) (n - 52)
    rcases le_or_gt (n - 52) e with hle | hlt
    · obtain ⟨k, hk⟩ := Int.le.dest hle
      have : (m : K) * 2 ^ e = ((m * 2 ^ k : ℤ) : K) * 2 ^ (n - 52) := by
        rw [← hk, zpow_add₀ (by norm_num), zpow_natCast]; push_cast; ring
      rw [this]
      exact onGrid_nearest _ _ _
    · have h4 : (2 : K) ^ e ≤ 2 ^ (n - 52) / 2 := by
        have : (2 : K) ^ e ≤ 2 ^ (n - 52 - 1) := zpow_le_zpow_right₀ (by norm_num) (by omega)
        rwa [zpow_sub_one₀ (by norm_num), ← div_eq_mul_inv] at this
      have h5 : |(m : K)| ≤ 2 ^ 53 := by exact_mod_cast hm.le
      have h6 := zpow_pos2 (K := K) e
      have h7 : |(m : K) * 2 ^ e| ≤ 2 ^ 52 * 2 ^ (n - 52) := by
        rw [abs_mul, abs_of_pos h6]
        calc |(m : K)| * 2 ^ e ≤ 2 ^ 53 * (2 ^ (n - 52) / 2) := by gcongr
          _ = _ := by ring
      obtain ⟨h8, h9⟩ := abs_le.mp h7
      rcases abs_cases x with ⟨e5, hx⟩ | ⟨e5, hx⟩
      · have := onGrid_nearest (n - 52) x (2 ^ 52)
        push_cast at this
        refine this.trans ?_
        rw [e5] at h1
        rw [abs_of_nonneg (by linarith), abs_of_nonneg (by linarith)]
        linarith
      · have := onGrid_nearest (n - 52) x (-2 ^ 52)
        push_cast at this
        refine this.trans ?_
        rw [e5] at h1
        rw [abs_of_nonpos (by linarith), abs_of_nonpos (by linarith)]
        linarith

/-- Rounding to nearest is possible. -/
theorem exists_toNearest [Archimedean K] : ∃ fl : K → K, ToNearest fl :=
  ⟨fun x => (exists_nearest x).choose, fun x => (exists_nearest x).choose_spec⟩

end Uni.Rounded
