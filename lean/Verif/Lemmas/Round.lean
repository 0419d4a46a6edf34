import Verif.Model.Basic
import Mathlib.Tactic.Linarith
import Mathlib.Tactic.Ring
import Mathlib.Tactic.FieldSimp
import Mathlib.Tactic.Push
import Mathlib.Tactic.GCongr

/-! # Rounding to the nearest integer -/

set_option autoImplicit false
set_option linter.unusedSectionVars false

namespace Uni
variable {K : Type*} [Field K] [LinearOrder K] [IsStrictOrderedRing K] [FloorRing K]

theorem stdRound_bounds (x : K) : (stdRound x : K) ≤ x + 1 / 2 ∧ x - 1 / 2 ≤ (stdRound x : K) := by
  unfold stdRound
  split_ifs with h
  · exact ⟨Int.floor_le _, by linarith [Int.lt_floor_add_one (x + 1 / 2)]⟩
  · push_cast
    exact ⟨by linarith [Int.lt_floor_add_one (-x + 1 / 2)], by linarith [Int.floor_le (-x + 1 / 2)]⟩

theorem stdRound_abs (x : K) : |(stdRound x : K) - x| ≤ 1 / 2 := by
  obtain ⟨a, b⟩ := stdRound_bounds x
  rw [abs_le]; constructor <;> linarith

theorem stdRound_nonneg {x : K} (h : 0 ≤ x) : 0 ≤ stdRound x := by
  unfold stdRound
  rw [if_pos h]
  exact Int.floor_nonneg.mpr (by positivity)

theorem stdRound_mono {x y : K} (hx : 0 ≤ x) (h : x ≤ y) : stdRound x ≤ stdRound y := by
  unfold stdRound
  rw [if_pos hx, if_pos (hx.trans h)]
  exact Int.floor_le_floor (by linarith)

theorem stdRound_pos {x : K} (h : 1 / 2 ≤ x) : 1 ≤ stdRound x := by
  have : (0:K) ≤ x := by linarith
  unfold stdRound
  rw [if_pos this, Int.le_floor]
  push_cast; linarith

theorem stdRound_natCast (n : Nat) : stdRound (n : K) = n := by
  unfold stdRound
  rw [if_pos (Nat.cast_nonneg n), Int.floor_eq_iff]
  constructor <;> push_cast <;> linarith

theorem roundSize_ok {x : K} {n : Nat} (h : roundSize x = .ok n) : (n : ℤ) = stdRound x := by
  unfold roundSize at h
  split_ifs at h with h1
  cases h
  exact Int.toNat_of_nonneg h1

theorem roundSize_nonneg {x : K} (h : 0 ≤ x) : roundSize x = .ok (stdRound x).toNat := by
  unfold roundSize
  rw [if_pos (stdRound_nonneg h)]

theorem roundSize_not_fail {x : K} : roundSize x ≠ .fail := by
  unfold roundSize; split_ifs <;> simp

theorem roundSize_bounds {x : K} {n : Nat} (h : roundSize x = .ok n) : (n : K) ≤ x + 1 / 2 ∧ x - 1 / 2 ≤ n := by
  have e : ((stdRound x : ℤ) : K) = (n : K) := by rw [← roundSize_ok h]; simp
  have := stdRound_bounds x
  rw [e] at this
  exact this

theorem roundSize_ub {x : K} {w : UB} (h : roundSize x = .ub w) : w = .negativeToUnsigned ∧ x < 0 := by
  unfold roundSize at h
  split_ifs at h with h1
  cases h
  refine ⟨rfl, ?_⟩
  by_contra hx
  exact h1 (stdRound_nonneg (not_lt.mp hx))

theorem subSize_ok {a b n : Nat} (h : subSize a b = .ok n) : b ≤ a ∧ n + b = a := by
  unfold subSize at h
  split_ifs at h with h1
  cases h
  exact ⟨h1, Nat.sub_add_cancel h1⟩

theorem subSize_le {a b : Nat} (h : b ≤ a) : subSize a b = .ok (a - b) := by
  unfold subSize; rw [if_pos h]

theorem subSize_ub {a b : Nat} {w : UB} (h : subSize a b = .ub w) : w = .unsignedWrap ∧ a < b := by
  unfold subSize at h
  split_ifs at h with h1
  cases h
  exact ⟨rfl, not_le.mp h1⟩

theorem subSize_not_fail {a b : Nat} : subSize a b ≠ .fail := by
  unfold subSize; split_ifs <;> simp

end Uni
