import Verif.Lemmas.Round
import Verif.Model.MinJerk
import Mathlib.Tactic.Linarith
import Mathlib.Tactic.Ring
import Mathlib.Tactic.Positivity
import Mathlib.Tactic.FieldSimp

/-! # The minimum-jerk interpolation -/

set_option autoImplicit false
set_option linter.unusedSectionVars false

namespace Uni

variable {K : Type} [Field K] [LinearOrder K] [IsStrictOrderedRing K]

/-- The fraction of the way covered at the fraction `s` of the time. -/
def blend (s : K) : K := 6 * s ^ 5 - 15 * s ^ 4 + 10 * s ^ 3

theorem blend_zero : blend (0 : K) = 0 := by simp [blend]
theorem blend_one : blend (1 : K) = 1 := by norm_num [blend]

theorem blend_lt {a b : K} (ha : 0 ≤ a) (hab : a < b) (hb : b ≤ 1) : blend a < blend b := by
  have hba : 0 < b - a := sub_pos.mpr hab
  have key : blend b - blend a = (b - a) / 3 * (7 * (a * (1 - a)) ^ 2 +
      32 * ((3 * a + b) / 4 * (1 - (3 * a + b) / 4)) ^ 2 + 12 * ((a + b) / 2 * (1 - (a + b) / 2)) ^ 2 +
      32 * ((a + 3 * b) / 4 * (1 - (a + 3 * b) / 4)) ^ 2 + 7 * (b * (1 - b)) ^ 2) := by
    unfold blend; ring
  have h1 : 0 < (a + b) / 2 * (1 - (a + b) / 2) := mul_pos (by linarith) (by linarith)
  have : 0 < blend b - blend a := by
    rw [key]
    have := pow_pos h1 2
    refine mul_pos (by linarith) ?_
    positivity
  linarith

theorem blend_mono {a b : K} (ha : 0 ≤ a) (hab : a ≤ b) (hb : b ≤ 1) : blend a ≤ blend b := by
  rcases eq_or_lt_of_le hab with rfl | h
  · exact le_refl _
  · exact (blend_lt ha h hb).le

theorem blend_nonneg {s : K} (h0 : 0 ≤ s) (h1 : s ≤ 1) : 0 ≤ blend s := by
  have := blend_mono (le_refl 0) h0 h1
  rwa [blend_zero] at this

theorem blend_le_one {s : K} (h0 : 0 ≤ s) (h1 : s ≤ 1) : blend s ≤ 1 := by
  have := blend_mono h0 h1 (le_refl 1)
  rwa [blend_one] at this

/-- The motion computed by `minimumJerk` where it succeeds. -/
def jerkMotion (initial final t duration : K) : Motion K :=
  ⟨blend (t / duration) * (final - initial) + initial,
   (5 * 6 * (t / duration) ^ 4 - 4 * 15 * (t / duration) ^ 3 + 3 * 10 * (t / duration) ^ 2) / duration * (final - initial),
   (4 * 5 * 6 * (t / duration) ^ 3 - 3 * 4 * 15 * (t / duration) ^ 2 + 2 * 3 * 10 * (t / duration)) / duration ^ 2 *
    (final - initial)⟩

theorem minimumJerk_ok {initial final t duration : K} (hd : 0 < duration) (h0 : 0 ≤ t) (h1 : t ≤ duration) :
    minimumJerk initial final t duration = .ok (jerkMotion initial final t duration) := by
  have a : ¬ (t / duration < 0 ∨ 1 < t / duration) := by
    rw [not_or, not_lt, not_lt]
    exact ⟨div_nonneg h0 hd.le, (div_le_one hd).mpr h1⟩
  unfold minimumJerk
  rw [if_neg hd.ne']
  simp only [if_neg a]
  rfl

namespace MinJerk

theorem collect_ok {α : Type} {f : Nat → Out α} {g : Nat → α} {l : List Nat} (h : ∀ j ∈ l, f j = .ok (g j)) :
    collect f l = .ok (l.map g) := by
  induction l with
  | nil => rfl
  | cons j l ih =>
    simp only [collect]
    rw [h j (by simp), ih (fun j hj => h j (by simp [hj]))]
    rfl

variable [FloorRing K] [Trig K]

theorem rising_bounds (cfg : FeetSettings K) (h0 : 0 < cfg.swingApex) (n : Nat) :
    ((rising cfg n : Nat) : K) ≤ n * cfg.swingApex + 1 / 2 ∧ n * cfg.swingApex - 1 / 2 ≤ ((rising cfg n : Nat) : K) ∧
      ((rising cfg n : Nat) : ℤ) = stdRound (n * cfg.swingApex) := by
  have hn : (0 : K) ≤ n * cfg.swingApex := mul_nonneg (Nat.cast_nonneg n) h0.le
  have e : ((rising cfg n : Nat) : ℤ) = stdRound (n * cfg.swingApex) := Int.toNat_of_nonneg (stdRound_nonneg hn)
  have e' : ((rising cfg n : Nat) : K) = ((stdRound ((n : K) * cfg.swingApex) : ℤ) : K) := by rw [← e]; simp
  have := stdRound_bounds ((n : K) * cfg.swingApex)
  rw [← e'] at this
  exact ⟨this.1, this.2, e⟩

theorem rising_le {cfg : FeetSettings K} (h0 : 0 < cfg.swingApex) (h1 : cfg.swingApex < 1) (n : Nat) : rising cfg n ≤ n := by
  have hn : (0 : K) ≤ n := Nat.cast_nonneg n
  have h := stdRound_mono (mul_nonneg hn h0.le) (by nlinarith : (n : K) * cfg.swingApex ≤ n)
  rw [stdRound_natCast] at h
  have := (rising_bounds cfg h0 n).2.2
  omega

/-- The samples of a swing. -/
def sampleUp (cfg : FeetSettings K) (dT : K) (s s' : Step K) (n : Nat) (t : K) : FootSample K :=
  sampleOf (jerkMotion s.position.x s'.position.x t (n * dT)) (jerkMotion s.position.y s'.position.y t (n * dT))
    (jerkMotion 0 cfg.stepHeight t (n * dT * cfg.swingApex)) (jerkMotion 0 cfg.pitchDelta t (n * dT * cfg.swingApex))
    (jerkMotion s.angle s'.angle t (n * dT))

/-- The samples of the second half of a swing. -/
def sampleDown (cfg : FeetSettings K) (dT : K) (s s' : Step K) (n : Nat) (t : K) : FootSample K :=
  sampleOf (jerkMotion s.position.x s'.position.x t (n * dT)) (jerkMotion s.position.y s'.position.y t (n * dT))
    (jerkMotion cfg.stepHeight 0 (t - (rising cfg n : Nat) * dT) (n * dT * (1 - cfg.swingApex)))
    (jerkMotion cfg.pitchDelta 0 (t - (rising cfg n : Nat) * dT) (n * dT * (1 - cfg.swingApex)))
    (jerkMotion s.angle s'.angle t (n * dT))

theorem swing_ok {cfg : FeetSettings K} {dT : K} (hd : 0 < dT) (h0 : 0 < cfg.swingApex) (h1 : cfg.swingApex < 1)
    (s s' : Step K) (n : Nat) :
    swing cfg dT s s' n = .ok ((List.range (rising cfg n)).map (fun (j : Nat) => sampleUp cfg dT s s' n (j * dT)) ++
      (List.range' (rising cfg n) (n - rising cfg n)).map (fun (j : Nat) => sampleDown cfg dT s s' n (j * dT))) := by
  have hle := rising_le h0 h1 n
  obtain ⟨b1, b2, -⟩ := rising_bounds cfg h0 n
  have horiz : ∀ (a b : K) (j : Nat), j < n → minimumJerk a b (j * dT) (n * dT) = .ok (jerkMotion a b (j * dT) (n * dT)) := by
    intro a b j hj
    have hj' : (j : K) < n := by exact_mod_cast hj
    have : (0 : K) ≤ j := Nat.cast_nonneg j
    exact minimumJerk_ok (mul_pos (by linarith) hd) (by positivity) (by nlinarith)
  unfold swing
  simp only
  rw [collect_ok (g := fun (j : Nat) => sampleUp cfg dT s s' n (j * dT)), Out.bind_ok,
    collect_ok (g := fun (j : Nat) => sampleDown cfg dT s s' n (j * dT)), Out.bind_ok]
  · intro j hj
    rw [List.mem_range'_1] at hj
    have hj2 : j < n := by omega
    have hj' : (j : K) + 1 ≤ n := by exact_mod_cast hj2
    have hm : ((rising cfg n : Nat) : K) ≤ j := by exact_mod_cast hj.1
    have hd' : (0 : K) < n * dT * (1 - cfg.swingApex) :=
      mul_pos (mul_pos (by have : (0 : K) ≤ j := Nat.cast_nonneg j; linarith) hd) (by linarith)
    have ht : ∀ a b : K, minimumJerk a b (j * dT - (rising cfg n : Nat) * dT) (n * dT * (1 - cfg.swingApex)) =
        .ok (jerkMotion a b (j * dT - (rising cfg n : Nat) * dT) (n * dT * (1 - cfg.swingApex))) := by
      intro a b
      exact minimumJerk_ok hd' (by nlinarith) (by nlinarith)
    unfold swingSample
    simp only [horiz _ _ j hj2, ht, Out.bind_ok]
    rfl
  · intro j hj
    rw [List.mem_range] at hj
    have hj2 : j < n := by omega
    have hj' : (j : K) + 1 ≤ (rising cfg n : Nat) := by exact_mod_cast hj
    have hjn : (j : K) + 1 ≤ n := by exact_mod_cast hj2
    have hj0 : (0 : K) ≤ j := Nat.cast_nonneg j
    have hd' : (0 : K) < n * dT * cfg.swingApex := mul_pos (mul_pos (by linarith) hd) h0
    have ht : ∀ a b : K, minimumJerk a b (j * dT - ((0 : Nat) : K) * dT) (n * dT * cfg.swingApex) =
        .ok (jerkMotion a b (j * dT) (n * dT * cfg.swingApex)) := by
      intro a b
      rw [Nat.cast_zero, zero_mul, sub_zero]
      exact minimumJerk_ok hd' (by positivity) (by nlinarith)
    unfold swingSample
    simp only [horiz _ _ j hj2, ht, Out.bind_ok]
    rfl

theorem swing_total {cfg : FeetSettings K} {dT : K} (hd : 0 < dT) (h0 : 0 < cfg.swingApex) (h1 : cfg.swingApex < 1)
    (s s' : Step K) (n : Nat) : ∃ l, swing cfg dT s s' n = .ok l ∧ l.length = n := by
  refine ⟨_, swing_ok hd h0 h1 s s' n, ?_⟩
  have := rising_le h0 h1 n
  simp; omega

theorem swing_get {cfg : FeetSettings K} {dT : K} (hd : 0 < dT) (h0 : 0 < cfg.swingApex) (h1 : cfg.swingApex < 1)
    {s s' : Step K} {n : Nat} {l : List (FootSample K)} (h : swing cfg dT s s' n = .ok l) {m : Nat} (hm : m < n) :
    l[m]? = some (if m < rising cfg n then sampleUp cfg dT s s' n (m * dT) else sampleDown cfg dT s s' n (m * dT)) := by
  rw [swing_ok hd h0 h1 s s' n] at h
  cases h
  have := rising_le h0 h1 n
  by_cases hr : m < rising cfg n
  · rw [List.getElem?_append_left (by simpa using hr), if_pos hr]
    simp [hr]
  · rw [List.getElem?_append_right (by simpa using hr), if_neg hr, List.getElem?_map]
    simp only [List.length_map, List.length_range]
    rw [List.getElem?_range' (by omega)]
    simp only [Option.map_some, Nat.one_mul]
    rw [show rising cfg n + (m - rising cfg n) = m by omega]

end MinJerk
end Uni
