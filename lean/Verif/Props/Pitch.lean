import Verif.Props.CubicFeet

/-! # C87: the pitch of a swinging foot -/

set_option autoImplicit false
set_option linter.unusedSectionVars false

namespace Uni
open Spec Gen
open MinJerk (Ready)

namespace MinJerk
variable {K : Type} [Field K] [LinearOrder K] [IsStrictOrderedRing K] [FloorRing K] [Trig K]
variable {cfg : GenSettings K} {left right : FootPrint K} {initTime dT : K} {sorted ordered : List (Ptr K)} {t : Timing K}
variable {c : FeetSettings K} {lo ro : List (FootSample K)}

/-- How far up a swing of `n` samples is at sample `m`, between 0 and 1. -/
def lift (c : FeetSettings K) (n m : Nat) : K :=
  if m < rising c n then blend ((m : K) / (n * c.swingApex)) else 1 - blend (((m : K) - rising c n) / (n * (1 - c.swingApex)))

theorem lift_mem (hc : Ready c) {n m : Nat} (hm : m < n) : 0 ≤ lift c n m ∧ lift c n m ≤ 1 := by
  unfold lift
  split_ifs with h
  · obtain ⟨u0, u1⟩ := up_fraction hc hm h
    exact ⟨blend_nonneg u0 u1.le, blend_le_one u0 u1.le⟩
  · obtain ⟨u0, u1⟩ := down_fraction hc hm h
    have b0 := blend_nonneg u0 u1.le
    have b1 := blend_le_one u0 u1.le
    exact ⟨by linarith, by linarith⟩

theorem lift_up (hc : Ready c) {n m : Nat} (hn : 0 < n) (hm : m + 1 < rising c n) : lift c n m < lift c n (m + 1) := by
  have hle := rising_le hc.apex_pos hc.apex_lt n
  unfold lift
  rw [if_pos hm, if_pos (by omega : m < rising c n)]
  obtain ⟨u0, u1⟩ := up_fraction hc (by omega : m < n) (by omega : m < rising c n)
  obtain ⟨v0, v1⟩ := up_fraction hc (by omega : m + 1 < n) hm
  have hn : (0 : K) < n := by exact_mod_cast hn
  refine blend_lt u0 ?_ v1.le
  rw [div_lt_div_iff_of_pos_right (mul_pos hn hc.apex_pos)]; push_cast; linarith

theorem lift_down (hc : Ready c) {n m : Nat} (hk : rising c n ≤ m) (hm : m + 1 < n) : lift c n (m + 1) < lift c n m := by
  unfold lift
  rw [if_neg (by omega : ¬ m < rising c n), if_neg (by omega : ¬ m + 1 < rising c n)]
  obtain ⟨u0, u1⟩ := down_fraction hc (by omega : m < n) (by omega : ¬ m < rising c n)
  obtain ⟨v0, v1⟩ := down_fraction hc hm (by omega : ¬ m + 1 < rising c n)
  have hn : (0 : K) < n := by exact_mod_cast (by omega : 0 < n)
  refine sub_lt_sub_left (blend_lt u0 ?_ v1.le) _
  rw [div_lt_div_iff_of_pos_right (mul_pos hn (by linarith [hc.apex_lt]))]; push_cast; linarith

/-- C87 (minimum jerk): height and pitch rise and fall together, from nothing to the step height and the pitch that were set, which are
reached at the same sample. -/
theorem C87_with_the_height (hc : Ready c) (hs : SortedPtrs left right sorted)
    (h : timeline cfg left right initTime dT sorted = .ok (ordered, t)) (hpos : t.shifts.Pairwise (· < ·))
    (ho : computeNewTrajectories c dT left right t.left t.right t.shifts = .ok (lo, ro)) (f : Bool) (a n : Nat)
    (hsw : IsSwing (if f then t.left else t.right) a n) :
    ∃ lam : Nat → K, (∀ m, m < n → ∃ o, (if f then lo else ro)[a + m]? = some o ∧
        o.pos.z = lam m * c.stepHeight ∧ o.pitch = lam m * c.pitchDelta) ∧
      (∀ m, m < n → 0 ≤ lam m ∧ lam m ≤ 1) ∧
      ∃ k : Nat, (k : ℤ) = stdRound ((n : K) * c.swingApex) ∧ k ≤ n ∧
      (∀ m, m + 1 < k → lam m < lam (m + 1)) ∧ (k < n → lam k = 1) ∧ (∀ m, k ≤ m → m + 1 < n → lam (m + 1) < lam m) ∧
      (0 < k → lam 0 = 0) := by
  obtain ⟨l, r, tt, hr⟩ := timeline_ok h
  refine ⟨lift c n, ?_, fun m hm => lift_mem hc hm, rising c n, (rising_bounds c hc.apex_pos n).2.2, rising_le hc.apex_pos hc.apex_lt n,
    fun m hm => lift_up hc hsw.pos hm, fun hk => by simp [lift, blend_zero], fun m hk hm => lift_down hc hk hm,
    fun hk => by simp [lift, hk, blend_zero]⟩
  intro m hm
  obtain ⟨s, s', a', n', l, h1, h2, h3, h4, h5, h6, h7, h8⟩ := (runs_of hc hs h hpos ho f).in_swing
    (by simpa using hsw.all 0 hsw.pos)
  obtain ⟨rfl, rfl⟩ := Uni.IsSwing.unique hsw h3 a (le_refl _) (by have := hsw.pos; omega) h1 h2
  refine ⟨_, (h8 m hm).trans (swing_get hr.dT_pos hc.apex_pos hc.apex_lt h6 hm), ?_⟩
  unfold lift
  split_ifs with hlt
  · exact ⟨rise_z hr.dT_pos n m, rise_z (c := { c with stepHeight := c.pitchDelta }) hr.dT_pos n m⟩
  · exact ⟨fall_z hr.dT_pos n m _, fall_z (c := { c with stepHeight := c.pitchDelta }) hr.dT_pos n m _⟩

end MinJerk

namespace CubicFeet

/-- C87 (cubic splines): the pitch follows a curve with a continuous second derivative, of which it has the right rate; it starts and ends
flat and at rest and passes through the pitch that was set at the apex. -/
theorem C87_spline {cfg : GenSettings ℝ} {left right : FootPrint ℝ} {initTime dT : ℝ} {sorted ordered : List (Ptr ℝ)}
    {t : Timing ℝ} {c : FeetSettings ℝ} {z0 : ℝ} {lo ro : List (FootSample ℝ)} (hc : Ready c) (hs : SortedPtrs left right sorted)
    (h : timeline cfg left right initTime dT sorted = .ok (ordered, t)) (hpos : t.shifts.Pairwise (· < ·))
    (ho : computeNewTrajectories c z0 dT left right t.left t.right t.shifts = .ok (lo, ro)) (f : Bool) (a n : Nat)
    (hsw : IsSwing (if f then t.left else t.right) a n) :
    ∃ p v acc : ℝ → ℝ, (∀ x, HasDerivAt p (v x) x) ∧ (∀ x, HasDerivAt v (acc x) x) ∧
      (∀ m, m < n → ∃ o, (if f then lo else ro)[a + m]? = some o ∧ o.pitch = p (m * dT)) ∧
      p 0 = 0 ∧ v 0 = 0 ∧ p (c.swingApex * (n * dT)) = c.pitchDelta ∧ p (n * dT) = 0 ∧ v (n * dT) = 0 := by
  obtain ⟨hd, s, s', h1, h2, h3⟩ := in_swing hc hs h hpos ho f a n hsw
  have hL : (0 : ℝ) < n * dT := mul_pos (by exact_mod_cast hsw.pos) hd
  have ha : 0 < c.swingApex * (n * dT) := mul_pos hc.apex_pos hL
  have hb : c.swingApex * (n * dT) < n * dT := by nlinarith [hc.apex_lt]
  refine ⟨fun x => (spline3At 0 0 c.pitchDelta 0 0 (c.swingApex * (n * dT)) (n * dT) x).pos,
    fun x => (spline3At 0 0 c.pitchDelta 0 0 (c.swingApex * (n * dT)) (n * dT) x).vel,
    fun x => (spline3At 0 0 c.pitchDelta 0 0 (c.swingApex * (n * dT)) (n * dT) x).acc,
    fun x => (spline3_smooth _ _ _ _ _ ha hb x).pos, fun x => (spline3_smooth _ _ _ _ _ ha hb x).vel,
    fun m hm => ⟨_, h3 m hm, rfl⟩, ?_, ?_, ?_, ?_, ?_⟩
  · simp only [spline3At]
    rw [if_pos ha.le]
    exact (hermite_zero _ _ _ _ _).1
  · simp only [spline3At]
    rw [if_pos ha.le]
    exact (hermite_zero _ _ _ _ _).2
  · simp only [spline3At]
    rw [if_pos (le_refl _)]
    exact (hermite_end _ _ _ _ ha.ne').1
  · simp only [spline3At]
    rw [if_neg (not_le.mpr hb)]
    exact (hermite_end _ _ _ _ (by linarith)).1
  · simp only [spline3At]
    rw [if_neg (not_le.mpr hb)]
    exact (hermite_end _ _ _ _ (by linarith)).2

end CubicFeet

/-! ## Examples -/

/-- Functions that play no part in the pitch of the samples looked at below. -/
private local instance : Trig ℚ := ⟨fun _ => 1, fun _ => 0, fun x => x, fun x => x, fun x => x, fun x _ => x, 3⟩

private def st (x t : ℚ) (n : String) : Step ℚ := ⟨⟨x, 0⟩, 0, t, n⟩
private def lf (l : List (ℚ × ℚ)) : FootPrint ℚ := ⟨l.map (fun p => st p.1 p.2 "left"), "left"⟩
private def rf (l : List (ℚ × ℚ)) : FootPrint ℚ := ⟨l.map (fun p => st p.1 p.2 "right"), "right"⟩
private def pl (i : Nat) (x t : ℚ) : Ptr ℚ := ⟨true, i, st x t "left"⟩
private def pr (i : Nat) (x t : ℚ) : Ptr ℚ := ⟨false, i, st x t "right"⟩
private def fs : FeetSettings ℚ := ⟨1, 3 / 10, 1 / 2, 0⟩

private def pitches (generate : List Phase → List Phase → List Nat → Out (List (FootSample ℚ) × List (FootSample ℚ))) :
    Out (List Nat × List ℚ) := do
  let t ← timeline GenSettings.new (lf [(0, 0), (1, 8)]) (rf [(0, 0)]) 0 1 [pl 0 0 0, pr 0 0 0, pl 1 1 8]
  let o ← generate t.2.left t.2.right t.2.shifts
  .ok (t.2.shifts, o.1.map (·.pitch))

/-- Non-vacuity: a walk with a step of the left foot, four samples of swing, with both generators. -/
example : Ready fs ∧ SortedPtrs (lf [(0, 0), (1, 8)]) (rf [(0, 0)]) [pl 0 0 0, pr 0 0 0, pl 1 1 8] ∧
    ([0, 4, 8, 9] : List Nat).Pairwise (· < ·) ∧
    pitches (MinJerk.computeNewTrajectories fs 1 (lf [(0, 0), (1, 8)]) (rf [(0, 0)])) =
      .ok ([0, 4, 8, 9], [0, 0, 0, 0, 0, 3 / 20, 3 / 10, 3 / 20, 0]) ∧
    pitches (CubicFeet.computeNewTrajectories fs 0 1 (lf [(0, 0), (1, 8)]) (rf [(0, 0)])) =
      .ok ([0, 4, 8, 9], [0, 0, 0, 0, 0, 3 / 20, 3 / 10, 3 / 20, 0]) ∧
    IsSwing [.switchOut, .switchOut, .switchOut, .switchOut, .swing, .swing, .swing, .swing, .switchIn] 4 4 :=
  ⟨⟨by decide +kernel, by decide +kernel, by decide +kernel⟩, by unfold SortedPtrs; decide +kernel, by decide,
    by decide +kernel, by decide +kernel, ⟨by omega, by decide, by decide, by decide⟩⟩

end Uni
