import Verif.Lemmas.CubicFeet
import Verif.Props.MinJerk

/-! # C43, C65, C66, C68: the cubic-spline trajectories of the feet

`z0` is the entry of the buffer with the height at the beginning of a swing; the code never writes it. -/

set_option autoImplicit false
set_option linter.unusedSectionVars false

namespace Uni
open Spec Gen
open MinJerk (Ready)
namespace CubicFeet

section
variable {K : Type} [Field K] [LinearOrder K] [IsStrictOrderedRing K] [FloorRing K] [Trig K]
variable {cfg : GenSettings K} {left right : FootPrint K} {initTime dT : K} {sorted ordered : List (Ptr K)} {t : Timing K}
variable {c : FeetSettings K} {z0 : K} {lo ro : List (FootSample K)}

theorem runs (hc : Ready c) (z0 : K) (hs : SortedPtrs left right sorted)
    (h : timeline cfg left right initTime dT sorted = .ok (ordered, t)) (hpos : t.shifts.Pairwise (· < ·)) :
    ∃ lo ro, computeNewTrajectories c z0 dT left right t.left t.right t.shifts = .ok (lo, ro) ∧
      ∀ f : Bool, FootRun (swing c z0 dT) (if f then left.steps else right.steps) (if f then t.left else t.right) (if f then lo else ro) := by
  obtain ⟨l, r, tt, hr⟩ := timeline_ok h
  have hsw : ∀ s s' n, 0 < n → ∃ l, swing c z0 dT s s' n = .ok l ∧ l.length = n :=
    fun s s' n hn => swing_total z0 hr.dT_pos hc.apex_pos hc.apex_lt s s' n hn
  obtain ⟨sl, lo, h1, h2⟩ := feet_run hsw hs h hpos true
  obtain ⟨sr, ro, h3, h4⟩ := feet_run hsw hs h hpos false
  refine ⟨lo, ro, ?_, ?_⟩
  · unfold computeNewTrajectories interpolateFoot
    simp only [if_neg (not_lt.mpr hc.height)]
    simp only [if_true, Bool.false_eq_true, if_false] at h1 h3
    rw [h1, h3]
    rfl
  · intro f
    cases f
    · exact h4
    · exact h2

theorem runs_of (hc : Ready c) (hs : SortedPtrs left right sorted)
    (h : timeline cfg left right initTime dT sorted = .ok (ordered, t)) (hpos : t.shifts.Pairwise (· < ·))
    (ho : computeNewTrajectories c z0 dT left right t.left t.right t.shifts = .ok (lo, ro)) (f : Bool) :
    FootRun (swing c z0 dT) (if f then left.steps else right.steps) (if f then t.left else t.right) (if f then lo else ro) := by
  obtain ⟨lo', ro', h1, h2⟩ := runs hc z0 hs h hpos
  rw [h1] at ho
  cases ho
  exact h2 f

/-- The samples of a swing. -/
theorem in_swing (hc : Ready c) (hs : SortedPtrs left right sorted)
    (h : timeline cfg left right initTime dT sorted = .ok (ordered, t)) (hpos : t.shifts.Pairwise (· < ·))
    (ho : computeNewTrajectories c z0 dT left right t.left t.right t.shifts = .ok (lo, ro)) (f : Bool) (a n : Nat)
    (hsw : IsSwing (if f then t.left else t.right) a n) :
    0 < dT ∧ ∃ s s', (if f then left.steps else right.steps)[landings (if f then t.left else t.right) a]? = some s ∧
      (if f then left.steps else right.steps)[landings (if f then t.left else t.right) a + 1]? = some s' ∧
      ∀ m, m < n → (if f then lo else ro)[a + m]? = some (curve c z0 s s' (n * dT) (m * dT)) := by
  obtain ⟨l, r, tt, hr⟩ := timeline_ok h
  obtain ⟨s, s', a', n', l, h1, h2, h3, h4, h5, h6, h7, h8⟩ := (runs_of hc hs h hpos ho f).in_swing
    (by simpa using hsw.all 0 hsw.pos)
  obtain ⟨rfl, rfl⟩ := Uni.IsSwing.unique hsw h3 a (le_refl _) (by have := hsw.pos; omega) h1 h2
  exact ⟨hr.dT_pos, s, s', h4, h5, fun m hm => (h8 m hm).trans (swing_get hr.dT_pos hc.apex_pos hc.apex_lt h6 hm)⟩

/-- C43 (cubic splines, partial): over a timeline without empty phases the interpolation succeeds with one sample per phase sample.
Missing, here and in the next two theorems: timelines with a phase without samples (`C43_spline_late_witness`). -/
theorem C43_spline_succeeds_partial (hc : Ready c) (z0 : K) (hs : SortedPtrs left right sorted)
    (h : timeline cfg left right initTime dT sorted = .ok (ordered, t)) (hpos : t.shifts.Pairwise (· < ·)) :
    ∃ lo ro, computeNewTrajectories c z0 dT left right t.left t.right t.shifts = .ok (lo, ro) ∧
      lo.length = t.left.length ∧ ro.length = t.right.length := by
  obtain ⟨lo, ro, h1, h2⟩ := runs hc z0 hs h hpos
  exact ⟨lo, ro, h1, (h2 true).length, (h2 false).length⟩

/-- C43 (cubic splines, partial): a foot on the ground is at rest on the step it landed on last. -/
theorem C43_spline_contact_partial (hc : Ready c) (hs : SortedPtrs left right sorted)
    (h : timeline cfg left right initTime dT sorted = .ok (ordered, t)) (hpos : t.shifts.Pairwise (· < ·))
    (ho : computeNewTrajectories c z0 dT left right t.left t.right t.shifts = .ok (lo, ro)) (f : Bool) (j : Nat) (p : Phase)
    (hp : (if f then t.left else t.right)[j]? = some p) (hne : p ≠ .swing) :
    ∃ s o, (if f then left.steps else right.steps)[landings (if f then t.left else t.right) j]? = some s ∧
      (if f then lo else ro)[j]? = some o ∧ AtRestOn s o := by
  obtain ⟨s, h1, h2⟩ := (runs_of hc hs h hpos ho f).on_ground hp hne
  exact ⟨s, _, h1, h2, rfl, rfl, rfl, rfl, rfl, rfl, rfl, rfl, rfl⟩

/-- C43 (cubic splines, partial): every swing leads from the step the foot landed on last to the next one. -/
theorem C43_spline_swing_partial (hc : Ready c) (hs : SortedPtrs left right sorted)
    (h : timeline cfg left right initTime dT sorted = .ok (ordered, t)) (hpos : t.shifts.Pairwise (· < ·))
    (ho : computeNewTrajectories c z0 dT left right t.left t.right t.shifts = .ok (lo, ro)) (f : Bool) (a n : Nat)
    (hsw : IsSwing (if f then t.left else t.right) a n) :
    ∃ s s', (if f then left.steps else right.steps)[landings (if f then t.left else t.right) a]? = some s ∧
      (if f then left.steps else right.steps)[landings (if f then t.left else t.right) a + 1]? = some s' ∧
      ∃ lam : Nat → K, lam 0 = 0 ∧ lam n = 1 ∧ (∀ m, m < n → lam m < lam (m + 1)) ∧
        ∀ m, m < n → ∃ o, (if f then lo else ro)[a + m]? = some o ∧ OnTheWay s s' (lam m) o := by
  obtain ⟨hd, s, s', h1, h2, h3⟩ := in_swing hc hs h hpos ho f a n hsw
  have hn : (0 : K) < n := by exact_mod_cast hsw.pos
  refine ⟨s, s', h1, h2, fun m => ease ((m : K) / n), ?_, ?_, ?_, ?_⟩
  · simp [ease_zero]
  · simp only [div_self hn.ne', ease_one]
  · intro m hm
    have hm' : ((m : K) + 1) ≤ n := by exact_mod_cast hm
    have : ((m + 1 : Nat) : K) = m + 1 := by push_cast; rfl
    simp only [this]
    exact ease_lt (by positivity) (by rw [div_lt_div_iff_of_pos_right hn]; linarith) ((div_le_one hn).mpr hm')
  · intro m hm
    refine ⟨_, h3 m hm, ?_⟩
    have e : (m : K) * dT / (n * dT) = m / n := mul_div_mul_right _ _ hd.ne'
    have hL : (n : K) * dT ≠ 0 := (mul_pos hn hd).ne'
    refine ⟨?_, ?_, ?_⟩ <;> simp only [curve, sampleOf] <;> rw [hermite_rest _ _ hL, e]

/-- C68 (partial).  Full statement: every sample has a height between zero and the step height.  Missing: other contents of the
buffer, other landing velocities, and the bound by the step height itself unless the apex is at half time; all of them are
refuted below.  What holds: whatever the phases are, if the foot lands at rest and the unwritten entry of the buffer is zero, no sample is below
the ground and the step height is exceeded at most by the given factor; not at all if the apex is at half time. -/
theorem C68_heights_partial (hc : Ready c) (hv : c.landingVelocity = 0) (hd : 0 < dT) {lp rp : List Phase} {shifts : List Nat}
    (ho : computeNewTrajectories c 0 dT left right lp rp shifts = .ok (lo, ro)) :
    ∀ o ∈ lo ++ ro, 0 ≤ o.pos.z ∧ o.pos.z ≤ c.stepHeight *
      (1 + 2 / 9 * (max (c.swingApex / (1 - c.swingApex)) ((1 - c.swingApex) / c.swingApex) - 1)) := by
  have a1 : 0 < 1 - c.swingApex := by linarith [hc.apex_lt]
  have hM : (0 : K) ≤ max (c.swingApex / (1 - c.swingApex)) ((1 - c.swingApex) / c.swingApex) - 1 := by
    rcases le_total c.swingApex (1 / 2) with hh | hh
    · have : 1 ≤ (1 - c.swingApex) / c.swingApex := by rw [le_div_iff₀ hc.apex_pos]; linarith
      linarith [le_max_right (c.swingApex / (1 - c.swingApex)) ((1 - c.swingApex) / c.swingApex)]
    · have : 1 ≤ c.swingApex / (1 - c.swingApex) := by rw [le_div_iff₀ a1]; linarith
      linarith [le_max_left (c.swingApex / (1 - c.swingApex)) ((1 - c.swingApex) / c.swingApex)]
  have hsw : ∀ s s' n l, swing c 0 dT s s' n = .ok l → ∀ o ∈ l, 0 ≤ o.pos.z ∧ o.pos.z ≤ c.stepHeight *
      (1 + 2 / 9 * (max (c.swingApex / (1 - c.swingApex)) ((1 - c.swingApex) / c.swingApex) - 1)) := by
    intro s s' n l hl o hmem
    rcases Nat.eq_zero_or_pos n with rfl | hn
    · rw [swing_zero] at hl; cases hl
    rw [swing_ok 0 hd hc.apex_pos hc.apex_lt s s' hn] at hl
    cases hl
    rw [List.mem_map] at hmem
    obtain ⟨m, hm, rfl⟩ := hmem
    have hL : (0 : K) < n * dT := mul_pos (by exact_mod_cast hn) hd
    have hm' : (m : K) * dT ≤ n * dT :=
      mul_le_mul_of_nonneg_right (by exact_mod_cast (List.mem_range.mp hm).le) hd.le
    have hm0 : (0 : K) ≤ m * dT := by positivity
    refine ⟨above hc.height hc.apex_pos hc.apex_lt hL hv.le ?_ hm0 hm', below hc.height hc.apex_pos hc.apex_lt hL hv hm0 hm'⟩
    rw [hv]
    have := hc.height
    simpa using this
  have key : ∀ {ph : List Phase} {steps : List (Step K)} {l}, interpolateFoot c 0 dT shifts ph steps = .ok l →
      ∀ o ∈ l, 0 ≤ o.pos.z ∧ o.pos.z ≤ c.stepHeight *
      (1 + 2 / 9 * (max (c.swingApex / (1 - c.swingApex)) ((1 - c.swingApex) / c.swingApex) - 1)) := by
    intro ph steps l hl
    unfold interpolateFoot at hl
    rw [if_neg (not_lt.mpr hc.height), Out.bind_eq_ok] at hl
    obtain ⟨r, hr, hl⟩ := hl
    cases hl
    unfold overPhases at hr
    refine phaseLoop_all (P := fun o => 0 ≤ o.pos.z ∧ o.pos.z ≤ c.stepHeight *
      (1 + 2 / 9 * (max (c.swingApex / (1 - c.swingApex)) ((1 - c.swingApex) / c.swingApex) - 1))) ?_ (s' := r.1) (l := r.2) hr
    intro k b p i j steps steps' l hb
    unfold footBody at hb
    split at hb
    · simp at hb
    · split_ifs at hb
      · split at hb
        · simp at hb
        · rw [Out.bind_eq_ok] at hb
          obtain ⟨l', h1, h2⟩ := hb
          cases h2
          exact hsw _ _ _ _ h1
      · cases hb
        intro o ho
        rw [List.eq_of_mem_replicate ho]
        exact ⟨le_refl _, mul_nonneg hc.height (by linarith)⟩
  unfold computeNewTrajectories at ho
  rw [Out.bind_eq_ok] at ho
  obtain ⟨l, h1, ho⟩ := ho
  rw [Out.bind_eq_ok] at ho
  obtain ⟨r, h2, ho⟩ := ho
  cases ho
  intro o hmem
  rcases List.mem_append.mp hmem with hm | hm
  · exact key h1 o hm
  · exact key h2 o hm

/-- C68 (partial, as above): a swing with a downward landing velocity that is not too large stays above the ground too. -/
theorem C68_landing_partial (hc : Ready c) (hs : SortedPtrs left right sorted)
    (h : timeline cfg left right initTime dT sorted = .ok (ordered, t)) (hpos : t.shifts.Pairwise (· < ·))
    (ho : computeNewTrajectories c 0 dT left right t.left t.right t.shifts = .ok (lo, ro)) (f : Bool) (a n : Nat)
    (hsw : IsSwing (if f then t.left else t.right) a n) (hv : c.landingVelocity ≤ 0)
    (hb : -c.landingVelocity * (c.swingApex ^ 2 * (1 - c.swingApex) * (n * dT)) ≤ 3 * c.stepHeight) (m : Nat) (hm : m < n) :
    ∃ o, (if f then lo else ro)[a + m]? = some o ∧ 0 ≤ o.pos.z := by
  obtain ⟨hd, s, s', h1, h2, h3⟩ := in_swing hc hs h hpos ho f a n hsw
  have hL : (0 : K) < n * dT := mul_pos (by exact_mod_cast hsw.pos) hd
  refine ⟨_, h3 m hm, ?_⟩
  have hm' : (m : K) * dT ≤ n * dT := mul_le_mul_of_nonneg_right (by exact_mod_cast hm.le) hd.le
  have hm0 : (0 : K) ≤ m * dT := by positivity
  exact above hc.height hc.apex_pos hc.apex_lt hL hv hb hm0 hm'

/-- C68 (negative): the first sample of every swing has the height found in the entry of the buffer that is never written. -/
theorem C68_first_sample (hc : Ready c) (hs : SortedPtrs left right sorted)
    (h : timeline cfg left right initTime dT sorted = .ok (ordered, t)) (hpos : t.shifts.Pairwise (· < ·))
    (ho : computeNewTrajectories c z0 dT left right t.left t.right t.shifts = .ok (lo, ro)) (f : Bool) (a n : Nat)
    (hsw : IsSwing (if f then t.left else t.right) a n) : ∃ o, (if f then lo else ro)[a]? = some o ∧ o.pos.z = z0 := by
  obtain ⟨hd, s, s', h1, h2, h3⟩ := in_swing hc hs h hpos ho f a n hsw
  have hL : (0 : K) < n * dT := mul_pos (by exact_mod_cast hsw.pos) hd
  refine ⟨_, by simpa using h3 0 hsw.pos, ?_⟩
  simp only [curve, sampleOf, heightAt, spline3At]
  rw [if_pos (by have := mul_pos hc.apex_pos hL; linarith)]
  exact (hermite_zero _ _ _ _ _).1

end

/-! ## C65, C66 -/

/-- C65 (cubic splines): over each whole swing the samples are taken from one curve of poses of which the reported twist is
the velocity and the reported acceleration the derivative of the twist.  C66: the curve passes through the step height at the
apex and reaches the ground, at the instant of the landing, with the landing velocity. -/
theorem C65_spline_twist {cfg : GenSettings ℝ} {left right : FootPrint ℝ} {initTime dT : ℝ} {sorted ordered : List (Ptr ℝ)}
    {t : Timing ℝ} {c : FeetSettings ℝ} {z0 : ℝ} {lo ro : List (FootSample ℝ)} (hc : Ready c) (hs : SortedPtrs left right sorted)
    (h : timeline cfg left right initTime dT sorted = .ok (ordered, t)) (hpos : t.shifts.Pairwise (· < ·))
    (ho : computeNewTrajectories c z0 dT left right t.left t.right t.shifts = .ok (lo, ro)) (f : Bool) (a n : Nat)
    (hsw : IsSwing (if f then t.left else t.right) a n) :
    ∃ q : ℝ → FootSample ℝ, (∀ x, Kinematic q x) ∧
      (∀ m, m < n → (if f then lo else ro)[a + m]? = some (q (m * dT))) := by
  obtain ⟨hd, s, s', h1, h2, h3⟩ := in_swing hc hs h hpos ho f a n hsw
  have hL : (0 : ℝ) < n * dT := mul_pos (by exact_mod_cast hsw.pos) hd
  have ha : 0 < c.swingApex * (n * dT) := mul_pos hc.apex_pos hL
  have hb : c.swingApex * (n * dT) < n * dT := by nlinarith [hc.apex_lt]
  exact ⟨fun x => curve c z0 s s' (n * dT) x, fun x => kinematic_of (hermite_smooth _ _ _ _ _ x) (hermite_smooth _ _ _ _ _ x)
    (spline3_smooth _ _ _ _ _ ha hb x) (spline3_smooth _ _ _ _ _ ha hb x) (hermite_smooth _ _ _ _ _ x), h3⟩

/-- C66 (partial; missing: the minimum-jerk generator, for which it is false, see `C66_landing_velocity_ignored`).  With cubic
splines the vertical motion of a swing passes through the step height at the apex and reaches the ground, at
the instant of the landing, with the landing velocity that was set. -/
theorem C66_spline_landing_partial {cfg : GenSettings ℝ} {left right : FootPrint ℝ} {initTime dT : ℝ} {sorted ordered : List (Ptr ℝ)}
    {t : Timing ℝ} {c : FeetSettings ℝ} {z0 : ℝ} {lo ro : List (FootSample ℝ)} (hc : Ready c) (hs : SortedPtrs left right sorted)
    (h : timeline cfg left right initTime dT sorted = .ok (ordered, t)) (hpos : t.shifts.Pairwise (· < ·))
    (ho : computeNewTrajectories c z0 dT left right t.left t.right t.shifts = .ok (lo, ro)) (f : Bool) (a n : Nat)
    (hsw : IsSwing (if f then t.left else t.right) a n) :
    ∃ z v : ℝ → ℝ, (∀ x, HasDerivAt z (v x) x) ∧
      (∀ m, m < n → ∃ o, (if f then lo else ro)[a + m]? = some o ∧ o.pos.z = z (m * dT) ∧ o.vel.z = v (m * dT)) ∧
      v 0 = 0 ∧ z (c.swingApex * (n * dT)) = c.stepHeight ∧ z (n * dT) = 0 ∧ v (n * dT) = c.landingVelocity := by
  obtain ⟨hd, s, s', h1, h2, h3⟩ := in_swing hc hs h hpos ho f a n hsw
  have hL : (0 : ℝ) < n * dT := mul_pos (by exact_mod_cast hsw.pos) hd
  have ha : 0 < c.swingApex * (n * dT) := mul_pos hc.apex_pos hL
  have hb : c.swingApex * (n * dT) < n * dT := by nlinarith [hc.apex_lt]
  refine ⟨fun x => (heightAt c z0 (n * dT) x).pos, fun x => (heightAt c z0 (n * dT) x).vel,
    fun x => (spline3_smooth _ _ _ _ _ ha hb x).pos, fun m hm => ⟨_, h3 m hm, rfl, rfl⟩, ?_, ?_, ?_, ?_⟩
  · simp only [heightAt, spline3At]
    rw [if_pos ha.le]
    exact (hermite_zero _ _ _ _ _).2
  · simp only [heightAt, spline3At]
    rw [if_pos (le_refl _)]
    exact (hermite_end _ _ _ _ ha.ne').1
  · simp only [heightAt, spline3At]
    rw [if_neg (not_le.mpr hb)]
    exact (hermite_end _ _ _ _ (by linarith)).1
  · simp only [heightAt, spline3At]
    rw [if_neg (not_le.mpr hb)]
    exact (hermite_end _ _ _ _ (by linarith)).2

/-! ## Examples and witnesses -/

/-- Functions that play no part in the positions of the samples looked at below. -/
private local instance : Trig ℚ := ⟨fun _ => 1, fun _ => 0, fun x => x, fun x => x, fun x => x, fun x _ => x, 3⟩

private def st (x t : ℚ) (n : String) : Step ℚ := ⟨⟨x, 0⟩, 0, t, n⟩
private def lf (l : List (ℚ × ℚ)) : FootPrint ℚ := ⟨l.map (fun p => st p.1 p.2 "left"), "left"⟩
private def rf (l : List (ℚ × ℚ)) : FootPrint ℚ := ⟨l.map (fun p => st p.1 p.2 "right"), "right"⟩
private def pl (i : Nat) (x t : ℚ) : Ptr ℚ := ⟨true, i, st x t "left"⟩
private def pr (i : Nat) (x t : ℚ) : Ptr ℚ := ⟨false, i, st x t "right"⟩
private def fs : FeetSettings ℚ := ⟨1, 0, 1 / 2, 0⟩

/-- The positions of the left foot after a generation. -/
private def feet (cfg : GenSettings ℚ) (c : FeetSettings ℚ) (z0 : ℚ) (l r : FootPrint ℚ) (s : List (Ptr ℚ)) :
    Out (List (Vec3 ℚ)) := do
  let t ← timeline cfg l r 0 1 s
  let o ← computeNewTrajectories c z0 1 l r t.2.left t.2.right t.2.shifts
  .ok (o.1.map (·.pos))

/-- Non-vacuity: a walk with a step of the left foot, four samples of swing. -/
example : Ready fs ∧ SortedPtrs (lf [(0, 0), (1, 8)]) (rf [(0, 0)]) [pl 0 0 0, pr 0 0 0, pl 1 1 8] ∧
    feet GenSettings.new fs 0 (lf [(0, 0), (1, 8)]) (rf [(0, 0)]) [pl 0 0 0, pr 0 0 0, pl 1 1 8] =
      .ok [⟨0, 0, 0⟩, ⟨0, 0, 0⟩, ⟨0, 0, 0⟩, ⟨0, 0, 0⟩, ⟨0, 0, 0⟩, ⟨5 / 32, 0, 1 / 2⟩, ⟨1 / 2, 0, 1⟩, ⟨27 / 32, 0, 1 / 2⟩, ⟨1, 0, 0⟩] :=
  ⟨⟨by decide +kernel, by decide +kernel, by decide +kernel⟩, by unfold SortedPtrs; decide +kernel, by decide +kernel⟩

/-- C68 (negative): with an early apex the foot rises above the step height. -/
theorem C68_overshoot_witness :
    feet GenSettings.new { fs with swingApex := 1 / 4 } 0 (lf [(0, 0), (1, 8)]) (rf [(0, 0)]) [pl 0 0 0, pr 0 0 0, pl 1 1 8] =
      .ok [⟨0, 0, 0⟩, ⟨0, 0, 0⟩, ⟨0, 0, 0⟩, ⟨0, 0, 0⟩, ⟨0, 0, 0⟩, ⟨5 / 32, 0, 1⟩, ⟨1 / 2, 0, 32 / 27⟩, ⟨27 / 32, 0, 13 / 27⟩, ⟨1, 0, 0⟩] := by
  decide +kernel

/-- C68 (negative): with an upward landing velocity the foot goes below the ground. -/
theorem C68_penetration_witness :
    feet GenSettings.new { fs with landingVelocity := 4 } 0 (lf [(0, 0), (1, 8)]) (rf [(0, 0)]) [pl 0 0 0, pr 0 0 0, pl 1 1 8] =
      .ok [⟨0, 0, 0⟩, ⟨0, 0, 0⟩, ⟨0, 0, 0⟩, ⟨0, 0, 0⟩, ⟨0, 0, 0⟩, ⟨5 / 32, 0, 3 / 4⟩, ⟨1 / 2, 0, 1⟩, ⟨27 / 32, 0, -3 / 4⟩, ⟨1, 0, 0⟩] := by
  decide +kernel

/-- C68 (negative): with anything else than zero in the unwritten entry the foot jumps at the beginning of the swing. -/
theorem C68_jump_witness :
    feet GenSettings.new fs (-1) (lf [(0, 0), (1, 8)]) (rf [(0, 0)]) [pl 0 0 0, pr 0 0 0, pl 1 1 8] =
      .ok [⟨0, 0, 0⟩, ⟨0, 0, 0⟩, ⟨0, 0, 0⟩, ⟨0, 0, 0⟩, ⟨0, 0, -1⟩, ⟨5 / 32, 0, -3 / 32⟩, ⟨1 / 2, 0, 1⟩, ⟨27 / 32, 0, 19 / 32⟩, ⟨1, 0, 0⟩] := by
  decide +kernel

/-- C43 (negative): as with the other generator, after a swing without samples the foot is late for the rest of the walk. -/
theorem C43_spline_late_witness :
    feet GenSettings.new fs 0 (lf [(0, 0), (1, 1), (2, 3)]) (rf [(0, 0)]) [pl 0 0 0, pr 0 0 0, pl 1 1 1, pl 2 2 3] =
      .ok [⟨0, 0, 0⟩, ⟨0, 0, 0⟩, ⟨0, 0, 0⟩, ⟨1, 0, 0⟩] := by decide +kernel

end CubicFeet
end Uni
