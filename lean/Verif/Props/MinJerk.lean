import Verif.Lemmas.FeetWalk
import Verif.Lemmas.MinJerk
import Verif.Lemmas.Kinematic

/-! # C41–C43, C64, C65: the minimum-jerk trajectories of the feet

The timeline is the one handed over by `generateFromFootPrints`; `lo`, `ro` are the trajectories of the left and right foot.
The theorems about whole walks assume that no phase is empty (`t.shifts` strictly increasing).  C42 and C43 do not ask for
this, and without it they are false: hence the names `_partial` and the witnesses at the end.  (C42: "the interpolation never
fails because of rounding" = `C42_succeeds_partial` without `hpos`.  C43: `C43_contact_partial`, `C43_swing_partial` and
`C43_last_partial` without `hpos`.) -/

set_option autoImplicit false
set_option linter.unusedSectionVars false

namespace Uni
open Spec Gen

section
variable {K : Type} [Field K] [LinearOrder K] [IsStrictOrderedRing K]

/-! ## C41 -/

/-- C41: the interpolation starts at the first point and ends at the second one, at rest. -/
theorem C41_rest_to_rest (x0 x1 T : K) (hT : 0 < T) :
    minimumJerk x0 x1 0 T = .ok ⟨x0, 0, 0⟩ ∧ minimumJerk x0 x1 T T = .ok ⟨x1, 0, 0⟩ := by
  constructor
  · rw [minimumJerk_ok hT (le_refl _) hT.le]
    simp [jerkMotion, blend]
  · rw [minimumJerk_ok hT hT.le (le_refl _)]
    simp only [jerkMotion, div_self hT.ne', blend_one]
    norm_num

/-- C41: it is defined exactly between the two instants, and never leaves the interval between the two points. -/
theorem C41_between (x0 x1 t T : K) (hT : 0 < T) :
    (0 ≤ t ∧ t ≤ T → ∃ m, minimumJerk x0 x1 t T = .ok m ∧ min x0 x1 ≤ m.pos ∧ m.pos ≤ max x0 x1) ∧
    (¬ (0 ≤ t ∧ t ≤ T) → minimumJerk x0 x1 t T = .fail) := by
  constructor
  · rintro ⟨h0, h1⟩
    refine ⟨_, minimumJerk_ok hT h0 h1, ?_⟩
    have a := blend_nonneg (div_nonneg h0 hT.le) ((div_le_one hT).mpr h1)
    have b := blend_le_one (div_nonneg h0 hT.le) ((div_le_one hT).mpr h1)
    simp only [jerkMotion]
    rcases le_total x0 x1 with h | h
    · rw [min_eq_left h, max_eq_right h]
      constructor <;> nlinarith
    · rw [min_eq_right h, max_eq_left h]
      constructor <;> nlinarith
  · intro h
    have : t / T < 0 ∨ 1 < t / T := by
      rw [div_lt_iff₀ hT, lt_div_iff₀ hT, zero_mul, one_mul]
      by_contra hn
      rw [not_or, not_lt, not_lt] at hn
      exact h hn
    unfold minimumJerk
    rw [if_neg hT.ne']
    simp only [if_pos this]

/-- C41: it moves strictly towards the second point, and its speed never exceeds 15/8 of the mean speed. -/
theorem C41_monotone {x0 x1 t t' T : K} (hT : 0 < T) (h0 : 0 ≤ t) (h : t < t') (h1 : t' ≤ T) {m m' : Motion K}
    (hm : minimumJerk x0 x1 t T = .ok m) (hm' : minimumJerk x0 x1 t' T = .ok m') :
    (x0 < x1 → m.pos < m'.pos) ∧ (x1 < x0 → m'.pos < m.pos) ∧ 0 ≤ m.vel * (x1 - x0) ∧
      |m.vel| ≤ 15 / 8 * (|x1 - x0| / T) := by
  rw [minimumJerk_ok hT h0 (h.le.trans h1)] at hm
  rw [minimumJerk_ok hT (h0.trans h.le) h1] at hm'
  cases hm; cases hm'
  have hb := blend_lt (div_nonneg h0 hT.le) ((div_lt_div_iff_of_pos_right hT).mpr h) ((div_le_one hT).mpr h1)
  have ha0 : 0 ≤ t / T := div_nonneg h0 hT.le
  have ha1 : t / T ≤ 1 := (div_le_one hT).mpr (h.le.trans h1)
  simp only [jerkMotion]
  generalize t / T = s at hb ha0 ha1 ⊢
  have e : (5 * 6 * s ^ 4 - 4 * 15 * s ^ 3 + 3 * 10 * s ^ 2) / T * (x1 - x0) = 30 * (s * (1 - s)) ^ 2 * ((x1 - x0) / T) := by
    ring
  have hs : 0 ≤ s * (1 - s) := mul_nonneg ha0 (by linarith)
  have hq : s * (1 - s) ≤ 1 / 4 := by nlinarith [sq_nonneg (s - 1 / 2)]
  have hq2 : (s * (1 - s)) ^ 2 ≤ 1 / 16 := by nlinarith
  refine ⟨fun hx => by nlinarith, fun hx => by nlinarith, ?_, ?_⟩
  · rw [e]
    have : 30 * (s * (1 - s)) ^ 2 * ((x1 - x0) / T) * (x1 - x0) = 30 * (s * (1 - s)) ^ 2 * ((x1 - x0) ^ 2 / T) := by ring
    rw [this]; positivity
  · rw [e, abs_mul, abs_div, abs_of_pos hT, abs_of_nonneg (by positivity)]
    have : 0 ≤ |x1 - x0| / T := by positivity
    nlinarith

end

theorem jerk_smooth (x0 x1 t T : ℝ) (hT : T ≠ 0) : Smooth (fun t => jerkMotion x0 x1 t T) t := by
  have hd : HasDerivAt (fun t : ℝ => t / T) (1 / T) t := (hasDerivAt_id t).div_const T
  have pw : ∀ n : ℕ, HasDerivAt (fun t : ℝ => (t / T) ^ n) (n * (t / T) ^ (n - 1) * (1 / T)) t := fun n => hd.fun_pow n
  constructor
  · simp only [jerkMotion, blend]
    refine (((((pw 5).const_mul 6).fun_sub ((pw 4).const_mul 15)).fun_add ((pw 3).const_mul 10)).mul_const (x1 - x0)
      |>.add_const x0).congr_deriv ?_
    push_cast; ring
  · simp only [jerkMotion]
    refine ((((((pw 4).const_mul (5 * 6)).fun_sub ((pw 3).const_mul (4 * 15))).fun_add ((pw 2).const_mul (3 * 10))).div_const
      T).mul_const (x1 - x0)).congr_deriv ?_
    push_cast; field_simp

/-- C41: the reported velocity and acceleration are the derivatives of the reported position. -/
theorem C41_derivatives (x0 x1 T : ℝ) (hT : 0 < T) : ∃ f v a : ℝ → ℝ,
    (∀ t, 0 ≤ t → t ≤ T → minimumJerk x0 x1 t T = .ok ⟨f t, v t, a t⟩) ∧
    (∀ t, HasDerivAt f (v t) t) ∧ (∀ t, HasDerivAt v (a t) t) :=
  ⟨_, _, _, fun _ h0 h1 => minimumJerk_ok hT h0 h1, fun t => (jerk_smooth x0 x1 t T hT.ne').pos,
    fun t => (jerk_smooth x0 x1 t T hT.ne').vel⟩

namespace MinJerk

/-- Settings with which a foot can swing. -/
structure Ready {K : Type} [Field K] [LinearOrder K] (c : FeetSettings K) : Prop where
  height : 0 ≤ c.stepHeight
  apex_pos : 0 < c.swingApex
  apex_lt : c.swingApex < 1

section
variable {K : Type} [Field K] [LinearOrder K] [IsStrictOrderedRing K] [FloorRing K] [Trig K]
variable {cfg : GenSettings K} {left right : FootPrint K} {initTime dT : K} {sorted ordered : List (Ptr K)} {t : Timing K}
variable {c : FeetSettings K} {lo ro : List (FootSample K)}

/-- C42: whatever setters are called, the generator is ready as soon as a step height was accepted. -/
theorem C42_settings (ops : List (FeetSettings.Op K)) :
    Ready ((FeetSettings.new : FeetSettings K).runAll ops) ∨ ((FeetSettings.new : FeetSettings K).runAll ops).stepHeight < 0 := by
  have h0 : 0 < (FeetSettings.new : FeetSettings K).swingApex ∧ (FeetSettings.new : FeetSettings K).swingApex < 1 := by
    simp only [FeetSettings.new]; norm_num
  have hstep : ∀ (s : FeetSettings K) o, 0 < s.swingApex ∧ s.swingApex < 1 → 0 < (s.run o).2.swingApex ∧ (s.run o).2.swingApex < 1 := by
    intro s o hs
    cases o with
    | setStepHeight h => simp only [FeetSettings.run]; split_ifs <;> exact hs
    | setPitchDelta p => exact hs
    | setFootApexTime r =>
      simp only [FeetSettings.run]
      split_ifs with hr
      · exact hs
      · rw [not_or, not_le, not_le] at hr; exact hr
    | setFootLandingVelocity v => exact hs
  have : ∀ (ops : List (FeetSettings.Op K)) (s : FeetSettings K), 0 < s.swingApex ∧ s.swingApex < 1 →
      0 < (s.runAll ops).swingApex ∧ (s.runAll ops).swingApex < 1 := by
    intro ops
    induction ops with
    | nil => exact fun s h => h
    | cons o ops ih => exact fun s h => ih _ (hstep s o h)
  have := this ops _ h0
  rcases lt_or_ge ((FeetSettings.new : FeetSettings K).runAll ops).stepHeight 0 with h | h
  · exact Or.inr h
  · exact Or.inl ⟨h, this.1, this.2⟩

/-- C42: without a step height nothing is generated. -/
theorem C42_not_ready (hc : c.stepHeight < 0) (lp rp : List Phase) (shifts : List Nat) :
    computeNewTrajectories c dT left right lp rp shifts = .fail := by
  unfold computeNewTrajectories interpolateFoot
  rw [if_pos hc]
  rfl

theorem runs (hc : Ready c) (hs : SortedPtrs left right sorted)
    (h : timeline cfg left right initTime dT sorted = .ok (ordered, t)) (hpos : t.shifts.Pairwise (· < ·)) :
    ∃ lo ro, computeNewTrajectories c dT left right t.left t.right t.shifts = .ok (lo, ro) ∧
      ∀ f : Bool, FootRun (swing c dT) (if f then left.steps else right.steps) (if f then t.left else t.right) (if f then lo else ro) := by
  obtain ⟨l, r, tt, hr⟩ := timeline_ok h
  have hsw : ∀ s s' n, 0 < n → ∃ l, swing c dT s s' n = .ok l ∧ l.length = n :=
    fun s s' n _ => swing_total hr.dT_pos hc.apex_pos hc.apex_lt s s' n
  obtain ⟨sl, lo, h1, h2⟩ := feet_run hsw hs h hpos true
  obtain ⟨sr, ro, h3, h4⟩ := feet_run hsw hs h hpos false
  refine ⟨lo, ro, ?_, ?_⟩
  · unfold computeNewTrajectories interpolateFoot
    simp only [if_neg (not_lt.mpr hc.height)]
    simp only [if_true, Bool.false_eq_true, if_false] at h1 h3
    rw [h1, h3]
    rfl
  · intro f
    cases f
    · exact h4
    · exact h2

theorem runs_of (hc : Ready c) (hs : SortedPtrs left right sorted)
    (h : timeline cfg left right initTime dT sorted = .ok (ordered, t)) (hpos : t.shifts.Pairwise (· < ·))
    (ho : computeNewTrajectories c dT left right t.left t.right t.shifts = .ok (lo, ro)) (f : Bool) :
    FootRun (swing c dT) (if f then left.steps else right.steps) (if f then t.left else t.right) (if f then lo else ro) := by
  obtain ⟨lo', ro', h1, h2⟩ := runs hc hs h hpos
  rw [h1] at ho
  cases ho
  exact h2 f

/-- C42 (partial): on a generated timeline without empty phases the interpolation never fails (nor reads out of its vectors), and
gives one sample per phase sample.  Missing: timelines with a phase without samples, for which it is false
(`C42_empty_switch_witness`, `C42_empty_end_witness`). -/
theorem C42_succeeds_partial (hc : Ready c) (hs : SortedPtrs left right sorted)
    (h : timeline cfg left right initTime dT sorted = .ok (ordered, t)) (hpos : t.shifts.Pairwise (· < ·)) :
    ∃ lo ro, computeNewTrajectories c dT left right t.left t.right t.shifts = .ok (lo, ro) ∧
      lo.length = t.left.length ∧ ro.length = t.right.length := by
  obtain ⟨lo, ro, h1, h2⟩ := runs hc hs h hpos
  exact ⟨lo, ro, h1, (h2 true).length, (h2 false).length⟩

/-! ## C43 -/

/-- C43 (partial): a foot on the ground is at rest on the step it landed on last, where the landings are the ends of the swings in
the phases.  Missing: timelines with a phase without samples, for which C43 is false (`C43_empty_swing_witness`,
`C43_late_witness`). -/
theorem C43_contact_partial (hc : Ready c) (hs : SortedPtrs left right sorted)
    (h : timeline cfg left right initTime dT sorted = .ok (ordered, t)) (hpos : t.shifts.Pairwise (· < ·))
    (ho : computeNewTrajectories c dT left right t.left t.right t.shifts = .ok (lo, ro)) (f : Bool) (j : Nat) (p : Phase)
    (hp : (if f then t.left else t.right)[j]? = some p) (hne : p ≠ .swing) :
    ∃ s o, (if f then left.steps else right.steps)[landings (if f then t.left else t.right) j]? = some s ∧
      (if f then lo else ro)[j]? = some o ∧ AtRestOn s o := by
  obtain ⟨s, h1, h2⟩ := (runs_of hc hs h hpos ho f).on_ground hp hne
  exact ⟨s, _, h1, h2, rfl, rfl, rfl, rfl, rfl, rfl, rfl, rfl, rfl⟩

/-- C43 (partial, phases without samples excluded as above): every swing leads from the step the foot landed on last to the next one: it starts at the former, moves strictly
towards the latter, and would reach it at the instant of the landing. -/
theorem C43_swing_partial (hc : Ready c) (hs : SortedPtrs left right sorted)
    (h : timeline cfg left right initTime dT sorted = .ok (ordered, t)) (hpos : t.shifts.Pairwise (· < ·))
    (ho : computeNewTrajectories c dT left right t.left t.right t.shifts = .ok (lo, ro)) (f : Bool) (a n : Nat)
    (hsw : IsSwing (if f then t.left else t.right) a n) :
    ∃ s s', (if f then left.steps else right.steps)[landings (if f then t.left else t.right) a]? = some s ∧
      (if f then left.steps else right.steps)[landings (if f then t.left else t.right) a + 1]? = some s' ∧
      ∃ lam : Nat → K, lam 0 = 0 ∧ lam n = 1 ∧ (∀ m, m < n → lam m < lam (m + 1)) ∧
        ∀ m, m < n → ∃ o, (if f then lo else ro)[a + m]? = some o ∧ OnTheWay s s' (lam m) o := by
  obtain ⟨l, r, tt, hr⟩ := timeline_ok h
  obtain ⟨s, s', a', n', l, h1, h2, h3, h4, h5, h6, h7, h8⟩ := (runs_of hc hs h hpos ho f).in_swing
    (by simpa using hsw.all 0 hsw.pos)
  obtain ⟨rfl, rfl⟩ := Uni.IsSwing.unique hsw h3 a (le_refl _) (by have := hsw.pos; omega) h1 h2
  have hn : (0 : K) < n := by exact_mod_cast hsw.pos
  refine ⟨s, s', h4, h5, fun m => blend ((m : K) / n), ?_, ?_, ?_, ?_⟩
  · simp [blend_zero]
  · simp only [div_self hn.ne', blend_one]
  · intro m hm
    have hm' : ((m : K) + 1) ≤ n := by exact_mod_cast hm
    have : ((m + 1 : Nat) : K) = m + 1 := by push_cast; rfl
    simp only [this]
    exact blend_lt (by positivity) (by rw [div_lt_div_iff_of_pos_right hn]; linarith) ((div_le_one hn).mpr hm')
  · intro m hm
    refine ⟨_, (h8 m hm).trans (swing_get hr.dT_pos hc.apex_pos hc.apex_lt h6 hm), ?_⟩
    have e : (m : K) * dT / (n * dT) = m / n := mul_div_mul_right _ _ hr.dT_pos.ne'
    split_ifs <;> refine ⟨?_, ?_, ?_⟩ <;> simp only [sampleUp, sampleDown, sampleOf, jerkMotion, e] <;> ring

/-- C43 (partial, phases without samples excluded as above): at the end of the walk both feet stand on their last planned step. -/
theorem C43_last_partial (hc : Ready c) (hs : SortedPtrs left right sorted)
    (h : timeline cfg left right initTime dT sorted = .ok (ordered, t)) (hpos : t.shifts.Pairwise (· < ·))
    (ho : computeNewTrajectories c dT left right t.left t.right t.shifts = .ok (lo, ro)) (f : Bool) :
    ∃ s o, (if f then left.steps else right.steps).getLast? = some s ∧ (if f then lo else ro).getLast? = some o ∧ AtRestOn s o := by
  obtain ⟨l, r, tt, hr⟩ := timeline_ok h
  have hp : tt.Positive := positive_of_shifts (by rw [← hr.built.shifts]; exact hpos)
  have hlen : (if f then t.left else t.right).length = t.left.length := by
    have := (C34_partition h).1
    cases f
    · exact this.symm
    · rfl
  have hT : 0 < t.left.length := by
    have := hp.2
    rw [hr.built.left, tt.length_phases, total_eq]; omega
  have hlast : (if f then t.left else t.right)[t.left.length - 1]? = some (if tt.lastLeft = f then .switchIn else .switchOut) := by
    have e : (if f then t.left else t.right) = tt.phases f := by
      cases f
      · exact hr.built.right
      · exact hr.built.left
    have hl : t.left.length = slotStart tt.slots tt.slots.length + tt.rest := by
      rw [hr.built.left, tt.length_phases, total_eq]
    rw [e]
    have := hp.2
    exact phases_rest tt f _ (by omega) (by rw [total_eq]; omega)
  obtain ⟨s, o, h1, h2, h3⟩ := C43_contact_partial hc hs h hpos ho f _ _ hlast (by split_ifs <;> simp)
  refine ⟨s, o, ?_, ?_, h3⟩
  · rw [List.getLast?_eq_getElem?, ← landings_last hs h hpos f, Nat.add_sub_cancel]
    exact h1
  · rw [List.getLast?_eq_getElem?, (runs_of hc hs h hpos ho f).length, hlen]
    exact h2

/-! ## C42, C64: heights -/

theorem rise_z (hd : 0 < dT) (n m : Nat) : (jerkMotion 0 c.stepHeight ((m : K) * dT) (n * dT * c.swingApex)).pos =
    blend ((m : K) / (n * c.swingApex)) * c.stepHeight := by
  simp only [jerkMotion]
  rw [show (m : K) * dT / (n * dT * c.swingApex) = m / (n * c.swingApex) by
    rw [show (n : K) * dT * c.swingApex = n * c.swingApex * dT by ring, mul_div_mul_right _ _ hd.ne']]
  ring

theorem fall_z (hd : 0 < dT) (n m k : Nat) :
    (jerkMotion c.stepHeight 0 ((m : K) * dT - k * dT) (n * dT * (1 - c.swingApex))).pos =
      (1 - blend (((m : K) - k) / (n * (1 - c.swingApex)))) * c.stepHeight := by
  simp only [jerkMotion]
  rw [show ((m : K) * dT - k * dT) / (n * dT * (1 - c.swingApex)) = ((m : K) - k) / (n * (1 - c.swingApex)) by
    rw [show (n : K) * dT * (1 - c.swingApex) = n * (1 - c.swingApex) * dT by ring, ← sub_mul, mul_div_mul_right _ _ hd.ne']]
  ring

/-- The heights of a swing. -/
theorem heights (hc : Ready c) (hs : SortedPtrs left right sorted)
    (h : timeline cfg left right initTime dT sorted = .ok (ordered, t)) (hpos : t.shifts.Pairwise (· < ·))
    (ho : computeNewTrajectories c dT left right t.left t.right t.shifts = .ok (lo, ro)) (f : Bool) (a n : Nat)
    (hsw : IsSwing (if f then t.left else t.right) a n) (m : Nat) (hm : m < n) :
    ∃ o, (if f then lo else ro)[a + m]? = some o ∧
      o.pos.z = if m < rising c n then blend ((m : K) / (n * c.swingApex)) * c.stepHeight
        else (1 - blend (((m : K) - rising c n) / (n * (1 - c.swingApex)))) * c.stepHeight := by
  obtain ⟨l, r, tt, hr⟩ := timeline_ok h
  obtain ⟨s, s', a', n', l, h1, h2, h3, h4, h5, h6, h7, h8⟩ := (runs_of hc hs h hpos ho f).in_swing
    (by simpa using hsw.all 0 hsw.pos)
  obtain ⟨rfl, rfl⟩ := Uni.IsSwing.unique hsw h3 a (le_refl _) (by have := hsw.pos; omega) h1 h2
  refine ⟨_, (h8 m hm).trans (swing_get hr.dT_pos hc.apex_pos hc.apex_lt h6 hm), ?_⟩
  split_ifs with hlt
  · exact rise_z hr.dT_pos n m
  · exact fall_z hr.dT_pos n m _

theorem up_fraction (hc : Ready c) {n m : Nat} (hm : m < n) (hr : m < rising c n) :
    0 ≤ (m : K) / (n * c.swingApex) ∧ (m : K) / (n * c.swingApex) < 1 := by
  have hn : (0 : K) < n := by exact_mod_cast (by omega : 0 < n)
  have hm' : (m : K) + 1 ≤ (rising c n : Nat) := by exact_mod_cast hr
  have hb := (rising_bounds c hc.apex_pos n).1
  have hp := mul_pos hn hc.apex_pos
  refine ⟨by positivity, (div_lt_one hp).mpr (by linarith)⟩

theorem down_fraction (hc : Ready c) {n m : Nat} (hm : m < n) (hr : ¬ m < rising c n) :
    0 ≤ ((m : K) - rising c n) / (n * (1 - c.swingApex)) ∧ ((m : K) - rising c n) / (n * (1 - c.swingApex)) < 1 := by
  have hn : (0 : K) < n := by exact_mod_cast (by omega : 0 < n)
  have hm' : ((rising c n : Nat) : K) ≤ m := by exact_mod_cast (not_lt.mp hr)
  have hm1 : (m : K) + 1 ≤ n := by exact_mod_cast hm
  have hb := (rising_bounds c hc.apex_pos n).2.1
  have hp : (0 : K) < n * (1 - c.swingApex) := mul_pos hn (by linarith [hc.apex_lt])
  refine ⟨div_nonneg (by linarith) hp.le, (div_lt_one hp).mpr (by nlinarith)⟩

/-- C42: no sample of a foot is below the ground or above the step height, whatever the phases are. -/
theorem C42_heights (hc : Ready c) (hd : 0 < dT) {lp rp : List Phase} {shifts : List Nat}
    (ho : computeNewTrajectories c dT left right lp rp shifts = .ok (lo, ro)) :
    ∀ o ∈ lo ++ ro, 0 ≤ o.pos.z ∧ o.pos.z ≤ c.stepHeight := by
  have hsw : ∀ s s' n l, swing c dT s s' n = .ok l → ∀ o ∈ l, 0 ≤ o.pos.z ∧ o.pos.z ≤ c.stepHeight := by
    intro s s' n l hl o hmem
    obtain ⟨m, hm, rfl⟩ := List.getElem_of_mem hmem
    obtain ⟨l', h1, h2⟩ := swing_total hd hc.apex_pos hc.apex_lt s s' n
    rw [hl] at h1
    cases h1
    rw [h2] at hm
    have := swing_get hd hc.apex_pos hc.apex_lt hl hm
    rw [List.getElem?_eq_getElem (by omega)] at this
    simp only [Option.some.injEq] at this
    rw [this]
    have hz := hc.height
    split_ifs with hlt
    · simp only [sampleUp, sampleOf]
      rw [rise_z hd]
      obtain ⟨u0, u1⟩ := up_fraction hc hm hlt
      have b0 := blend_nonneg u0 u1.le
      have b1 := blend_le_one u0 u1.le
      exact ⟨mul_nonneg b0 hz, by nlinarith⟩
    · simp only [sampleDown, sampleOf]
      rw [fall_z hd]
      obtain ⟨u0, u1⟩ := down_fraction hc hm hlt
      have b0 := blend_nonneg u0 u1.le
      have b1 := blend_le_one u0 u1.le
      exact ⟨mul_nonneg (by linarith) hz, by nlinarith⟩
  have key : ∀ {ph : List Phase} {steps : List (Step K)} {l}, interpolateFoot c dT shifts ph steps = .ok l →
      ∀ o ∈ l, 0 ≤ o.pos.z ∧ o.pos.z ≤ c.stepHeight := by
    intro ph steps l hl
    unfold interpolateFoot at hl
    rw [if_neg (not_lt.mpr hc.height), Out.bind_eq_ok] at hl
    obtain ⟨r, hr, hl⟩ := hl
    cases hl
    unfold overPhases at hr
    refine phaseLoop_all (P := fun o => 0 ≤ o.pos.z ∧ o.pos.z ≤ c.stepHeight) ?_ (s' := r.1) (l := r.2) hr
    intro k b p i j steps steps' l hb
    unfold footBody at hb
    split at hb
    · simp at hb
    · split_ifs at hb
      · split at hb
        · simp at hb
        · rw [Out.bind_eq_ok] at hb
          obtain ⟨l', h1, h2⟩ := hb
          cases h2
          exact hsw _ _ _ _ h1
      · cases hb
        intro o ho
        rw [List.eq_of_mem_replicate ho]
        exact ⟨le_refl _, hc.height⟩
  unfold computeNewTrajectories at ho
  rw [Out.bind_eq_ok] at ho
  obtain ⟨l, h1, ho⟩ := ho
  rw [Out.bind_eq_ok] at ho
  obtain ⟨r, h2, ho⟩ := ho
  cases ho
  intro o hmem
  rcases List.mem_append.mp hmem with hm | hm
  · exact key h1 o hm
  · exact key h2 o hm

/-- C64: during a swing of `n` samples the foot rises for `round(n * apex)` samples and then comes down; the sample at which
it turns is at the step height; the swing starts on the ground exactly if it rises for at least one sample. -/
theorem C64_rise_and_fall (hc : Ready c) (hh : 0 < c.stepHeight) (hs : SortedPtrs left right sorted)
    (h : timeline cfg left right initTime dT sorted = .ok (ordered, t)) (hpos : t.shifts.Pairwise (· < ·))
    (ho : computeNewTrajectories c dT left right t.left t.right t.shifts = .ok (lo, ro)) (f : Bool) (a n : Nat)
    (hsw : IsSwing (if f then t.left else t.right) a n) :
    ∃ z : Nat → K, (∀ m, m < n → ∃ o, (if f then lo else ro)[a + m]? = some o ∧ o.pos.z = z m) ∧
      ∃ k : Nat, (k : ℤ) = stdRound ((n : K) * c.swingApex) ∧ k ≤ n ∧
      (∀ m, m + 1 < k → z m < z (m + 1)) ∧ (k < n → z k = c.stepHeight) ∧ (∀ m, k ≤ m → m + 1 < n → z (m + 1) < z m) ∧
      (z 0 = 0 ↔ 1 / 2 ≤ (n : K) * c.swingApex) := by
  refine ⟨fun m => if m < rising c n then blend ((m : K) / (n * c.swingApex)) * c.stepHeight
        else (1 - blend (((m : K) - rising c n) / (n * (1 - c.swingApex)))) * c.stepHeight,
    fun m hm => heights hc hs h hpos ho f a n hsw m hm, rising c n, (rising_bounds c hc.apex_pos n).2.2,
    rising_le hc.apex_pos hc.apex_lt n, ?_, ?_, ?_, ?_⟩
  · intro m hm
    have hle := rising_le hc.apex_pos hc.apex_lt n
    simp only [if_pos hm, if_pos (by omega : m < rising c n)]
    obtain ⟨u0, u1⟩ := up_fraction hc (by omega : m < n) (by omega : m < rising c n)
    obtain ⟨v0, v1⟩ := up_fraction hc (by omega : m + 1 < n) hm
    have hn : (0 : K) < n := by exact_mod_cast hsw.pos
    have hlt : (m : K) / (n * c.swingApex) < ((m + 1 : Nat) : K) / (n * c.swingApex) := by
      rw [div_lt_div_iff_of_pos_right (mul_pos hn hc.apex_pos)]; push_cast; linarith
    have := blend_lt u0 hlt v1.le
    nlinarith
  · intro hk
    simp [blend_zero]
  · intro m hk hm
    simp only [if_neg (by omega : ¬ m < rising c n), if_neg (by omega : ¬ m + 1 < rising c n)]
    obtain ⟨u0, u1⟩ := down_fraction hc (by omega : m < n) (by omega : ¬ m < rising c n)
    obtain ⟨v0, v1⟩ := down_fraction hc hm (by omega : ¬ m + 1 < rising c n)
    have hn : (0 : K) < n := by exact_mod_cast hsw.pos
    have hlt : ((m : K) - rising c n) / (n * (1 - c.swingApex)) < (((m + 1 : Nat) : K) - rising c n) / (n * (1 - c.swingApex)) := by
      rw [div_lt_div_iff_of_pos_right (mul_pos hn (by linarith [hc.apex_lt]))]; push_cast; linarith
    have := blend_lt u0 hlt v1.le
    nlinarith
  · have hn : (0 : K) < n := by exact_mod_cast hsw.pos
    have hna : 0 ≤ (n : K) * c.swingApex := (mul_pos hn hc.apex_pos).le
    have e := (rising_bounds c hc.apex_pos n).2.2
    constructor
    · intro hz
      by_contra hlt
      rw [not_le] at hlt
      have h0 : stdRound ((n : K) * c.swingApex) = 0 := by
        unfold stdRound
        rw [if_pos hna, Int.floor_eq_iff]
        constructor <;> push_cast <;> linarith
      have : rising c n = 0 := by omega
      simp only [this, lt_irrefl, if_false, Nat.cast_zero, sub_zero, zero_div, blend_zero] at hz
      linarith
    · intro hle
      have := stdRound_pos hle
      simp [show 0 < rising c n by omega, blend_zero]

end

/-! ## C65 -/

/-- C65: within each of the two halves of a swing the samples are taken from a curve of poses of which the reported twist is
the velocity and the reported acceleration the derivative of the twist. -/
theorem C65_twist {cfg : GenSettings ℝ} {left right : FootPrint ℝ} {initTime dT : ℝ} {sorted ordered : List (Ptr ℝ)} {t : Timing ℝ}
    {c : FeetSettings ℝ} {lo ro : List (FootSample ℝ)} (hc : Ready c) (hs : SortedPtrs left right sorted)
    (h : timeline cfg left right initTime dT sorted = .ok (ordered, t)) (hpos : t.shifts.Pairwise (· < ·))
    (ho : computeNewTrajectories c dT left right t.left t.right t.shifts = .ok (lo, ro)) (f : Bool) (a n : Nat)
    (hsw : IsSwing (if f then t.left else t.right) a n) :
    ∃ up down : ℝ → FootSample ℝ, (∀ t, Kinematic up t) ∧ (∀ t, Kinematic down t) ∧
      ∃ k : Nat, (k : ℤ) = stdRound ((n : ℝ) * c.swingApex) ∧
      (∀ m, m < k → (if f then lo else ro)[a + m]? = some (up (m * dT))) ∧
      ∀ m, k ≤ m → m < n → (if f then lo else ro)[a + m]? = some (down (m * dT)) := by
  obtain ⟨l, r, tt, hr⟩ := timeline_ok h
  obtain ⟨s, s', a', n', l, h1, h2, h3, h4, h5, h6, h7, h8⟩ := (runs_of hc hs h hpos ho f).in_swing
    (by simpa using hsw.all 0 hsw.pos)
  obtain ⟨rfl, rfl⟩ := Uni.IsSwing.unique hsw h3 a (le_refl _) (by have := hsw.pos; omega) h1 h2
  have hd := hr.dT_pos
  have hn : (0 : ℝ) < n := by exact_mod_cast hsw.pos
  have hT : (n : ℝ) * dT ≠ 0 := (mul_pos hn hd).ne'
  have hA : (n : ℝ) * dT * c.swingApex ≠ 0 := (mul_pos (mul_pos hn hd) hc.apex_pos).ne'
  have hB : (n : ℝ) * dT * (1 - c.swingApex) ≠ 0 := (mul_pos (mul_pos hn hd) (by linarith [hc.apex_lt])).ne'
  have shifted : ∀ x0 x1 T t t0 : ℝ, T ≠ 0 → Smooth (fun t => jerkMotion x0 x1 (t - t0) T) t := by
    intro x0 x1 T t t0 hT
    have hsm := jerk_smooth x0 x1 (t - t0) T hT
    exact ⟨hsm.pos.comp_sub_const t t0, hsm.vel.comp_sub_const t t0⟩
  refine ⟨fun t => sampleUp c dT s s' n t, fun t => sampleDown c dT s s' n t, ?_, ?_, rising c n,
    (rising_bounds c hc.apex_pos n).2.2, ?_, ?_⟩
  · intro t
    exact kinematic_of (jerk_smooth _ _ t _ hT) (jerk_smooth _ _ t _ hT) (jerk_smooth _ _ t _ hA) (jerk_smooth _ _ t _ hA)
      (jerk_smooth _ _ t _ hT)
  · intro t
    exact kinematic_of (jerk_smooth _ _ t _ hT) (jerk_smooth _ _ t _ hT) (shifted _ _ _ t _ hB) (shifted _ _ _ t _ hB)
      (jerk_smooth _ _ t _ hT)
  · intro m hm
    have := rising_le hc.apex_pos hc.apex_lt n
    rw [h8 m (by omega), swing_get hd hc.apex_pos hc.apex_lt h6 (by omega), if_pos hm]
  · intro m hk hm
    rw [h8 m hm, swing_get hd hc.apex_pos hc.apex_lt h6 hm, if_neg (by omega)]

/-! ## Examples and witnesses -/

/-- Functions that play no part in the positions of the samples looked at below. -/
private local instance : Trig ℚ := ⟨fun _ => 1, fun _ => 0, fun x => x, fun x => x, fun x => x, fun x _ => x, 3⟩

private def st (x t : ℚ) (n : String) : Step ℚ := ⟨⟨x, 0⟩, 0, t, n⟩
private def lf (l : List (ℚ × ℚ)) : FootPrint ℚ := ⟨l.map (fun p => st p.1 p.2 "left"), "left"⟩
private def rf (l : List (ℚ × ℚ)) : FootPrint ℚ := ⟨l.map (fun p => st p.1 p.2 "right"), "right"⟩
private def pl (i : Nat) (x t : ℚ) : Ptr ℚ := ⟨true, i, st x t "left"⟩
private def pr (i : Nat) (x t : ℚ) : Ptr ℚ := ⟨false, i, st x t "right"⟩
private def fs : FeetSettings ℚ := ⟨1, 0, 1 / 2, 0⟩

/-- The positions of the two feet after a generation. -/
private def feet (cfg : GenSettings ℚ) (c : FeetSettings ℚ) (l r : FootPrint ℚ) (s : List (Ptr ℚ)) :
    Out (List Nat × List (Vec3 ℚ) × List (Vec3 ℚ)) := do
  let t ← timeline cfg l r 0 1 s
  let o ← computeNewTrajectories c 1 l r t.2.left t.2.right t.2.shifts
  .ok (t.2.shifts, o.1.map (·.pos), o.2.map (·.pos))

/-- Non-vacuity of C42, C43 and C64: a walk with a step of the left foot, without empty phases. -/
example : Ready fs ∧ SortedPtrs (lf [(0, 0), (1, 4)]) (rf [(0, 0)]) [pl 0 0 0, pr 0 0 0, pl 1 1 4] ∧
    ([0, 2, 4, 5] : List Nat).Pairwise (· < ·) ∧
    feet GenSettings.new fs (lf [(0, 0), (1, 4)]) (rf [(0, 0)]) [pl 0 0 0, pr 0 0 0, pl 1 1 4] =
      .ok ([0, 2, 4, 5], [⟨0, 0, 0⟩, ⟨0, 0, 0⟩, ⟨0, 0, 0⟩, ⟨1 / 2, 0, 1⟩, ⟨1, 0, 0⟩],
        [⟨0, 0, 0⟩, ⟨0, 0, 0⟩, ⟨0, 0, 0⟩, ⟨0, 0, 0⟩, ⟨0, 0, 0⟩]) ∧
    IsSwing [.switchOut, .switchOut, .swing, .swing, .switchIn] 2 2 :=
  ⟨⟨by decide +kernel, by decide +kernel, by decide +kernel⟩, by unfold SortedPtrs; decide +kernel, by decide,
    by decide +kernel, ⟨by omega, by decide, by decide, by decide⟩⟩

/-- Non-vacuity of C41. -/
example : minimumJerk (1 : ℚ) 3 1 2 = .ok ⟨2, 15 / 8, 0⟩ := by decide +kernel

/-- Non-vacuity of C42: settings that make the generator ready. -/
example : Ready ((FeetSettings.new : FeetSettings ℚ).runAll [.setStepHeight 1, .setFootApexTime 2, .setPitchDelta 5]) :=
  ⟨by decide +kernel, by decide +kernel, by decide +kernel⟩

/-- C43 (negative): a step that leaves no sample for the swing is accepted, but the foot never moves: at the end of the walk
the left foot is still on its first step. -/
theorem C43_empty_swing_witness :
    SortedPtrs (lf [(0, 0), (1, 1)]) (rf [(0, 0)]) [pl 0 0 0, pr 0 0 0, pl 1 1 1] ∧
    feet GenSettings.new fs (lf [(0, 0), (1, 1)]) (rf [(0, 0)]) [pl 0 0 0, pr 0 0 0, pl 1 1 1] =
      .ok ([0, 1, 1, 2], [⟨0, 0, 0⟩, ⟨0, 0, 0⟩], [⟨0, 0, 0⟩, ⟨0, 0, 0⟩]) :=
  ⟨by unfold SortedPtrs; decide +kernel, by decide +kernel⟩

/-- C43 (negative): after such a step the foot is one step late for the rest of the walk. -/
theorem C43_late_witness :
    SortedPtrs (lf [(0, 0), (1, 1), (2, 3)]) (rf [(0, 0)]) [pl 0 0 0, pr 0 0 0, pl 1 1 1, pl 2 2 3] ∧
    feet GenSettings.new fs (lf [(0, 0), (1, 1), (2, 3)]) (rf [(0, 0)]) [pl 0 0 0, pr 0 0 0, pl 1 1 1, pl 2 2 3] =
      .ok ([0, 1, 1, 2, 3, 4], [⟨0, 0, 0⟩, ⟨0, 0, 0⟩, ⟨0, 0, 0⟩, ⟨1, 0, 0⟩], [⟨0, 0, 0⟩, ⟨0, 0, 0⟩, ⟨0, 0, 0⟩, ⟨0, 0, 0⟩]) :=
  ⟨by unfold SortedPtrs; decide +kernel, by decide +kernel⟩

/-- C42 (negative): if the double support has no sample, the swing is gone through twice and the generation fails. -/
theorem C42_empty_switch_witness :
    timeline { (GenSettings.new : GenSettings ℚ) with switchPercentage := 1 / 10 } (lf [(0, 0), (1, 4)]) (rf [(0, 0)]) 0 1
      [pl 0 0 0, pr 0 0 0, pl 1 1 4] ≠ .fail ∧
    feet { (GenSettings.new : GenSettings ℚ) with switchPercentage := 1 / 10 } fs (lf [(0, 0), (1, 4)]) (rf [(0, 0)])
      [pl 0 0 0, pr 0 0 0, pl 1 1 4] = .fail :=
  ⟨by decide +kernel, by decide +kernel⟩

/-- C42 (negative): if the final double support has no sample, the phases are read past their end. -/
theorem C42_empty_end_witness :
    feet { (GenSettings.new : GenSettings ℚ) with endSwitch := 1 / 10 } fs (lf [(0, 0), (1, 4)]) (rf [(0, 0)])
      [pl 0 0 0, pr 0 0 0, pl 1 1 4] = .ub .outOfRange := by decide +kernel

/-- C64 (negative): if the apex comes within the first half sample of the swing, the foot jumps from the ground to the step
height at the first sample. -/
theorem C64_jump_witness :
    feet GenSettings.new { fs with swingApex := 1 / 10 } (lf [(0, 0), (1, 8)]) (rf [(0, 0)]) [pl 0 0 0, pr 0 0 0, pl 1 1 8] =
      .ok ([0, 4, 8, 9],
        [⟨0, 0, 0⟩, ⟨0, 0, 0⟩, ⟨0, 0, 0⟩, ⟨0, 0, 0⟩, ⟨0, 0, 1⟩, ⟨53 / 512, 0, 68107 / 78732⟩, ⟨1 / 2, 0, 7808 / 19683⟩,
          ⟨459 / 512, 0, 23 / 648⟩, ⟨1, 0, 0⟩],
        List.replicate 9 ⟨0, 0, 0⟩) := by decide +kernel

/-- C66: the landing velocity has no effect on the trajectories. -/
theorem C66_landing_velocity_ignored {K : Type} [Field K] [LinearOrder K] [FloorRing K] [Trig K] (c : FeetSettings K) (v : K)
    (dT : K) (left right : FootPrint K) (lp rp : List Phase) (shifts : List Nat) :
    (c.run (.setFootLandingVelocity v)).1 = true ∧
    computeNewTrajectories (c.run (.setFootLandingVelocity v)).2 dT left right lp rp shifts =
      computeNewTrajectories c dT left right lp rp shifts := ⟨rfl, rfl⟩

end MinJerk
end Uni
