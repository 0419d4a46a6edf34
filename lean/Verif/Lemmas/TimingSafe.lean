import Verif.Lemmas.TimelineFacts

/-! # Absence of wrap-around in the timings -/

set_option autoImplicit false
set_option linter.unusedSectionVars false

namespace Uni.Gen
open Spec
variable {K : Type} [Field K] [LinearOrder K] [IsStrictOrderedRing K] [FloorRing K]

/-- With valid settings the double support is shorter than the step. -/
theorem switchTime_bounds {cfg : GenSettings K} (hv : ValidTimings cfg) (half : Bool) {T : K} (hT : 0 ≤ T) :
    0 ≤ switchTime (effective cfg) half T ∧ switchTime (effective cfg) half T ≤ T := by
  have hp := hv.switch_pos
  have hp1 := hv.switch_lt
  have hn := hv.nominal_pos
  have hm := hv.nominal_le
  unfold switchTime effective
  simp only
  split_ifs with h1 h2
  · have e : cfg.switchPercentage / (1 - cfg.switchPercentage / 2) * T / 2 = cfg.switchPercentage / (2 - cfg.switchPercentage) * T := by
      have : (2 : K) - cfg.switchPercentage ≠ 0 := by linarith
      have h' : (1 : K) - cfg.switchPercentage / 2 ≠ 0 := by linarith
      field_simp
    rw [e]
    have h2 : 0 < 2 - cfg.switchPercentage := by linarith
    constructor
    · positivity
    · have : cfg.switchPercentage / (2 - cfg.switchPercentage) ≤ 1 := by rw [div_le_one h2]; linarith
      nlinarith
  · have := h2.2
    constructor <;> nlinarith
  · constructor <;> nlinarith

theorem stepMerges_safe {cfg : GenSettings K} (hv : ValidTimings cfg) {dT sw : K} (hd : 0 < dT) (hsw : 0 ≤ sw) (first : Bool)
    {n ds : Nat} (hds : (ds : ℤ) = stdRound (sw / dT)) :
    ∃ ms, stepMerges (effective cfg) dT first sw (n + ds) = .ok ms := by
  unfold stepMerges
  cases first with
  | true => exact ⟨[], rfl⟩
  | false =>
    have key : ∀ b : K, 0 ≤ b → b ≤ 1 → ∃ a, roundSize (sw * (1 - b) / dT) = .ok a ∧ subSize (n + ds) a = .ok (n + ds - a) := by
      intro b h0 h1
      have h2 : 0 ≤ sw * (1 - b) / dT := div_nonneg (mul_nonneg hsw (by linarith)) hd.le
      have h3 : sw * (1 - b) / dT ≤ sw / dT := by
        apply div_le_div_of_nonneg_right _ hd.le
        nlinarith
      refine ⟨_, roundSize_nonneg h2, subSize_le ?_⟩
      have := stdRound_mono h2 h3
      omega
    obtain ⟨a, ha, ha'⟩ := key cfg.mergeBegin hv.begin_nonneg (hv.begin_le.trans hv.end_le)
    obtain ⟨b, hb, hb'⟩ := key cfg.mergeEnd (hv.begin_nonneg.trans hv.begin_le) hv.end_le
    have ha : roundSize (sw * (1 - (effective cfg).mergeBegin) / dT) = .ok a := ha
    have hb : roundSize (sw * (1 - (effective cfg).mergeEnd) / dT) = .ok b := hb
    rw [if_neg (by simp), ha]
    simp only [Out.bind_ok, ha', hb, hb']
    exact ⟨_, rfl⟩

theorem addStep_safe {cfg : GenSettings K} (hv : ValidTimings cfg) {dT : K} (hd : 0 < dT) {nl nr : Nat} {first half : Bool}
    {q : Ptr K} {s : Timing K} {w : UB} : addStep (effective cfg) dT nl nr first half q s ≠ .ub w := by
  unfold addStep
  simp only
  by_cases h0 : q.step.impactTime - s.prevTime < 0
  · rw [if_pos h0]; simp
  · rw [if_neg h0]
    have h0 := not_lt.mp h0
    obtain ⟨b1, b2⟩ := switchTime_bounds hv half h0
    have c1 := div_nonneg h0 hd.le
    have c2 := div_nonneg b1 hd.le
    have c3 := div_le_div_of_nonneg_right b2 hd.le
    rw [roundSize_nonneg c1, roundSize_nonneg c2]
    have hle := stdRound_mono c2 c3
    simp only [Out.bind_ok]
    rw [subSize_le (by omega)]
    simp only [Out.bind_ok]
    unfold whichSwings
    have hn := stdRound_nonneg c2
    obtain ⟨ms, hms⟩ := stepMerges_safe hv hd b1 first (n := s.shifts.getLastD 0)
      (ds := (stdRound (switchTime (effective cfg) half (q.step.impactTime - s.prevTime) / dT)).toNat)
      (Int.toNat_of_nonneg hn)
    split_ifs <;> simp only [Out.bind_ok, Out.bind_fail, hms, ne_eq, reduceCtorEq, not_false_eq_true]

theorem addSteps_safe {cfg : GenSettings K} (hv : ValidTimings cfg) {dT : K} (hd : 0 < dT) {nl nr : Nat} {first half : Bool}
    {l : List (Ptr K)} {s : Timing K} {w : UB} : addSteps (effective cfg) dT nl nr first half l s ≠ .ub w := by
  induction l generalizing first s with
  | nil => simp [addSteps]
  | cons q l ih =>
    unfold addSteps
    cases h : addStep (effective cfg) dT nl nr first (first && half) q s with
    | ok s' => exact ih
    | fail => simp
    | ub w' => exact absurd h (addStep_safe hv hd)

/-- The only ways in which the timings can go wrong. -/
theorem timeline_ub {cfg : GenSettings K} (hv : ValidTimings cfg) {left right : FootPrint K} {initTime dT : K}
    {sorted : List (Ptr K)} {w : UB} (hs : SortedPtrs left right sorted)
    (h : timeline cfg left right initTime dT sorted = .ub w) :
    (w = .negativeToUnsigned ∧ 2 < left.steps.length + right.steps.length ∧
      ∀ s ∈ left.steps ++ right.steps, s.impactTime + cfg.endSwitch ≤ initTime - dT) ∨
    (w = .unsignedWrap ∧ cfg.endSwitch < dT / 2 ∧ 2 < left.steps.length + right.steps.length) := by
  unfold timeline at h
  split at h
  · rename_i l ls r rs hl hr
    split_ifs at h with h1 h2 h3
    have hd := not_le.mp h2
    have hlen : sorted.length = left.steps.length + right.steps.length := by rw [hs.1.length_eq, ofFeet_length]
    have hL : 0 < left.steps.length := by rw [hl]; simp
    have hR : 0 < right.steps.length := by rw [hr]; simp
    cases ho : orderSteps sorted with
    | fail => rw [ho] at h; simp at h
    | ub w' => have := orderSteps_ub ho; omega
    | ok ordered =>
      rw [ho] at h
      simp only [Out.bind_ok] at h
      obtain ⟨hperm, hsort, -⟩ := orderSteps_ok ho hs.2
      have hlen' := hperm.length_eq
      have h : createPhasesTimings (effective cfg) initTime dT left.steps right.steps ordered = .ub w := by
        cases hc : createPhasesTimings (effective cfg) initTime dT left.steps right.steps ordered with
        | ok a => rw [show createPhasesTimings { cfg with nominalSwitchTime := cfg.switchPercentage * cfg.nominalStepTime } initTime dT left.steps right.steps ordered = _ from hc] at h; simp at h
        | fail => rw [show createPhasesTimings { cfg with nominalSwitchTime := cfg.switchPercentage * cfg.nominalStepTime } initTime dT left.steps right.steps ordered = _ from hc] at h; simp at h
        | ub w' => rw [show createPhasesTimings { cfg with nominalSwitchTime := cfg.switchPercentage * cfg.nominalStepTime } initTime dT left.steps right.steps ordered = _ from hc] at h; simpa using h
      unfold createPhasesTimings at h
      rw [hl, hr] at h
      have hne : ordered ≠ [] := by intro hc; rw [hc] at hlen'; simp at hlen'; omega
      obtain ⟨last, hlast⟩ : ∃ x, ordered.getLast? = some x := ⟨_, List.getLast?_eq_some_getLast hne⟩
      rw [hlast] at h
      simp only at h
      by_cases hl2 : ordered.length = 2
      · rw [if_pos hl2, show (effective cfg).endSwitch = cfg.endSwitch from rfl, roundSize_nonneg (div_nonneg hv.end_pos.le hd.le)] at h
        simp at h
      · rw [if_neg hl2] at h
        have h2lt : 2 < left.steps.length + right.steps.length := by omega
        split_ifs at h with h4
        · cases h
          refine .inl ⟨rfl, h2lt, fun s hs' => ?_⟩
          have hmem : ∃ q ∈ ordered, q.step = s := by
            rcases List.mem_append.mp hs' with hs' | hs'
            · obtain ⟨i, hi⟩ := List.getElem?_of_mem hs'
              exact ⟨⟨true, i, s⟩, hperm.mem_iff.mpr (hs.1.mem_iff.mpr (mem_ofFeet.mpr (by simpa using hi))), rfl⟩
            · obtain ⟨i, hi⟩ := List.getElem?_of_mem hs'
              exact ⟨⟨false, i, s⟩, hperm.mem_iff.mpr (hs.1.mem_iff.mpr (mem_ofFeet.mpr (by simpa using hi))), rfl⟩
          obtain ⟨q, hq, rfl⟩ := hmem
          have hle : q.step.impactTime ≤ last.step.impactTime := by
            obtain ⟨init, hi⟩ := List.getLast?_eq_some_iff.mp hlast
            rw [hi] at hq hsort
            rcases List.mem_append.mp hq with hq | hq
            · exact (List.pairwise_append.mp hsort).2.2 q hq last (by simp)
            · simp at hq; rw [hq]
          have h4 : ⌈(last.step.impactTime - initTime + cfg.endSwitch) / dT⌉ ≤ -1 := by
            have : ⌈(last.step.impactTime - initTime + cfg.endSwitch) / dT⌉ < 0 := h4
            omega
          rw [Int.ceil_le, div_le_iff₀ hd] at h4
          push_cast at h4
          linarith
        · right
          cases hA : addSteps (effective cfg) dT (l :: ls).length (r :: rs).length true (decide (l.impactTime ≠ r.impactTime))
              (ordered.drop 2) ⟨[], [], [0], [0], 1, 1, initTime, false, false⟩ with
          | fail => rw [hA] at h; simp at h
          | ub w' => exact absurd hA (addSteps_safe hv hd)
          | ok s =>
            rw [hA] at h
            simp only [Out.bind_ok] at h
            unfold addLast at h
            rw [show (effective cfg).endSwitch = cfg.endSwitch from rfl, roundSize_nonneg (div_nonneg hv.end_pos.le hd.le)] at h
            simp only [Out.bind_ok] at h
            cases hsub : subSize (s.shifts.getLastD 0 + (stdRound (cfg.endSwitch / dT)).toNat) 1 with
            | ok m => rw [hsub] at h; simp at h
            | fail => exact absurd hsub subSize_not_fail
            | ub w' =>
              rw [hsub] at h
              simp only [Out.bind_ub, Out.ub.injEq] at h
              obtain ⟨e, hlt⟩ := subSize_ub hsub
              refine ⟨by rw [← h]; exact e, ?_, h2lt⟩
              by_contra hc
              have : 1 / 2 ≤ cfg.endSwitch / dT := by
                rw [le_div_iff₀ hd]; linarith [not_lt.mp hc]
              have := stdRound_pos this
              omega
  · cases h

end Uni.Gen
