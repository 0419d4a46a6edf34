import Verif.Model.Rounded
import Verif.Spec.Rounded
import Verif.Lemmas.TimelineFacts

/-! # The phases with rounded arithmetic -/

set_option autoImplicit false
set_option linter.unusedSectionVars false

namespace Uni.Rounded
open Uni Uni.Gen Spec
variable {K : Type} [Field K] [LinearOrder K] [IsStrictOrderedRing K] [FloorRing K]
variable {fl : K → K} {cfg : GenSettings K} {dT : K}

/-! ## Rounding to nothing is the exact model -/

theorem addSteps_id (cfg : GenSettings K) (dT : K) (nl nr : Nat) (l : List (Ptr K)) :
    ∀ (first half : Bool) (s : Timing K), addSteps id cfg dT nl nr first half l s = Gen.addSteps cfg dT nl nr first half l s := by
  induction l with
  | nil => intros; rfl
  | cons q l ih =>
    intro first half s
    unfold addSteps Gen.addSteps
    have : addStep id cfg dT nl nr first (first && half) q s = Gen.addStep cfg dT nl nr first (first && half) q s := rfl
    rw [this]
    congr 1
    funext s
    exact ih _ _ _

theorem createPhasesTimings_id (cfg : GenSettings K) (t dT : K) (left right : List (Step K)) (ordered : List (Ptr K)) :
    createPhasesTimings id cfg t dT left right ordered = Gen.createPhasesTimings cfg t dT left right ordered := by
  unfold createPhasesTimings Gen.createPhasesTimings
  simp only [addSteps_id]
  rfl

theorem timeline_id (cfg : GenSettings K) (left right : FootPrint K) (t dT : K) (sorted : List (Ptr K)) :
    timeline id cfg left right t dT sorted = Gen.timeline cfg left right t dT sorted := by
  unfold timeline Gen.timeline
  simp only [createPhasesTimings_id]
  rfl

/-! ## Durations -/

theorem fl_nonneg (h : Rounding fl) {x : K} (hx : 0 ≤ x) : 0 ≤ fl x := by
  have := h.mono hx
  rwa [h.zero] at this

theorem fl_le (h : Rounding fl) {x y : K} (hy : fl y = y) (hx : x ≤ y) : fl x ≤ y := by
  have := h.mono hx
  rwa [hy] at this

theorem le_fl (h : Rounding fl) {x y : K} (hy : fl y = y) (hx : y ≤ x) : y ≤ fl x := by
  have := h.mono hx
  rwa [hy] at this

/-- The settings used by `createPhasesTimings`, src/UnicycleGenerator.cpp:394. -/
def effective (fl : K → K) (cfg : GenSettings K) : GenSettings K :=
  { cfg with nominalSwitchTime := fl (cfg.switchPercentage * cfg.nominalStepTime) }

/-- The double support is not longer than the step. -/
theorem switchTime_bounds (h : Rounding fl) (hv : ValidRounded fl cfg) (half : Bool) {T : K} (hT : 0 ≤ T) (hr : fl T = T) :
    0 ≤ switchTime fl (effective fl cfg) half T ∧ switchTime fl (effective fl cfg) half T ≤ T := by
  have h0 := hv.switch_nonneg
  have h1 := hv.switch_le
  unfold switchTime effective
  simp only
  split_ifs with c1 c2
  · have a1 : fl (cfg.switchPercentage / 2) ≤ 1 / 2 := fl_le h h.half (by linarith)
    have a2 : 1 / 2 ≤ fl (1 - fl (cfg.switchPercentage / 2)) := le_fl h h.half (by linarith)
    have a3 : 0 < fl (1 - fl (cfg.switchPercentage / 2)) := by linarith
    have a4 : 0 ≤ fl (cfg.switchPercentage / fl (1 - fl (cfg.switchPercentage / 2))) := fl_nonneg h (div_nonneg h0 a3.le)
    have a5 : fl (cfg.switchPercentage / fl (1 - fl (cfg.switchPercentage / 2))) ≤ 2 := fl_le h h.two (by
      rw [div_le_iff₀ a3]; linarith)
    have a6 : 0 ≤ fl (fl (cfg.switchPercentage / fl (1 - fl (cfg.switchPercentage / 2))) * T) := fl_nonneg h (mul_nonneg a4 hT)
    have a7 : fl (fl (cfg.switchPercentage / fl (1 - fl (cfg.switchPercentage / 2))) * T) ≤ 2 * T :=
      fl_le h (h.double T hr) (mul_le_mul_of_nonneg_right a5 hT)
    exact ⟨fl_nonneg h (by linarith), fl_le h hr (by linarith)⟩
  · have hn := hv.nominal_pos
    have hm := hv.nominal_le
    have b1 : fl (cfg.switchPercentage * cfg.nominalStepTime) ≤ cfg.nominalStepTime := fl_le h hv.nominal (by nlinarith)
    have b2 : 0 ≤ fl (cfg.switchPercentage * cfg.nominalStepTime) := fl_nonneg h (by positivity)
    have b3 : 0 ≤ fl (cfg.nominalStepTime - fl (cfg.switchPercentage * cfg.nominalStepTime)) := fl_nonneg h (by linarith)
    have b4 : fl (cfg.nominalStepTime - fl (cfg.switchPercentage * cfg.nominalStepTime)) ≤ cfg.nominalStepTime :=
      fl_le h hv.nominal (by linarith)
    exact ⟨fl_nonneg h (by linarith [c2.2]), fl_le h hr (by linarith)⟩
  · exact ⟨fl_nonneg h (by positivity), fl_le h hr (by nlinarith)⟩

theorem switchTime_rounded (h : Rounding fl) (half : Bool) (T : K) : fl (switchTime fl cfg half T) = switchTime fl cfg half T := by
  unfold switchTime
  split_ifs <;> exact h.idem _

/-- The samples before the end of a double support that lasts `sw`. -/
theorem back_le (h : Rounding fl) {sw b : K} (hd : 0 < dT) (hsw : 0 ≤ sw) (hr : fl sw = sw) (h0 : 0 ≤ b) (h1 : b ≤ 1) :
    0 ≤ fl (fl (sw * fl (1 - b)) / dT) ∧ fl (fl (sw * fl (1 - b)) / dT) ≤ fl (sw / dT) := by
  have a1 : 0 ≤ fl (1 - b) := fl_nonneg h (by linarith)
  have a2 : fl (1 - b) ≤ 1 := fl_le h h.one (by linarith)
  have a3 : 0 ≤ fl (sw * fl (1 - b)) := fl_nonneg h (mul_nonneg hsw a1)
  have a4 : fl (sw * fl (1 - b)) ≤ sw := fl_le h hr (by nlinarith)
  exact ⟨fl_nonneg h (div_nonneg a3 hd.le), h.mono (div_le_div_of_nonneg_right a4 hd.le)⟩

/-! ## No wrap-around -/

/-- The merge points of a step, as numbers of samples before the end of the double support. -/
theorem stepMerges_safe (h : Rounding fl) (hv : ValidRounded fl cfg) {sw : K} (hd : 0 < dT) (hsw : 0 ≤ sw) (hr : fl sw = sw)
    (first : Bool) {n ds : Nat} (hds : (ds : ℤ) = stdRound (fl (sw / dT))) :
    ∃ ms, stepMerges fl (effective fl cfg) dT first sw (n + ds) = .ok ms ∧ (ms = [] ↔ first = true) ∧
      (∀ m ∈ ms, n ≤ m ∧ m ≤ n + ds) ∧ ms.Pairwise (· < ·) := by
  unfold stepMerges
  cases first with
  | true => exact ⟨[], rfl, by simp, by simp, .nil⟩
  | false =>
    have key : ∀ b : K, 0 ≤ b → b ≤ 1 → ∃ a, roundSize (fl (fl (sw * fl (1 - b)) / dT)) = .ok a ∧
        subSize (n + ds) a = .ok (n + ds - a) ∧ a ≤ ds ∧ (a : ℤ) = stdRound (fl (fl (sw * fl (1 - b)) / dT)) := by
      intro b h0 h1
      obtain ⟨h2, h3⟩ := back_le h hd hsw hr h0 h1
      have := stdRound_mono h2 h3
      exact ⟨_, roundSize_nonneg h2, subSize_le (by omega), by omega, Int.toNat_of_nonneg (stdRound_nonneg h2)⟩
    obtain ⟨a, ha, ha', la, ea⟩ := key cfg.mergeBegin hv.begin_nonneg (hv.begin_le.trans hv.end_le)
    obtain ⟨b, hb, hb', lb, eb⟩ := key cfg.mergeEnd (hv.begin_nonneg.trans hv.begin_le) hv.end_le
    have hba : b ≤ a := by
      have c0 : 0 ≤ fl (1 - cfg.mergeEnd) := fl_nonneg h (by linarith [hv.end_le])
      have c1 : fl (1 - cfg.mergeEnd) ≤ fl (1 - cfg.mergeBegin) := h.mono (by linarith [hv.begin_le])
      have c2 := h.mono (mul_le_mul_of_nonneg_left c1 hsw)
      have c3 := h.mono (div_le_div_of_nonneg_right c2 hd.le)
      have := stdRound_mono (back_le h hd hsw hr (hv.begin_nonneg.trans hv.begin_le) hv.end_le).1 c3
      omega
    have ha : roundSize (fl (fl (sw * fl (1 - (effective fl cfg).mergeBegin)) / dT)) = .ok a := ha
    have hb : roundSize (fl (fl (sw * fl (1 - (effective fl cfg).mergeEnd)) / dT)) = .ok b := hb
    rw [if_neg (by simp), ha]
    simp only [Out.bind_ok, ha', hb, hb']
    refine ⟨_, rfl, ?_, ?_, List.pairwise_lt_range'⟩
    · constructor
      · intro hc
        have := congrArg List.length hc
        simp only [List.length_range', List.length_nil] at this
        omega
      · intro hc; cases hc
    · intro m hm
      rw [List.mem_range'_1] at hm
      omega

/-- One step of the loop cannot wrap. -/
theorem addStep_safe (h : Rounding fl) (hv : ValidRounded fl cfg) (hd : 0 < dT) {nl nr : Nat} {first half : Bool}
    {q : Ptr K} {s : Timing K} {w : UB} : addStep fl (effective fl cfg) dT nl nr first half q s ≠ .ub w := by
  unfold addStep
  simp only
  by_cases h0 : fl (q.step.impactTime - s.prevTime) < 0
  · rw [if_pos h0]; simp
  · rw [if_neg h0]
    have h0 := not_lt.mp h0
    obtain ⟨b1, b2⟩ := switchTime_bounds h hv half h0 (h.idem _)
    have c1 := fl_nonneg h (div_nonneg h0 hd.le)
    have c2 := fl_nonneg h (div_nonneg b1 hd.le)
    have c3 := h.mono (div_le_div_of_nonneg_right b2 hd.le)
    rw [roundSize_nonneg c1, roundSize_nonneg c2]
    have hle := stdRound_mono c2 c3
    simp only [Out.bind_ok]
    rw [subSize_le (by omega)]
    simp only [Out.bind_ok]
    unfold whichSwings
    have hn := stdRound_nonneg c2
    obtain ⟨ms, hms, -⟩ := stepMerges_safe h hv hd b1 (switchTime_rounded h _ _) first (n := s.shifts.getLastD 0)
      (ds := (stdRound (fl (switchTime fl (effective fl cfg) half (fl (q.step.impactTime - s.prevTime)) / dT))).toNat)
      (Int.toNat_of_nonneg hn)
    split_ifs <;> simp only [Out.bind_ok, Out.bind_fail, hms, ne_eq, reduceCtorEq, not_false_eq_true]

theorem addSteps_safe (h : Rounding fl) (hv : ValidRounded fl cfg) (hd : 0 < dT) {nl nr : Nat} {first half : Bool}
    {l : List (Ptr K)} {s : Timing K} {w : UB} : addSteps fl (effective fl cfg) dT nl nr first half l s ≠ .ub w := by
  induction l generalizing first s with
  | nil => simp [addSteps]
  | cons q l ih =>
    unfold addSteps
    cases ha : addStep fl (effective fl cfg) dT nl nr first (first && half) q s with
    | ok s' => exact ih
    | fail => simp
    | ub w' => exact absurd ha (addStep_safe h hv hd)

/-- The only ways in which the timings can go wrong. -/
theorem timeline_ub (h : Rounding fl) (hv : ValidRounded fl cfg) {left right : FootPrint K} {initTime : K}
    {sorted : List (Ptr K)} {w : UB} (hs : SortedPtrs left right sorted)
    (ht : timeline fl cfg left right initTime dT sorted = .ub w) :
    (w = .negativeToUnsigned ∧ 2 < left.steps.length + right.steps.length ∧
      ∀ s ∈ left.steps ++ right.steps, s.impactTime < initTime) ∨
    (w = .unsignedWrap ∧ cfg.endSwitch < dT / 2 ∧ 2 < left.steps.length + right.steps.length) := by
  unfold timeline at ht
  split at ht
  · rename_i l ls r rs hl hr
    split_ifs at ht with h1 h2 h3
    have hd := not_le.mp h2
    have hlen : sorted.length = left.steps.length + right.steps.length := by rw [hs.1.length_eq, ofFeet_length]
    have hL : 0 < left.steps.length := by rw [hl]; simp
    have hR : 0 < right.steps.length := by rw [hr]; simp
    have hend : 0 ≤ fl ((effective fl cfg).endSwitch / dT) := fl_nonneg h (div_nonneg hv.end_pos.le hd.le)
    cases ho : orderSteps sorted with
    | fail => rw [ho] at ht; simp at ht
    | ub w' => have := orderSteps_ub ho; omega
    | ok ordered =>
      rw [ho] at ht
      simp only [Out.bind_ok] at ht
      obtain ⟨hperm, hsort, -⟩ := orderSteps_ok ho hs.2
      have hlen' := hperm.length_eq
      have ht : createPhasesTimings fl (effective fl cfg) initTime dT left.steps right.steps ordered = .ub w := by
        have e : ({ cfg with nominalSwitchTime := fl (cfg.switchPercentage * cfg.nominalStepTime) } : GenSettings K) = effective fl cfg := rfl
        rw [e] at ht
        cases hc : createPhasesTimings fl (effective fl cfg) initTime dT left.steps right.steps ordered with
        | ok a => rw [hc] at ht; simp at ht
        | fail => rw [hc] at ht; simp at ht
        | ub w' => rw [hc] at ht; simpa using ht
      unfold createPhasesTimings at ht
      rw [hl, hr] at ht
      have hne : ordered ≠ [] := by intro hc; rw [hc] at hlen'; simp at hlen'; omega
      obtain ⟨last, hlast⟩ : ∃ x, ordered.getLast? = some x := ⟨_, List.getLast?_eq_some_getLast hne⟩
      rw [hlast] at ht
      simp only at ht
      by_cases hl2 : ordered.length = 2
      · rw [if_pos hl2, roundSize_nonneg hend] at ht
        simp at ht
      · rw [if_neg hl2] at ht
        have h2lt : 2 < left.steps.length + right.steps.length := by omega
        split_ifs at ht with h4
        · cases ht
          refine .inl ⟨rfl, h2lt, fun s hs' => ?_⟩
          have hmem : ∃ q ∈ ordered, q.step = s := by
            rcases List.mem_append.mp hs' with hs' | hs'
            · obtain ⟨i, hi⟩ := List.getElem?_of_mem hs'
              exact ⟨⟨true, i, s⟩, hperm.mem_iff.mpr (hs.1.mem_iff.mpr (mem_ofFeet.mpr (by simpa using hi))), rfl⟩
            · obtain ⟨i, hi⟩ := List.getElem?_of_mem hs'
              exact ⟨⟨false, i, s⟩, hperm.mem_iff.mpr (hs.1.mem_iff.mpr (mem_ofFeet.mpr (by simpa using hi))), rfl⟩
          obtain ⟨q, hq, rfl⟩ := hmem
          have hle : q.step.impactTime ≤ last.step.impactTime := by
            obtain ⟨init, hi⟩ := List.getLast?_eq_some_iff.mp hlast
            rw [hi] at hq hsort
            rcases List.mem_append.mp hq with hq | hq
            · exact (List.pairwise_append.mp hsort).2.2 q hq last (by simp)
            · simp at hq; rw [hq]
          by_contra hc
          have c1 : 0 ≤ fl (last.step.impactTime - initTime) := fl_nonneg h (by linarith [not_lt.mp hc])
          have c2 : 0 ≤ fl (fl (last.step.impactTime - initTime) + (effective fl cfg).endSwitch) :=
            fl_nonneg h (add_nonneg c1 hv.end_pos.le)
          have c3 := fl_nonneg h (div_nonneg c2 hd.le)
          have := Int.ceil_nonneg c3
          omega
        · right
          cases hA : addSteps fl (effective fl cfg) dT (l :: ls).length (r :: rs).length true (decide (l.impactTime ≠ r.impactTime))
              (ordered.drop 2) ⟨[], [], [0], [0], 1, 1, initTime, false, false⟩ with
          | fail => rw [hA] at ht; simp at ht
          | ub w' => exact absurd hA (addSteps_safe h hv hd)
          | ok s =>
            rw [hA] at ht
            simp only [Out.bind_ok] at ht
            unfold addLast at ht
            rw [roundSize_nonneg hend] at ht
            simp only [Out.bind_ok] at ht
            cases hsub : subSize (s.shifts.getLastD 0 + (stdRound (fl ((effective fl cfg).endSwitch / dT))).toNat) 1 with
            | ok m => rw [hsub] at ht; simp at ht
            | fail => exact absurd hsub subSize_not_fail
            | ub w' =>
              rw [hsub] at ht
              simp only [Out.bind_ub, Out.ub.injEq] at ht
              obtain ⟨e, hlt⟩ := subSize_ub hsub
              refine ⟨by rw [← ht]; exact e, ?_, h2lt⟩
              by_contra hc
              have : 1 / 2 ≤ fl ((effective fl cfg).endSwitch / dT) := le_fl h h.half (by
                rw [le_div_iff₀ hd]
                show 1 / 2 * dT ≤ cfg.endSwitch
                linarith [not_lt.mp hc])
              have := stdRound_pos this
              omega
  · cases ht

/-! ## The timetable -/

/-- The slot made for a planned step; `prev` is the computed instant at which the previous one ended. -/
structure SlotOf (fl : K → K) (cfg : GenSettings K) (dT : K) (half : Bool) (prev : K) (q : Ptr K) (s : Slot) : Prop where
  left : s.left = q.left
  nonneg : 0 ≤ fl (q.step.impactTime - prev)
  all : ((s.ds + s.ss : Nat) : ℤ) = stdRound (fl (fl (q.step.impactTime - prev) / dT))
  double : (s.ds : ℤ) = stdRound (fl (switchTime fl cfg half (fl (q.step.impactTime - prev)) / dT))

/-- Slots and merge points of the remaining steps, the first of them starting at sample `n`, for which the code has computed the
instant `prev`. -/
inductive Slots (fl : K → K) (cfg : GenSettings K) (dT : K) (half : Bool) :
    Bool → K → Nat → List (Ptr K) → List Slot → List (List Nat) → Prop
  | nil (first : Bool) (prev : K) (n : Nat) : Slots fl cfg dT half first prev n [] [] []
  | cons (first : Bool) (prev : K) (n : Nat) (q : Ptr K) (l : List (Ptr K)) (s : Slot) (ss : List Slot) (ms : List Nat) (mss : List (List Nat)) :
      SlotOf fl cfg dT (first && half) prev q s →
      stepMerges fl cfg dT first (switchTime fl cfg (first && half) (fl (q.step.impactTime - prev))) (n + s.ds) = .ok ms →
      Slots fl cfg dT half false (fl (prev + fl (fl ((s.ds + s.ss : Nat) : K) * dT))) (n + s.ds + s.ss) l ss mss →
      Slots fl cfg dT half first prev n (q :: l) (s :: ss) (ms :: mss)

theorem addStep_ok {nl nr : Nat} {first half : Bool} {q : Ptr K} {s s' : Timing K}
    (h : addStep fl cfg dT nl nr first half q s = .ok s') :
    ∃ slot ms, SlotOf fl cfg dT half s.prevTime q slot ∧
      stepMerges fl cfg dT first (switchTime fl cfg half (fl (q.step.impactTime - s.prevTime))) (s.shifts.getLastD 0 + slot.ds) = .ok ms ∧
      s'.left = s.left ++ expand (slot.segs true) ∧ s'.right = s.right ++ expand (slot.segs false) ∧
      s'.shifts = s.shifts ++ ends (s.shifts.getLastD 0) (slot.segs true) ∧ s'.merges = s.merges ++ ms ∧
      s'.prevTime = fl (s.prevTime + fl (fl ((slot.ds + slot.ss : Nat) : K) * dT)) ∧ s'.swingLeft = slot.left ∧
      q.index = (if q.left then s.leftIndex else s.rightIndex) ∧
      s'.leftIndex = (if q.left then s.leftIndex + 1 else s.leftIndex) ∧
      s'.rightIndex = (if q.left then s.rightIndex else s.rightIndex + 1) ∧
      s'.pastEnd = (s.pastEnd || decide (nl ≤ s.leftIndex) || (!q.left && decide (nr ≤ s.rightIndex))) := by
  unfold addStep at h
  simp only at h
  by_cases h0 : fl (q.step.impactTime - s.prevTime) < 0
  · rw [if_pos h0] at h; cases h
  · rw [if_neg h0] at h
    obtain ⟨a, ha, h⟩ := Out.bind_eq_ok.mp h
    obtain ⟨b, hb, h⟩ := Out.bind_eq_ok.mp h
    obtain ⟨c, hc, h⟩ := Out.bind_eq_ok.mp h
    obtain ⟨w, hw, h⟩ := Out.bind_eq_ok.mp h
    obtain ⟨ms, hm, h⟩ := Out.bind_eq_ok.mp h
    have ha := roundSize_ok ha
    have hb := roundSize_ok hb
    have hc := subSize_ok hc
    have hw' : w = q.left ∧ q.index = (if q.left then s.leftIndex else s.rightIndex) := by
      unfold whichSwings at hw
      split_ifs at hw with h1 h2
      · cases hw; simp [h1.1, h1.2]
      · cases hw; simp [h2.1, h2.2]
    obtain ⟨rfl, hidx⟩ := hw'
    have hcb : b + c = a := by omega
    refine ⟨⟨q.left, b, c⟩, ms, ⟨rfl, not_lt.mp h0, by rw [← ha, hcb], hb⟩, hm, ?_⟩
    cases h
    refine ⟨?_, ?_, ?_, rfl, by simp only [hcb], rfl, hidx, ?_, ?_, ?_⟩
    · cases q.left <;> simp [Slot.segs]
    · cases q.left <;> simp [Slot.segs]
    · cases q.left <;> simp [Slot.segs, ends, Nat.add_assoc]
    · cases q.left <;> simp
    · cases q.left <;> simp
    · cases hq : q.left with
      | true => rw [hq, if_pos rfl] at hidx; simp [hidx]
      | false => simp

theorem addSteps_ok {nl nr : Nat} {first half : Bool} {l : List (Ptr K)} {s s' : Timing K}
    (h : addSteps fl cfg dT nl nr first half l s = .ok s') :
    ∃ slots ms, Slots fl cfg dT half first s.prevTime (s.shifts.getLastD 0) l slots ms ∧
      s'.left = s.left ++ expand (slotSegs true slots) ∧ s'.right = s.right ++ expand (slotSegs false slots) ∧
      s'.shifts = s.shifts ++ ends (s.shifts.getLastD 0) (slotSegs true slots) ∧ s'.merges = s.merges ++ ms.flatten ∧
      s'.swingLeft = ((slots.getLast?.map Slot.left).getD s.swingLeft) ∧ Consumes s.leftIndex s.rightIndex l ∧
      s'.pastEnd = (s.pastEnd || PastEnd nl nr s.leftIndex s.rightIndex l) := by
  induction l generalizing first s with
  | nil =>
    simp only [addSteps, Out.ok.injEq] at h
    subst h
    exact ⟨[], [], .nil _ _ _, by simp [slotSegs], by simp [slotSegs], by simp [slotSegs, ends], by simp, by simp, trivial,
      by simp [PastEnd]⟩
  | cons q l ih =>
    obtain ⟨s1, h1, h2⟩ := Out.bind_eq_ok.mp h
    obtain ⟨slot, ms, a1, a2, a3, a4, a5, a6, a7, a8, a9, a10, a11, a12⟩ := addStep_ok h1
    have hlast : s1.shifts.getLastD 0 = s.shifts.getLastD 0 + slot.ds + slot.ss := by
      have hne : slot.segs true ≠ [] := by unfold Slot.segs; split_ifs <;> simp
      rw [a5]
      have : (ends (s.shifts.getLastD 0) (slot.segs true)) ≠ [] := by
        intro hc; apply hne; rw [← List.length_eq_zero_iff, ← length_ends (s.shifts.getLastD 0), hc]; rfl
      have e : (s.shifts ++ ends (s.shifts.getLastD 0) (slot.segs true)).getLastD 0 =
          (ends (s.shifts.getLastD 0) (slot.segs true)).getLastD 0 := by
        generalize ends (s.shifts.getLastD 0) (slot.segs true) = e at this
        rw [List.getLastD_eq_getLast?, List.getLastD_eq_getLast?, List.getLast?_append_of_ne_nil _ this]
      rw [e, getLastD_ends _ _ _ hne, total_segs, Nat.add_assoc]
    obtain ⟨slots, mss, b1, b2, b3, b4, b5, b6, b7, b8⟩ := ih h2
    rw [hlast, a7] at b1
    refine ⟨slot :: slots, ms :: mss, ?_, ?_, ?_, ?_, ?_, ?_, ?_, ?_⟩
    · exact .cons _ _ _ _ _ _ _ _ _ a1 a2 b1
    · rw [b2, a3]; simp [slotSegs]
    · rw [b3, a4]; simp [slotSegs]
    · rw [b4, hlast, a5]; simp [slotSegs, ends_append, total_segs, Nat.add_assoc]
    · rw [b5, a6, List.append_assoc]; rfl
    · rw [b6, a8]
      cases slots with
      | nil => simp
      | cons b l =>
        rw [List.getLast?_cons_cons]
        cases hb : (b :: l).getLast? with
        | none => simp at hb
        | some x => simp
    · refine ⟨a9, ?_⟩
      rw [← a10, ← a11]; exact b7
    · rw [b8, a12, a10, a11]
      simp [PastEnd, Bool.or_assoc]

/-- The result of `createPhasesTimings` in terms of the timetable it builds. -/
structure Built (fl : K → K) (cfg : GenSettings K) (initTime dT : K) (l r : Step K) (nl nr : Nat) (ordered : List (Ptr K))
    (t : Timing K) (tt : Timetable) : Prop where
  left : t.left = tt.phases true
  right : t.right = tt.phases false
  shifts : t.shifts = tt.shifts
  coherent : tt.Coherent
  rest : (tt.rest : ℤ) = stdRound (fl (cfg.endSwitch / dT))
  cases : (ordered.length = 2 ∧ tt.slots = [] ∧ tt.lastLeft = decide (r.impactTime < l.impactTime) ∧
      t.merges = 0 :: List.range' 1 (tt.rest - 1) ∧ t.pastEnd = false) ∨
    (ordered.length ≠ 2 ∧ ∃ ms, Slots fl cfg dT (decide (l.impactTime ≠ r.impactTime)) true initTime 0 (ordered.drop 2) tt.slots ms ∧
      0 < total (tt.segs true) ∧ t.merges = 0 :: ms.flatten ++ [total (tt.segs true) - 1] ∧ Consumes 1 1 (ordered.drop 2) ∧
      t.pastEnd = PastEnd nl nr 1 1 (ordered.drop 2))

theorem createPhasesTimings_ok {initTime : K} {left right : List (Step K)}
    {ordered : List (Ptr K)} {t : Timing K} (h : createPhasesTimings fl cfg initTime dT left right ordered = .ok t) :
    ∃ l r tt, left.head? = some l ∧ right.head? = some r ∧
      Built fl cfg initTime dT l r left.length right.length ordered t tt := by
  unfold createPhasesTimings at h
  split at h
  · rename_i l ls r rs last hlast
    refine ⟨l, r, ?_⟩
    by_cases h2 : ordered.length = 2
    · rw [if_pos h2] at h
      obtain ⟨n, hn, h⟩ := Out.bind_eq_ok.mp h
      have hn := roundSize_ok hn
      cases h
      refine ⟨⟨[], decide (r.impactTime < l.impactTime), n⟩, rfl, rfl, ?_, ?_, ?_, ?_, hn, .inl ⟨h2, rfl, rfl, rfl, rfl⟩⟩
      · by_cases h : r.impactTime < l.impactTime <;> simp [Timetable.phases, Timetable.segs, h]
      · by_cases h : r.impactTime < l.impactTime <;> simp [Timetable.phases, Timetable.segs, h]
      · simp [Timetable.shifts, Timetable.segs, ends]
      · intro s hs; simp at hs
    · rw [if_neg h2] at h
      split_ifs at h with h3
      obtain ⟨s, hs, h⟩ := Out.bind_eq_ok.mp h
      obtain ⟨slots, ms, b1, b2, b3, b4, b5, b6, b7, b8⟩ := addSteps_ok hs
      unfold addLast at h
      obtain ⟨n, hn, h⟩ := Out.bind_eq_ok.mp h
      obtain ⟨m, hm, h⟩ := Out.bind_eq_ok.mp h
      have hn := roundSize_ok hn
      have hm := subSize_ok hm
      have hb : s.shifts.getLastD 0 = total (slotSegs true slots) := by
        rw [b4]
        by_cases hne : slotSegs true slots = []
        · rw [hne]; simp [ends]
        · have := getLastD_ends 0 0 _ hne
          simp only [List.getLastD_cons, List.getLastD_nil, List.singleton_append, Nat.zero_add] at this ⊢
          exact this
      cases h
      refine ⟨⟨slots, s.swingLeft, n⟩, rfl, rfl, ?_, ?_, ?_, ?_, hn, .inr ⟨h2, ms, b1, ?_, ?_, b7, ?_⟩⟩
      · simp only [b2, List.nil_append, Timetable.phases, Timetable.segs, expand_append, slotSegs]
        cases s.swingLeft <;> simp
      · simp only [b3, List.nil_append, Timetable.phases, Timetable.segs, expand_append, slotSegs]
        cases s.swingLeft <;> simp
      · simp only [Timetable.shifts, Timetable.segs, ends_append, ends]
        rw [hb, b4]
        simp [slotSegs]
      · intro x hx
        simp only at hx ⊢
        rw [b6, hx]; rfl
      · simp only [Timetable.segs, total_append]
        rw [hb] at hm
        simp only [slotSegs] at hm
        simp; omega
      · simp only [b5, Timetable.segs, total_append, total_cons, total_nil]
        rw [hb] at hm
        simp only [slotSegs] at hm
        simp; omega
      · rw [b8]; simp
  · cases h

/-- Everything known of a successful run of `generateFromFootPrints` up to the timings. -/
structure Run (fl : K → K) (cfg : GenSettings K) (left right : FootPrint K) (initTime dT : K) (sorted ordered : List (Ptr K))
    (t : Timing K) (l r : Step K) (tt : Timetable) : Prop where
  headL : left.steps.head? = some l
  headR : right.steps.head? = some r
  names : left.footName ≠ right.footName
  dT_pos : 0 < dT
  init_l : l.impactTime ≤ initTime
  init_r : r.impactTime ≤ initTime
  order : orderSteps sorted = .ok ordered
  built : Built fl (effective fl cfg) initTime dT l r left.steps.length right.steps.length ordered t tt

theorem timeline_ok {left right : FootPrint K} {initTime : K} {sorted ordered : List (Ptr K)}
    {t : Timing K} (h : timeline fl cfg left right initTime dT sorted = .ok (ordered, t)) :
    ∃ l r tt, Run fl cfg left right initTime dT sorted ordered t l r tt := by
  unfold timeline at h
  split at h
  · rename_i l ls r rs hl hr
    split_ifs at h with h1 h2 h3
    obtain ⟨o, ho, h⟩ := Out.bind_eq_ok.mp h
    obtain ⟨t', ht, h⟩ := Out.bind_eq_ok.mp h
    cases h
    obtain ⟨l', r', tt, e1, e2, hb⟩ := createPhasesTimings_ok ht
    rw [hl] at e1; rw [hr] at e2
    cases e1; cases e2
    have h3 := not_lt.mp h3
    refine ⟨l, r, tt, by rw [hl]; rfl, by rw [hr]; rfl, h1, not_le.mp h2, (le_max_left _ _).trans h3, (le_max_right _ _).trans h3, ho, ?_⟩
    exact hb
  · cases h

/-- The `k`-th slot, with the instant computed for its beginning. -/
theorem Slots.get {half first : Bool} {prev : K} {n : Nat} {l : List (Ptr K)} {slots : List Slot} {ms : List (List Nat)}
    (h : Slots fl cfg dT half first prev n l slots ms) : slots.length = l.length ∧ ms.length = l.length ∧
    ∀ k q, l[k]? = some q → ∃ s p m, slots[k]? = some s ∧ ms[k]? = some m ∧ SlotOf fl cfg dT (first && decide (k = 0) && half) p q s ∧
      stepMerges fl cfg dT (first && decide (k = 0)) (switchTime fl cfg (first && decide (k = 0) && half) (fl (q.step.impactTime - p)))
        (n + slotStart slots k + s.ds) = .ok m := by
  induction h with
  | nil => simp
  | cons first prev n q l s ss ms mss h1 h2 h3 ih =>
    obtain ⟨i1, i2, i3⟩ := ih
    refine ⟨by simp [i1], by simp [i2], fun k x hx => ?_⟩
    cases k with
    | zero =>
      simp only [List.getElem?_cons_zero, Option.some.injEq] at hx
      subst hx
      exact ⟨s, prev, ms, rfl, rfl, by simpa using h1, by simpa [slotStart, slotSegs] using h2⟩
    | succ k =>
      rw [List.getElem?_cons_succ] at hx
      obtain ⟨s', p, m, a1, a2, a3, a4⟩ := i3 k x hx
      refine ⟨s', p, m, by simpa using a1, by simpa using a2, by simpa using a3, ?_⟩
      have e : n + slotStart (s :: ss) (k + 1) + s'.ds = n + s.ds + s.ss + slotStart ss k + s'.ds := by
        simp only [slotStart, List.take_succ_cons, slotSegs, List.flatMap_cons, total_append, total_segs]
        omega
      rw [e]
      simpa using a4

/-! ## Drift -/

/-- The end of a step: the error with respect to the planned landing, and the one made by storing it. -/
theorem SlotOf.drift {half : Bool} {prev R ε : K} {q : Ptr K} {s : Slot} (ha : Accurate fl R dT ε) (hd : 0 < dT) (hR : dT ≤ R)
    (hε : 8 * ε ≤ R) (h : SlotOf fl cfg dT half prev q s) (hp : |prev| ≤ 2 * R) (hq : |q.step.impactTime| ≤ R) :
    |prev + ((s.ds + s.ss : Nat) : K) * dT - q.step.impactTime| ≤ dT / 2 + 2 * ε ∧
    |fl (prev + fl (fl ((s.ds + s.ss : Nat) : K) * dT)) - (prev + ((s.ds + s.ss : Nat) : K) * dT)| ≤ 2 * ε ∧
    |fl (prev + fl (fl ((s.ds + s.ss : Nat) : K) * dT))| ≤ 2 * R := by
  have hp := abs_le.mp hp
  have hq := abs_le.mp hq
  have hall := h.all
  have hnn := h.nonneg
  generalize q.step.impactTime = I at *
  generalize s.ds + s.ss = N at *
  have a1 : |fl (I - prev) - (I - prev)| ≤ ε := ha.times _ (abs_le.mpr ⟨by linarith, by linarith⟩)
  have a2 := abs_le.mp a1
  have a3 : |fl (fl (I - prev) / dT) - fl (I - prev) / dT| * dT ≤ ε := ha.samples _ (by
    rw [div_mul_cancel₀ _ hd.ne']
    exact abs_le.mpr ⟨by linarith, by linarith⟩)
  have a4 := stdRound_abs (fl (fl (I - prev) / dT))
  rw [← hall] at a4
  have e1 : (((N : Nat) : ℤ) : K) = (N : K) := by push_cast; ring
  rw [e1] at a4
  have a5 : |(N : K) * dT - fl (I - prev)| ≤ dT / 2 + ε := by
    have e : (N : K) * dT - fl (I - prev) =
        ((N : K) - fl (fl (I - prev) / dT)) * dT + (fl (fl (I - prev) / dT) - fl (I - prev) / dT) * dT := by
      field_simp; ring
    rw [e]
    refine (abs_add_le _ _).trans ?_
    rw [abs_mul, abs_mul, abs_of_pos hd]
    have : |(N : K) - fl (fl (I - prev) / dT)| * dT ≤ 1 / 2 * dT := by gcongr
    linarith
  have a6 := abs_le.mp a5
  have a7 : |prev + (N : K) * dT - I| ≤ dT / 2 + 2 * ε := abs_le.mpr ⟨by linarith, by linarith⟩
  have a8 : fl (N : K) = N := ha.counts N (by linarith)
  have hN : 0 ≤ (N : K) * dT := by positivity
  have a9 := ha.times ((N : K) * dT) (abs_le.mpr ⟨by linarith, by linarith⟩)
  have b1 := abs_le.mp a9
  have b2 := abs_le.mp a7
  have b3 := ha.times (prev + fl ((N : K) * dT)) (abs_le.mpr ⟨by linarith, by linarith⟩)
  have b4 := abs_le.mp b3
  rw [a8]
  exact ⟨a7, abs_le.mpr ⟨by linarith, by linarith⟩, abs_le.mpr ⟨by linarith, by linarith⟩⟩

theorem Slots.drift {half first : Bool} {prev t0 R ε : K} {n : Nat} {l : List (Ptr K)} {slots : List Slot} {ms : List (List Nat)}
    (ha : Accurate fl R dT ε) (hd : 0 < dT) (hR : dT ≤ R) (hε : 8 * ε ≤ R) (h : Slots fl cfg dT half first prev n l slots ms)
    (hp : |prev| ≤ 2 * R) (hq : ∀ q ∈ l, |q.step.impactTime| ≤ R) {E : K} (hE : |prev - (t0 + (n : K) * dT)| ≤ E) :
    ∀ k q s, l[k]? = some q → slots[k]? = some s →
      |t0 + ((n + slotStart slots k + s.ds + s.ss : Nat) : K) * dT - q.step.impactTime| ≤ dT / 2 + E + 2 * (k + 1) * ε := by
  induction h generalizing E with
  | nil => simp
  | cons first prev n q l s ss ms mss h1 h2 h3 ih =>
    obtain ⟨d1, d2, d3⟩ := h1.drift ha hd hR hε hp (hq q (by simp))
    have d1 := abs_le.mp d1
    have d2 := abs_le.mp d2
    have e0 := abs_le.mp hE
    intro k x y hx hy
    cases k with
    | zero =>
      simp only [List.getElem?_cons_zero, Option.some.injEq] at hx hy
      subst hx hy
      have e : ((n + slotStart (s :: ss) 0 + s.ds + s.ss : Nat) : K) * dT = (n : K) * dT + ((s.ds + s.ss : Nat) : K) * dT := by
        have : slotStart (s :: ss) 0 = 0 := by simp [slotStart, slotSegs]
        rw [this]; push_cast; ring
      rw [e]
      push_cast at d1 d2 ⊢
      exact abs_le.mpr ⟨by linarith, by linarith⟩
    | succ k =>
      rw [List.getElem?_cons_succ] at hx hy
      have hE' : |fl (prev + fl (fl ((s.ds + s.ss : Nat) : K) * dT)) - (t0 + ((n + s.ds + s.ss : Nat) : K) * dT)| ≤ E + 2 * ε := by
        push_cast at d2 ⊢
        exact abs_le.mpr ⟨by linarith, by linarith⟩
      have := ih d3 (fun x hx => hq x (by simp [hx])) hE' k x y hx hy
      have e : n + slotStart (s :: ss) (k + 1) + y.ds + y.ss = n + s.ds + s.ss + slotStart ss k + y.ds + y.ss := by
        simp only [slotStart, List.take_succ_cons, slotSegs, List.flatMap_cons, total_append, total_segs]
        omega
      rw [e]
      refine this.trans (le_of_eq ?_)
      push_cast; ring

/-! ## Merge points -/

/-- The merge points of each step. -/
theorem Slots.groups (h : Rounding fl) (hv : ValidRounded fl cfg) (hd : 0 < dT) {half first : Bool} {prev : K} {n : Nat}
    {l : List (Ptr K)} {slots : List Slot} {ms : List (List Nat)} (hs : Slots fl (effective fl cfg) dT half first prev n l slots ms) :
    ms.length = slots.length ∧ ∀ k s g, slots[k]? = some s → ms[k]? = some g → (g = [] ↔ first = true ∧ k = 0) ∧
      g.Pairwise (· < ·) ∧ ∀ m ∈ g, n + slotStart slots k ≤ m ∧ m ≤ n + slotStart slots k + s.ds := by
  obtain ⟨g1, g2, g3⟩ := hs.get
  refine ⟨by rw [g1, g2], fun k s g hk hg => ?_⟩
  have hlt : k < l.length := by rw [← g1]; exact (List.getElem?_eq_some_iff.mp hk).1
  obtain ⟨s', p, m, a1, a2, a3, a4⟩ := g3 k _ (List.getElem?_eq_getElem hlt)
  rw [hk, Option.some.injEq] at a1
  rw [hg, Option.some.injEq] at a2
  subst a1 a2
  obtain ⟨ms', b1, b2, b3, b4⟩ := stepMerges_safe h hv hd (switchTime_bounds h hv _ a3.nonneg (h.idem _)).1 (switchTime_rounded h _ _)
    (first && decide (k = 0)) (n := n + slotStart slots k) a3.double
  rw [a4, Out.ok.injEq] at b1
  subst b1
  exact ⟨by simpa using b2, b4, b3⟩

/-- All of them, in order. -/
theorem Slots.merges_sorted (h : Rounding fl) (hv : ValidRounded fl cfg) (hd : 0 < dT) {half first : Bool} {prev : K} {n : Nat}
    {l : List (Ptr K)} {slots : List Slot} {ms : List (List Nat)} (hs : Slots fl (effective fl cfg) dT half first prev n l slots ms) :
    ms.flatten.Pairwise (· ≤ ·) ∧ ∀ m ∈ ms.flatten, n ≤ m ∧ m ≤ n + total (slotSegs true slots) := by
  induction hs with
  | nil => simp
  | cons first prev n q l s ss ms mss h1 h2 h3 ih =>
    obtain ⟨i1, i2⟩ := ih
    have ht : total (slotSegs true (s :: ss)) = s.ds + s.ss + total (slotSegs true ss) := by
      simp [slotSegs, total_segs]
    obtain ⟨ms', b1, -, b3, b4⟩ := stepMerges_safe h hv hd (switchTime_bounds h hv _ h1.nonneg (h.idem _)).1 (switchTime_rounded h _ _)
      first (n := n) h1.double
    rw [h2, Out.ok.injEq] at b1
    subst b1
    rw [List.flatten_cons]
    refine ⟨?_, ?_⟩
    · rw [List.pairwise_append]
      refine ⟨b4.imp (fun h => h.le), i1, fun a ha b hb => ?_⟩
      have := b3 a ha; have := i2 b hb; omega
    · intro m hm
      rw [ht]
      rcases List.mem_append.mp hm with hm | hm
      · have := b3 m hm; omega
      · have := i2 m hm; omega

/-! ## Settings -/

theorem run_valid (h : Rounding fl) {s : GenSettings K} (hs : ValidRounded fl s) (o : GenSettings.Op K) (ho : ArgsRounded fl o) :
    ValidRounded fl (run fl s o).2 := by
  have merge : ∀ a b, ValidRounded fl (s.setMergePointRatios a b).2 := by
    intro a b
    unfold GenSettings.setMergePointRatios
    split_ifs with h1 h2 h3
    · exact hs
    · exact hs
    · exact hs
    · rw [not_or, not_lt, not_lt] at h1 h2
      exact ⟨hs.1, hs.2, hs.3, hs.4, hs.5, hs.6, h1.1, not_lt.mp h3, h2.2⟩
  cases o with
  | setSwitchOverSwingRatio r =>
    simp only [run]
    split_ifs with h1
    · exact hs
    · have h1 := not_le.mp h1
      have h2 : r ≤ fl (1 + r) := le_fl h ho (by linarith)
      have h3 : 0 < fl (1 + r) := by linarith
      exact ⟨fl_nonneg h (div_nonneg h1.le h3.le), fl_le h h.one ((div_le_one h3).mpr h2), hs.3, hs.4, hs.5, hs.6, hs.7, hs.8, hs.9⟩
  | setTerminalHalfSwitchTime x =>
    simp only [run, GenSettings.run]
    split_ifs with h1
    · exact hs
    · exact ⟨hs.1, hs.2, not_le.mp h1, hs.4, hs.5, hs.6, hs.7, hs.8, hs.9⟩
  | setPauseActive b => exact ⟨hs.1, hs.2, hs.3, hs.4, hs.5, hs.6, hs.7, hs.8, hs.9⟩
  | setPauseConditions m n =>
    simp only [run, GenSettings.run]
    split_ifs with h1 h2 h3
    · exact hs
    · exact hs
    · exact hs
    · exact ⟨hs.1, hs.2, hs.3, not_le.mp h2, ho, not_lt.mp h3, hs.7, hs.8, hs.9⟩
  | setMergePointRatio r => exact merge r r
  | setMergePointRatios a b => exact merge a b
  | disablePauseConditions => exact ⟨hs.1, hs.2, hs.3, hs.4, hs.5, hs.6, hs.7, hs.8, hs.9⟩

theorem runAll_valid (h : Rounding fl) (ops : List (GenSettings.Op K)) (ho : ∀ o ∈ ops, ArgsRounded fl o) :
    ValidRounded fl (runAll fl GenSettings.new ops) := by
  have h0 : ValidRounded fl (GenSettings.new : GenSettings K) :=
    ⟨by norm_num [GenSettings.new], by norm_num [GenSettings.new], by norm_num [GenSettings.new], by norm_num [GenSettings.new], h.two,
      by norm_num [GenSettings.new], by norm_num [GenSettings.new], by norm_num [GenSettings.new], by norm_num [GenSettings.new]⟩
  unfold runAll
  generalize (GenSettings.new : GenSettings K) = s at h0
  induction ops generalizing s with
  | nil => exact h0
  | cons o ops ih => exact ih (fun x hx => ho x (by simp [hx])) _ (run_valid h h0 o (ho o (by simp)))

end Uni.Rounded
