import Verif.Lemmas.Merges

/-! # C34–C39, C60: ordering of the steps and phases of the feet

`timeline` is `generateFromFootPrints` up to (excluding) the trajectory generators; `sorted` is whatever the unstable
sort returns (`SortedPtrs`).  `t.left`, `t.right` are the vectors returned by `getStepPhases`, `t.merges` the one returned
by `getMergePoints`. -/

set_option autoImplicit false
set_option linter.unusedSectionVars false

namespace Uni.Gen
open Spec

section
variable {K : Type} [Field K] [LinearOrder K] [IsStrictOrderedRing K] [FloorRing K]
variable {cfg : GenSettings K} {left right : FootPrint K} {initTime dT : K} {sorted ordered : List (Ptr K)} {t : Timing K}

/-! ## C34 -/

/-- C34: both phase vectors have the length announced by the last phase shift; the shifts start at zero and never
decrease; between two consecutive shifts each foot is in one phase. -/
theorem C34_partition (h : timeline cfg left right initTime dT sorted = .ok (ordered, t)) :
    t.left.length = t.right.length ∧ t.shifts.getLast? = some t.left.length ∧ t.shifts.head? = some 0 ∧
    t.shifts.Pairwise (· ≤ ·) ∧
    ∀ i a b, t.shifts[i]? = some a → t.shifts[i + 1]? = some b →
      ∃ pl pr, ∀ j, a ≤ j → j < b → t.left[j]? = some pl ∧ t.right[j]? = some pr := by
  obtain ⟨l, r, tt, hr⟩ := timeline_ok h
  have e1 := hr.built.left
  have e2 := hr.built.right
  have e3 := hr.built.shifts
  have hne : tt.segs true ≠ [] := by simp [Timetable.segs]
  refine ⟨by rw [e1, e2, Timetable.length_phases, Timetable.length_phases], ?_, by rw [e3]; rfl, ?_, ?_⟩
  · rw [e3, e1, Timetable.length_phases, Timetable.shifts]
    have h1 := getLastD_ends 0 0 _ hne
    have h2 : ends 0 (tt.segs true) ≠ [] := by
      intro hc; apply hne; rw [← List.length_eq_zero_iff, ← length_ends 0, hc]; rfl
    rw [List.getLast?_cons]
    rw [List.getLastD_eq_getLast?] at h1
    rw [h1, Nat.zero_add]
  · rw [e3, Timetable.shifts, List.pairwise_cons]
    exact ⟨fun _ _ => Nat.zero_le _, ends_pairwise _ _⟩
  · intro i a b ha hb
    rw [e3] at ha hb
    have key : ∀ f, ∃ p, ∀ j, a ≤ j → j < b → (tt.phases f)[j]? = some p := by
      intro f
      rw [Timetable.shifts_eq tt f] at ha hb
      rw [List.getElem?_cons_succ] at hb
      have hi : i < (tt.segs f).length := by
        rw [← length_ends 0]; exact (List.getElem?_eq_some_iff.mp hb).1
      rw [ends_getElem _ _ _ hi] at hb
      have ha' : a = total ((tt.segs f).take i) := by
        cases i with
        | zero => simp at ha; simp [← ha]
        | succ i =>
          rw [List.getElem?_cons_succ, ends_getElem _ _ _ (by omega)] at ha
          simpa using ha.symm
      refine ⟨(tt.segs f)[i].1, fun j h1 h2 => expand_getElem _ i _ (List.getElem?_eq_getElem hi) j (by omega) ?_⟩
      have : b = total ((tt.segs f).take (i + 1)) := by simpa using hb.symm
      omega
    obtain ⟨pl, hpl⟩ := key true
    obtain ⟨pr, hpr⟩ := key false
    exact ⟨pl, pr, fun j h1 h2 => by rw [e1, e2]; exact ⟨hpl j h1 h2, hpr j h1 h2⟩⟩

/-! ## C35 -/

/-- C35: at every sample the feet are in complementary phases. -/
theorem C35_complementary (h : timeline cfg left right initTime dT sorted = .ok (ordered, t)) (j : Nat)
    (hj : j < t.left.length) : ∃ a b, t.left[j]? = some a ∧ t.right[j]? = some b ∧ Complementary a b := by
  obtain ⟨l, r, tt, hr⟩ := timeline_ok h
  rw [hr.built.left] at hj ⊢
  rw [hr.built.right]
  rw [Timetable.length_phases] at hj
  exact complementary_runs tt j hj

/-- C35: the standing flag of a foot is false exactly during its swing; exactly one foot is the fixed one
(`leftFixed` of the right phases is the right foot's turn), and the fixed foot stands. -/
theorem C35_support (h : timeline cfg left right initTime dT sorted = .ok (ordered, t)) (j : Nat)
    (hj : j < t.left.length) :
    ∃ cl cr fl fr, (contacts t.left)[j]? = some cl ∧ (contacts t.right)[j]? = some cr ∧
      (leftFixed t.left)[j]? = some fl ∧ (leftFixed t.right)[j]? = some fr ∧
      (cl = false ↔ t.left[j]? = some .swing) ∧ (cr = false ↔ t.right[j]? = some .swing) ∧
      (cl || cr) = true ∧ fl = !fr ∧ (fl = true → cl = true) ∧ (fl = false → cr = true) := by
  obtain ⟨a, b, ha, hb, hc⟩ := C35_complementary h j hj
  refine ⟨decide (a ≠ .swing), decide (b ≠ .swing), decide (a = .stance ∨ a = .switchOut),
    decide (b = .stance ∨ b = .switchOut), ?_, ?_, ?_, ?_, ?_, ?_, ?_, ?_, ?_, ?_⟩
  · simp [contacts, ha]
  · simp [contacts, hb]
  · simp [leftFixed, ha]
  · simp [leftFixed, hb]
  · simp [ha]
  · simp [hb]
  all_goals cases a <;> cases b <;> simp [Complementary] at hc ⊢

/-! ## C36 -/

/-- C36: every sequence of setter calls leaves valid settings. -/
theorem C36_settings (ops : List (GenSettings.Op K)) : ValidTimings ((GenSettings.new : GenSettings K).runAll ops) := by
  have h0 : ValidTimings (GenSettings.new : GenSettings K) := by
    constructor <;> simp [GenSettings.new] <;> norm_num
  have hstep : ∀ (s : GenSettings K) o, ValidTimings s → ValidTimings (s.run o).2 := by
    intro s o hs
    have merge : ∀ a b, ValidTimings (s.setMergePointRatios a b).2 := by
      intro a b
      unfold GenSettings.setMergePointRatios
      split_ifs with h1 h2 h3
      · exact hs
      · exact hs
      · exact hs
      · rw [not_or, not_lt, not_lt] at h1 h2
        exact ⟨hs.1, hs.2, hs.3, hs.4, hs.5, h1.1, not_lt.mp h3, h2.2⟩
    cases o with
    | setSwitchOverSwingRatio r =>
      simp only [GenSettings.run]
      split_ifs with h1
      · exact hs
      · have h1 := not_le.mp h1
        refine ⟨div_pos h1 (by linarith), ?_, hs.3, hs.4, hs.5, hs.6, hs.7, hs.8⟩
        show r / (1 + r) < 1
        rw [div_lt_one (by linarith)]; linarith
    | setTerminalHalfSwitchTime x =>
      simp only [GenSettings.run]
      split_ifs with h1
      · exact hs
      · exact ⟨hs.1, hs.2, not_le.mp h1, hs.4, hs.5, hs.6, hs.7, hs.8⟩
    | setPauseActive b => exact ⟨hs.1, hs.2, hs.3, hs.4, hs.5, hs.6, hs.7, hs.8⟩
    | setPauseConditions m n =>
      simp only [GenSettings.run]
      split_ifs with h1 h2 h3
      · exact hs
      · exact hs
      · exact hs
      · exact ⟨hs.1, hs.2, hs.3, not_le.mp h2, not_lt.mp h3, hs.6, hs.7, hs.8⟩
    | setMergePointRatio r => exact merge r r
    | setMergePointRatios a b => exact merge a b
    | disablePauseConditions => exact ⟨hs.1, hs.2, hs.3, hs.4, hs.5, hs.6, hs.7, hs.8⟩
  unfold GenSettings.runAll
  generalize (GenSettings.new : GenSettings K) = s at h0
  induction ops generalizing s with
  | nil => exact h0
  | cons o ops ih => exact ih _ (hstep _ _ h0)

/-- C36 (partial): the swing samples and the merge points of the steps never wrap and no negative duration is converted,
except in two situations: the walk is entirely in the past (the expected duration is negative when it is converted to a
size, before the check that would refuse the request), or the final double support rounds to no sample
(the index of the last sample may wrap).  Missing for the full property: the code does not exclude these two, see the
witnesses below. -/
theorem C36_no_wrap_partial (hv : ValidTimings cfg) (hs : SortedPtrs left right sorted)
    (hend : dT / 2 ≤ cfg.endSwitch)
    (hlate : ∃ s ∈ left.steps ++ right.steps, initTime - dT < s.impactTime + cfg.endSwitch) (w : UB) :
    timeline cfg left right initTime dT sorted ≠ .ub w := by
  intro h
  rcases timeline_ub hv hs h with ⟨-, -, h⟩ | ⟨-, h, -⟩
  · obtain ⟨s, hs, hl⟩ := hlate
    linarith [h s hs]
  · linarith

/-- C36: exactly which kind of undefined behaviour can occur. -/
theorem C36_only_two_ways (hv : ValidTimings cfg) (hs : SortedPtrs left right sorted) (w : UB)
    (h : timeline cfg left right initTime dT sorted = .ub w) :
    (w = .negativeToUnsigned ∧ 2 < left.steps.length + right.steps.length ∧
      ∀ s ∈ left.steps ++ right.steps, s.impactTime + cfg.endSwitch ≤ initTime - dT) ∨
    (w = .unsignedWrap ∧ cfg.endSwitch < dT / 2 ∧ 2 < left.steps.length + right.steps.length) := timeline_ub hv hs h

/-- C36: with one step per foot nothing can go wrong. -/
theorem C36_standing (hv : ValidTimings cfg) (hs : SortedPtrs left right sorted) (hl : left.steps.length = 1)
    (hr : right.steps.length = 1) (w : UB) : timeline cfg left right initTime dT sorted ≠ .ub w := by
  intro h
  rcases timeline_ub hv hs h with ⟨-, h, -⟩ | ⟨-, -, h⟩ <;> omega

/-! ## C37 -/

/-- C37: the `k`-th step after the first two lands at the end of the `k`-th swing; the double support before the swing,
the swing and the foot that swings are as planned and the end of the swing, converted to time, is within half a sample
of the planned landing. -/
theorem C37_no_drift (hs : SortedPtrs left right sorted)
    (h : timeline cfg left right initTime dT sorted = .ok (ordered, t)) (k : Nat) (q : Ptr K)
    (hq : ordered[k + 2]? = some q) :
    ∃ a b c, t.shifts[2 * k]? = some a ∧ t.shifts[2 * k + 1]? = some b ∧ t.shifts[2 * k + 2]? = some c ∧ a ≤ b ∧ b ≤ c ∧
      (∀ j, a ≤ j → j < b → (if q.left then t.left else t.right)[j]? = some .switchOut ∧
        (if q.left then t.right else t.left)[j]? = some .switchIn) ∧
      (∀ j, b ≤ j → j < c → (if q.left then t.left else t.right)[j]? = some .swing ∧
        (if q.left then t.right else t.left)[j]? = some .stance) ∧
      |initTime + (c : K) * dT - q.step.impactTime| ≤ dT / 2 := by
  obtain ⟨l, r, tt, hr⟩ := timeline_ok h
  obtain ⟨hperm, -, -⟩ := orderSteps_ok hr.order hs.2
  have hq' : (ordered.drop 2)[k]? = some q := by rw [List.getElem?_drop, Nat.add_comm]; exact hq
  rcases hr.built.cases with ⟨h2, -⟩ | ⟨-, ms, hsl, -⟩
  · rw [List.drop_of_length_le (by omega)] at hq'; simp at hq'
  · obtain ⟨s, h1, h2⟩ := hsl.get.2 k q hq'
    obtain ⟨a1, a2, a3⟩ := shifts_slot tt k s h1
    have hl := h2.left
    have hdrift := h2.drift hr.dT_pos
    refine ⟨_, _, _, by rw [hr.built.shifts]; exact a1, by rw [hr.built.shifts]; exact a2,
      by rw [hr.built.shifts]; exact a3, by omega, by omega, ?_, ?_, ?_⟩
    · intro j b1 b2
      have p1 := (phases_slot tt true k s h1).1 j b1 b2
      have p2 := (phases_slot tt false k s h1).1 j b1 b2
      rw [hl] at p1 p2
      rw [hr.built.left, hr.built.right]
      cases hb : q.left <;> rw [hb] at p1 p2 <;> simp at p1 p2 ⊢ <;> exact ⟨by assumption, by assumption⟩
    · intro j b1 b2
      have p1 := (phases_slot tt true k s h1).2 j b1 b2
      have p2 := (phases_slot tt false k s h1).2 j b1 b2
      rw [hl] at p1 p2
      rw [hr.built.left, hr.built.right]
      cases hb : q.left <;> rw [hb] at p1 p2 <;> simp at p1 p2 ⊢ <;> exact ⟨by assumption, by assumption⟩
    · have e : initTime + ((slotStart tt.slots k + s.ds + s.ss : Nat) : K) * dT - q.step.impactTime =
          initTime + ((0 + slotStart tt.slots k : Nat) : K) * dT + ((s.ds + s.ss : Nat) : K) * dT - q.step.impactTime := by
        push_cast; ring
      rw [e]; exact hdrift

/-- C37: the steps after the first two are, foot by foot and in order, all the steps of the footprints but the first of
each foot: the `i`-th swing of a foot leads to its step number `i + 1`. -/
theorem C37_all_steps (hs : SortedPtrs left right sorted)
    (h : timeline cfg left right initTime dT sorted = .ok (ordered, t)) :
    (∀ k q, ordered[k + 2]? = some q →
      q.index = 1 + ((ordered.drop 2).take k).countP (fun p => p.left == q.left) ∧
      (if q.left then left.steps else right.steps)[q.index]? = some q.step) ∧
    (ordered.drop 2).countP (fun p => p.left == true) + 1 = left.steps.length ∧
    (ordered.drop 2).countP (fun p => p.left == false) + 1 = right.steps.length ∧
    t.shifts.length = 2 * (ordered.drop 2).length + 2 := by
  obtain ⟨l, r, tt, hr⟩ := timeline_ok h
  obtain ⟨hperm, -, -⟩ := orderSteps_ok hr.order hs.2
  refine ⟨fun k q hq => ?_, (hr.counts hs).1, (hr.counts hs).2, ?_⟩
  · have hq' : (ordered.drop 2)[k]? = some q := by rw [List.getElem?_drop, Nat.add_comm]; exact hq
    refine ⟨?_, ?_⟩
    · rcases hr.built.cases with ⟨h2, -⟩ | ⟨-, ms, -, -, -, hc, -⟩
      · rw [List.drop_of_length_le (by omega)] at hq'; simp at hq'
      · have := hc.get k q hq'
        simpa using this
    · exact mem_ofFeet.mp ((hperm.trans hs.1).mem_iff.mp (List.mem_of_getElem? hq))
  · rw [hr.built.shifts, Timetable.shifts]
    have : tt.slots.length = (ordered.drop 2).length := by
      rcases hr.built.cases with ⟨h2, h3, -⟩ | ⟨-, ms, hsl, -⟩
      · rw [List.drop_of_length_le (by omega), h3]; rfl
      · exact hsl.get.1.symm
    simp only [List.length_cons, length_ends, segs_eq, List.length_append, slotSegs_length, List.length_nil]
    omega

/-! ## C38 -/

/-- C38: with more than one step per foot, the merge points are 0, for every step but the first one a non-empty run of
samples of the double support that precedes its swing (end included), and the last sample. -/
theorem C38_inside (hv : ValidTimings cfg)
    (h : timeline cfg left right initTime dT sorted = .ok (ordered, t)) (h2 : ordered.length ≠ 2) :
    ∃ groups : List (List Nat), t.merges = 0 :: groups.flatten ++ [t.left.length - 1] ∧
      groups.length = ordered.length - 2 ∧
      ∀ k g, groups[k]? = some g → (g = [] ↔ k = 0) ∧ ∃ a b, t.shifts[2 * k]? = some a ∧ t.shifts[2 * k + 1]? = some b ∧
        ∀ m ∈ g, a ≤ m ∧ m ≤ b := by
  obtain ⟨l, r, tt, hr⟩ := timeline_ok h
  rcases hr.built.cases with ⟨hc, -⟩ | ⟨-, ms, hsl, h0, hm, -⟩
  · exact absurd hc h2
  · obtain ⟨gs, e1, e2, e3⟩ := hsl.groups hv hr.dT_pos
    refine ⟨gs, ?_, ?_, fun k g hg => ?_⟩
    · rw [hm, e2, hr.built.left, Timetable.length_phases]
    · rw [e1, ← hsl.get.1]; simp
    · have hk : k < tt.slots.length := by rw [← e1]; exact (List.getElem?_eq_some_iff.mp hg).1
      have hk' : tt.slots[k]? = some tt.slots[k] := List.getElem?_eq_getElem hk
      obtain ⟨a, b, c⟩ := e3 k _ g hk' hg
      obtain ⟨s1, s2, -⟩ := shifts_slot tt k _ hk'
      refine ⟨by simpa using a, _, _, by rw [hr.built.shifts]; exact s1, by rw [hr.built.shifts]; exact s2, ?_⟩
      intro m hm; simpa using c m hm

/-- C38 (partial): merge points never decrease and are indices of samples, provided the final double support has a sample.
Missing: without a sample in it the last merge point may be smaller than the one before it
(`C38_decreasing_witness`). -/
theorem C38_nondecreasing_partial (hv : ValidTimings cfg) (hend : dT / 2 ≤ cfg.endSwitch)
    (h : timeline cfg left right initTime dT sorted = .ok (ordered, t)) :
    t.merges.Pairwise (· ≤ ·) ∧ ∀ m ∈ t.merges, m < t.left.length := by
  obtain ⟨l, r, tt, hr⟩ := timeline_ok h
  have hrest : 0 < tt.rest := by
    have h1 := hr.built.rest
    have h2 : 1 / 2 ≤ (effective cfg).endSwitch / dT := by
      rw [le_div_iff₀ hr.dT_pos]
      show 1 / 2 * dT ≤ cfg.endSwitch
      linarith
    have := stdRound_pos h2
    omega
  have hT := total_eq tt
  rw [hr.built.left, Timetable.length_phases]
  rcases hr.built.cases with ⟨-, h3, -, hm, -⟩ | ⟨-, ms, hsl, h0, hm, -⟩
  · rw [hm, List.pairwise_cons]
    refine ⟨⟨fun _ _ => Nat.zero_le _, List.Pairwise.imp (fun h => Nat.le_of_lt h) List.pairwise_lt_range'⟩, ?_⟩
    intro m hm
    rw [List.mem_cons, List.mem_range'_1] at hm
    omega
  · obtain ⟨g1, g2, -⟩ := hsl.merges_sorted hv hr.dT_pos
    have e : slotStart tt.slots tt.slots.length = total (slotSegs true tt.slots) := by unfold slotStart; rw [List.take_length]
    rw [hm]
    refine ⟨?_, ?_⟩
    · rw [List.cons_append, List.pairwise_cons]
      refine ⟨fun _ _ => Nat.zero_le _, ?_⟩
      rw [List.pairwise_append]
      refine ⟨g1, by simp, fun a ha b hb => ?_⟩
      simp only [List.mem_singleton] at hb
      have := g2 a ha; omega
    · intro m hm
      simp only [List.cons_append, List.mem_cons, List.mem_append, List.not_mem_nil, or_false] at hm
      rcases hm with rfl | hm | rfl
      · omega
      · have := g2 m hm; omega
      · omega

/-- C38: if every phase has a sample, the merge points strictly increase (the ZMP generator records one initial state per
merge point and would skip those that follow a repeated one). -/
theorem C38_strict (hv : ValidTimings cfg) (hs : SortedPtrs left right sorted)
    (h : timeline cfg left right initTime dT sorted = .ok (ordered, t)) (hpos : t.shifts.Pairwise (· < ·)) :
    t.merges.Pairwise (· < ·) ∧ ∀ m ∈ t.merges, m < t.left.length := by
  obtain ⟨l, r, tt, hr⟩ := timeline_ok h
  have hT := total_eq tt
  have e : slotStart tt.slots tt.slots.length = total (slotSegs true tt.slots) := by unfold slotStart; rw [List.take_length]
  rw [hr.built.shifts] at hpos
  have hslots : ∀ s ∈ tt.slots, 0 < s.ds ∧ 0 < s.ss := by
    intro s hs
    obtain ⟨k, hk⟩ := List.getElem?_of_mem hs
    obtain ⟨a1, a2, a3⟩ := shifts_slot tt k s hk
    obtain ⟨b1, c1⟩ := List.getElem?_eq_some_iff.mp a1
    obtain ⟨b2, c2⟩ := List.getElem?_eq_some_iff.mp a2
    obtain ⟨b3, c3⟩ := List.getElem?_eq_some_iff.mp a3
    have d1 := List.pairwise_iff_getElem.mp hpos _ _ b1 b2 (by omega)
    have d2 := List.pairwise_iff_getElem.mp hpos _ _ b2 b3 (by omega)
    omega
  have hrest : 0 < tt.rest := by
    have e' : tt.shifts = (0 :: ends 0 (slotSegs true tt.slots)) ++ [total (slotSegs true tt.slots) + tt.rest] := by
      rw [Timetable.shifts, segs_eq, ends_append]; simp [ends]
    rw [e', List.pairwise_append] at hpos
    have hlast : total (slotSegs true tt.slots) ∈ (0 :: ends 0 (slotSegs true tt.slots)) := by
      by_cases hne : slotSegs true tt.slots = []
      · rw [hne]; simp
      · right
        have := getLastD_ends 0 0 _ hne
        rw [Nat.zero_add] at this
        have h2 : ends 0 (slotSegs true tt.slots) ≠ [] := by
          intro hc; apply hne; rw [← List.length_eq_zero_iff, ← length_ends 0, hc]; rfl
        rw [List.getLastD_eq_getLast?, List.getLast?_eq_some_getLast h2] at this
        simp only [Option.getD_some] at this
        rw [← this]; exact List.getLast_mem h2
    have := hpos.2.2 _ hlast (total (slotSegs true tt.slots) + tt.rest) (by simp)
    omega
  rw [hr.built.left, Timetable.length_phases]
  rcases hr.built.cases with ⟨-, h3, -, hm, -⟩ | ⟨hne2, ms, hsl, h0, hm, -⟩
  · rw [hm, List.pairwise_cons]
    refine ⟨⟨fun m hm => ?_, List.pairwise_lt_range'⟩, fun m hm => ?_⟩
    · rw [List.mem_range'_1] at hm; omega
    · rw [List.mem_cons, List.mem_range'_1] at hm; omega
  · obtain ⟨-, g2, g3, g4⟩ := hsl.merges_sorted hv hr.dT_pos
    obtain ⟨g3, g5⟩ := g3 (fun s hs => (hslots s hs).2)
    have hms : ∀ m ∈ ms, 0 < m := by
      intro m hm
      cases hsl' : tt.slots with
      | nil => rw [hsl'] at g5; have := g5 m hm; simp [slotSegs] at this
      | cons s ss =>
        have := g4 rfl s (by rw [hsl']; rfl) m hm
        have := hslots s (by rw [hsl']; simp)
        omega
    rw [hm]
    refine ⟨?_, ?_⟩
    · rw [List.cons_append, List.pairwise_cons]
      refine ⟨fun m hm => ?_, ?_⟩
      · rcases List.mem_append.mp hm with hm | hm
        · exact hms m hm
        · simp only [List.mem_singleton] at hm
          have : slotStart tt.slots tt.slots.length ≠ 0 := by
            intro hc
            cases hsl' : tt.slots with
            | nil =>
              have h2 := hsl.get.1
              rw [hsl'] at h2
              obtain ⟨hperm, -, -⟩ := orderSteps_ok hr.order hs.2
              have hlen : ordered.length = left.steps.length + right.steps.length := by
                rw [(hperm.trans hs.1).length_eq, ofFeet_length]
              have hL := hr.counts hs
              simp at h2; omega
            | cons s ss =>
              rw [hsl'] at hc
              have := slotStart_succ (s :: ss) 0 s rfl
              have hp := hslots s (by rw [hsl']; simp)
              rw [e] at hT
              rw [hsl'] at hT
              simp [slotStart, slotSegs, total_segs] at hc
              omega
          omega
      · rw [List.pairwise_append]
        refine ⟨g3, by simp, fun a ha b hb => ?_⟩
        simp only [List.mem_singleton] at hb
        have := g5 a ha; omega
    · intro m hm
      simp only [List.cons_append, List.mem_cons, List.mem_append, List.not_mem_nil, or_false] at hm
      rcases hm with rfl | hm | rfl
      · omega
      · have := g2 m hm; omega
      · omega

/-! ## C39 -/

/-- C39: the merged list is a permutation of the steps of both feet, in time order, and strictly increasing after the
first two, which are the first steps of the two feet. -/
theorem C39_ordered (hs : SortedPtrs left right sorted)
    (h : timeline cfg left right initTime dT sorted = .ok (ordered, t)) :
    (ordered.map Ptr.step).Perm (left.steps ++ right.steps) ∧
    ordered.Pairwise (fun a b => a.step.impactTime ≤ b.step.impactTime) ∧
    (ordered.drop 2).Pairwise (fun a b => a.step.impactTime < b.step.impactTime) ∧
    ∃ l r, left.steps.head? = some l ∧ right.steps.head? = some r ∧
      ((ordered.take 2).map Ptr.step = [l, r] ∨ (ordered.take 2).map Ptr.step = [r, l]) := by
  obtain ⟨l, r, tt, hr⟩ := timeline_ok h
  obtain ⟨hperm, h1, h2⟩ := orderSteps_ok hr.order hs.2
  refine ⟨?_, h1, h2, l, r, hr.headL, hr.headR, ?_⟩
  · have := (hperm.trans hs.1).map Ptr.step
    refine this.trans (List.Perm.of_eq ?_)
    unfold Ptr.ofFeet Ptr.ofFoot
    rw [List.map_append, List.map_map, List.map_map]
    have : ∀ b, (Ptr.step ∘ fun p : Step K × Nat => (⟨b, p.2, p.1⟩ : Ptr K)) = Prod.fst := fun b => rfl
    rw [this, this, List.zipIdx_map_fst, List.zipIdx_map_fst]
  · rcases hr.front hs with h | h
    · left; rw [h]; rfl
    · right; rw [h]; rfl

/-- C39: two steps with the same landing time after the first two in time order make the generation fail, however the sort
arranges ties. -/
theorem C39_simultaneous_refused (hs : SortedPtrs left right sorted) (i : Nat) (a b : Ptr K)
    (ha : sorted[i + 2]? = some a) (hb : sorted[i + 3]? = some b) (hab : a.step.impactTime = b.step.impactTime) :
    timeline cfg left right initTime dT sorted = .fail := by
  cases h : timeline cfg left right initTime dT sorted with
  | fail => rfl
  | ok r =>
    obtain ⟨ordered, t⟩ := r
    obtain ⟨l, r, tt, hr⟩ := timeline_ok h
    exfalso
    obtain ⟨-, -, h2⟩ := orderSteps_ok hr.order hs.2
    have hd : sorted.drop 2 = ordered.drop 2 := by
      have ho := hr.order
      unfold orderSteps at ho
      split at ho
      · cases ho; rfl
      · cases ho
      · split_ifs at ho
        split at ho
        · cases ho; rfl
        · split_ifs at ho <;> cases ho <;> rfl
    rw [← hd] at h2
    have ha' : (sorted.drop 2)[i]? = some a := by rw [List.getElem?_drop, Nat.add_comm]; exact ha
    have hb' : (sorted.drop 2)[i + 1]? = some b := by rw [List.getElem?_drop, Nat.add_comm]; exact hb
    obtain ⟨b1, c1⟩ := List.getElem?_eq_some_iff.mp ha'
    obtain ⟨b2, c2⟩ := List.getElem?_eq_some_iff.mp hb'
    have := List.pairwise_iff_getElem.mp h2 _ _ b1 b2 (by omega)
    rw [c1, c2, hab] at this
    exact lt_irrefl _ this
  | ub w =>
    exfalso
    unfold timeline at h
    split at h
    · split_ifs at h
      cases ho : orderSteps sorted with
      | fail => rw [ho] at h; simp at h
      | ub w => have := orderSteps_ub ho; have := (List.getElem?_eq_some_iff.mp hb).1; omega
      | ok o =>
        obtain ⟨-, -, h2⟩ := orderSteps_ok ho hs.2
        have hd : sorted.drop 2 = o.drop 2 := by
          unfold orderSteps at ho
          split at ho
          · cases ho; rfl
          · cases ho
          · split_ifs at ho
            split at ho
            · cases ho; rfl
            · split_ifs at ho <;> cases ho <;> rfl
        rw [← hd] at h2
        have ha' : (sorted.drop 2)[i]? = some a := by rw [List.getElem?_drop, Nat.add_comm]; exact ha
        have hb' : (sorted.drop 2)[i + 1]? = some b := by rw [List.getElem?_drop, Nat.add_comm]; exact hb
        obtain ⟨b1, c1⟩ := List.getElem?_eq_some_iff.mp ha'
        obtain ⟨b2, c2⟩ := List.getElem?_eq_some_iff.mp hb'
        have := List.pairwise_iff_getElem.mp h2 _ _ b1 b2 (by omega)
        rw [c1, c2, hab] at this
        exact lt_irrefl _ this
    · cases h

/-! ## C60 -/

/-- C60: the element past the end of a step list is accessed exactly when there are steps after the first two and the
last one is a right one. -/
theorem C60_past_end_iff (hs : SortedPtrs left right sorted)
    (h : timeline cfg left right initTime dT sorted = .ok (ordered, t)) :
    t.pastEnd = true ↔ ∃ q, (ordered.drop 2).getLast? = some q ∧ q.left = false := by
  obtain ⟨l, r, tt, hr⟩ := timeline_ok h
  obtain ⟨c1, c2⟩ := hr.counts hs
  rcases hr.built.cases with ⟨h2, -, -, -, hp⟩ | ⟨-, ms, -, -, -, -, hp⟩
  · rw [hp, List.drop_of_length_le (by omega)]; simp
  · rw [hp]; exact pastEnd_iff _ _ _ _ _ (by omega) (by omega)

/-- C60 (partial): no step list is read past its end if the walk ends with a left step (or has no step).
Missing: the other walks, for which the code does it (`C60_past_end_iff`, `C60_past_end_witness`). -/
theorem C60_in_bounds_partial (hs : SortedPtrs left right sorted)
    (h : timeline cfg left right initTime dT sorted = .ok (ordered, t))
    (hlast : ∀ q, (ordered.drop 2).getLast? = some q → q.left = true) : t.pastEnd = false := by
  by_contra hc
  rw [Bool.not_eq_false, C60_past_end_iff hs h] at hc
  obtain ⟨q, h1, h2⟩ := hc
  rw [hlast q h1] at h2
  cases h2

end

/-! ## Witnesses and non-vacuity -/

section
open Gen

private def st (t : ℚ) (n : String) : Step ℚ := ⟨⟨0, 0⟩, 0, t, n⟩
private def lf (ts : List ℚ) : FootPrint ℚ := ⟨ts.map (st · "left"), "left"⟩
private def rf (ts : List ℚ) : FootPrint ℚ := ⟨ts.map (st · "right"), "right"⟩
private def pl (i : Nat) (t : ℚ) : Ptr ℚ := ⟨true, i, st t "left"⟩
private def pr (i : Nat) (t : ℚ) : Ptr ℚ := ⟨false, i, st t "right"⟩

/-- A walk of three steps, with merge points inside the second and third double supports. -/
example : SortedPtrs (lf [0, 1, 3]) (rf [0, 2]) [pl 0 0, pr 0 0, pl 1 1, pr 1 2, pl 2 3] ∧
    (timeline GenSettings.new (lf [0, 1, 3]) (rf [0, 2]) 0 (1 / 4) [pl 0 0, pr 0 0, pl 1 1, pr 1 2, pl 2 3] =
      .ok ([pl 0 0, pr 0 0, pl 1 1, pr 1 2, pl 2 3],
        ⟨[.switchOut, .switchOut, .swing, .swing, .switchIn, .switchIn, .stance, .stance, .switchOut, .switchOut, .swing,
            .swing, .switchIn, .switchIn, .switchIn, .switchIn],
          [.switchIn, .switchIn, .stance, .stance, .switchOut, .switchOut, .swing, .swing, .switchIn, .switchIn, .stance,
            .stance, .switchOut, .switchOut, .switchOut, .switchOut],
          [0, 2, 4, 6, 8, 10, 12, 16], [0, 5, 9, 15], 3, 2, 3, true, false⟩)) ∧
    ([0, 2, 4, 6, 8, 10, 12, 16] : List Nat).Pairwise (· < ·) ∧ (1 / 4 : ℚ) / 2 ≤ (GenSettings.new : GenSettings ℚ).endSwitch := by
  unfold SortedPtrs; decide +kernel

/-- Standing on two steps. -/
example : SortedPtrs (lf [0]) (rf [1]) [pl 0 0, pr 0 1] ∧
    timeline GenSettings.new (lf [0]) (rf [1]) 1 (1 / 2) [pl 0 0, pr 0 1] =
      .ok ([pl 0 0, pr 0 1], ⟨[.switchOut, .switchOut], [.switchIn, .switchIn], [0, 2], [0, 1], 1, 1, 1, false, false⟩) := by
  unfold SortedPtrs; decide +kernel

/-- C36: a walk entirely in the past makes a negative duration be converted to a size. -/
theorem C36_past_walk_witness :
    ValidTimings (GenSettings.new : GenSettings ℚ) ∧ SortedPtrs (lf [0, 1]) (rf [0]) [pl 0 0, pr 0 0, pl 1 1] ∧
    timeline GenSettings.new (lf [0, 1]) (rf [0]) 3 1 [pl 0 0, pr 0 0, pl 1 1] = .ub .negativeToUnsigned :=
  ⟨C36_settings [], by unfold SortedPtrs; decide +kernel, by decide +kernel⟩

/-- C36: the index of the last sample wraps if there is no sample at all. -/
theorem C36_no_sample_witness :
    SortedPtrs (lf [0, 1 / 10]) (rf [0]) [pl 0 0, pr 0 0, pl 1 (1 / 10)] ∧
    timeline ((GenSettings.new : GenSettings ℚ).runAll [.setTerminalHalfSwitchTime (1 / 10)]) (lf [0, 1 / 10]) (rf [0]) 0 1
      [pl 0 0, pr 0 0, pl 1 (1 / 10)] = .ub .unsignedWrap :=
  ⟨by unfold SortedPtrs; decide +kernel, by decide +kernel⟩

/-- C38: the last merge point is smaller than the previous one when the last swing and the final double support have no
sample. -/
theorem C38_decreasing_witness :
    SortedPtrs (lf [0, 3]) (rf [0, 36 / 10]) [pl 0 0, pr 0 0, pl 1 3, pr 1 (36 / 10)] ∧
    ∃ o t, timeline ((GenSettings.new : GenSettings ℚ).runAll
        [.setTerminalHalfSwitchTime (1 / 10), .setSwitchOverSwingRatio 9, .setMergePointRatios 1 1])
      (lf [0, 3]) (rf [0, 36 / 10]) 0 1 [pl 0 0, pr 0 0, pl 1 3, pr 1 (36 / 10)] = .ok (o, t) ∧ t.merges = [0, 4, 3] ∧
      ¬ t.merges.Pairwise (· ≤ ·) := by
  refine ⟨by unfold SortedPtrs; decide +kernel, [pl 0 0, pr 0 0, pl 1 3, pr 1 (36 / 10)],
    ⟨[.switchOut, .switchOut, .switchOut, .switchIn], [.switchIn, .switchIn, .switchIn, .switchOut],
      [0, 3, 3, 4, 4, 4], [0, 4, 3], 2, 2, 4, false, true⟩, ?_⟩
  decide +kernel

/-- C39: two equal landing times among the first three steps are not noticed: the phases are generated, with an empty first
step, if the sort happens to put the first step of the other foot second, and refused otherwise. -/
theorem C39_unnoticed_tie_witness :
    SortedPtrs (lf [0, 1]) (rf [1]) [pl 0 0, pr 0 1, pl 1 1] ∧ SortedPtrs (lf [0, 1]) (rf [1]) [pl 0 0, pl 1 1, pr 0 1] ∧
    (∃ r, timeline (GenSettings.new : GenSettings ℚ) (lf [0, 1]) (rf [1]) 1 1 [pl 0 0, pr 0 1, pl 1 1] = .ok r) ∧
    timeline (GenSettings.new : GenSettings ℚ) (lf [0, 1]) (rf [1]) 1 1 [pl 0 0, pl 1 1, pr 0 1] = .fail := by
  refine ⟨by unfold SortedPtrs; decide +kernel, by unfold SortedPtrs; decide +kernel,
    ⟨([pl 0 0, pr 0 1, pl 1 1], ⟨[.switchIn], [.switchOut], [0, 0, 0, 1], [0, 0], 2, 1, 1, true, false⟩), ?_⟩, ?_⟩ <;>
  decide +kernel

/-- C39: an instance of the refusal. -/
example : SortedPtrs (lf [0, 2]) (rf [0, 2]) [pl 0 0, pr 0 0, pl 1 2, pr 1 2] ∧
    ([pl 0 0, pr 0 0, pl 1 2, pr 1 2] : List (Ptr ℚ))[2]? = some (pl 1 2) ∧
    ([pl 0 0, pr 0 0, pl 1 2, pr 1 2] : List (Ptr ℚ))[3]? = some (pr 1 2) := by
  unfold SortedPtrs; decide +kernel

/-- C60: a walk of two steps ending with the right foot. -/
theorem C60_past_end_witness :
    SortedPtrs (lf [0, 1]) (rf [0, 2]) [pl 0 0, pr 0 0, pl 1 1, pr 1 2] ∧
    ∃ o t, timeline (GenSettings.new : GenSettings ℚ) (lf [0, 1]) (rf [0, 2]) 0 1 [pl 0 0, pr 0 0, pl 1 1, pr 1 2] = .ok (o, t) ∧
      t.pastEnd = true := by
  refine ⟨by unfold SortedPtrs; decide +kernel, [pl 0 0, pr 0 0, pl 1 1, pr 1 2],
    ⟨[.switchOut, .switchIn, .switchOut], [.switchIn, .switchOut, .switchIn],
      [0, 1, 1, 2, 2, 3], [0, 2, 2], 2, 2, 2, false, true⟩, ?_⟩
  decide +kernel

end
end Uni.Gen
