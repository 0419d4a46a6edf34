import Verif.Lemmas.SpecialLift
import Verif.Lemmas.Rounded

/-! # C109: infinities and values that are not numbers

`Special.timeline fl` is `generateFromFootPrints` up to (excluding) the trajectory generators, with the special values of IEEE 754;
`fl` rounds, and may overflow. -/

set_option autoImplicit false
set_option linter.unusedSectionVars false

namespace Uni.Special
open Uni Spec Dbl
variable {K : Type} [Field K] [LinearOrder K] [IsStrictOrderedRing K] [FloorRing K] {fl : K → Dbl K}
variable {c : GenSettings (Dbl K)} {left right : FootPrint (Dbl K)} {initTime dT : Dbl K}
variable {sorted ordered : List (Ptr (Dbl K))} {t : Timing (Dbl K)}

/-- C109: the rounding of C92 that overflows beyond some number is such a rounding. -/
theorem C109_rounding {f : K → K} (hf : Rounding f) {M : K} (hM : 1 ≤ M) : DblRounding (overflow f M) := overflow_rounding hf hM

/-- C109: whatever the setters are called with, the settings stay fit for the claims below. -/
theorem C109_settings (hfl : DblRounding fl) (ops : List (GenSettings.Op (Dbl K))) (ho : ∀ o ∈ ops, ArgsDbl fl o) :
    FitDbl (ops.foldl (fun s o => (run fl s o).2) newDbl) := by
  have key : ∀ (ops : List (GenSettings.Op (Dbl K))) (s : GenSettings (Dbl K)), FitDbl s → (∀ o ∈ ops, ArgsDbl fl o) →
      FitDbl (ops.foldl (fun s o => (run fl s o).2) s) := by
    intro ops
    induction ops with
    | nil => exact fun s hs _ => hs
    | cons o l ih =>
      intro s hs h
      exact ih _ (run_fit hfl hs o (h o (by simp))) fun o' ho' => h o' (List.mem_cons_of_mem _ ho')
  refine key ops _ ⟨?_, ?_, by simp [newDbl]⟩ ho
  · simp [newDbl, lt]
  · simp [newDbl, lt]; norm_num

/-- C109: the phases of a walk are generated only if the sampling period, the initial time, the share of the double support, the
terminal half switch time and the landing times after the first two are numbers; with two steps or more, the merge ratios too. -/
theorem C109_finite (hfl : DblRounding fl) (hc : FitDbl c) (hlen : 2 < ordered.length)
    (h : timeline fl c left right initTime dT sorted = .ok (ordered, t)) :
    (∃ d, dT = num d ∧ 0 < d) ∧ initTime.IsNum ∧ c.switchPercentage.IsNum ∧ c.endSwitch.IsNum ∧
    (∀ q ∈ ordered.drop 2, q.step.impactTime.IsNum) ∧ (3 < ordered.length → c.mergeBegin.IsNum ∧ c.mergeEnd.IsNum) := by
  obtain ⟨h1, h2, h3, h4, h5, h6⟩ := timeline_finite hfl.unit ⟨hc.nonneg, hc.le_one⟩ hc.longest hlen h
  exact ⟨h1, h2, h3, h4, h5, h6⟩

/-- C109: they are then those computed with numbers only (C92), if no landing time is NaN or minus infinity. -/
theorem C109_refines (hfl : DblRounding fl) (hc : FitDbl c) (hs : SortedDbl left right sorted)
    (h0 : ∀ s ∈ left.steps ++ right.steps, s.impactTime ≠ nan ∧ s.impactTime ≠ inf true) (hlen : 2 < ordered.length)
    (h : timeline fl c left right initTime dT sorted = .ok (ordered, t)) :
    (∀ s ∈ left.steps ++ right.steps, s.impactTime.IsNum) ∧
    SortedPtrs (footNumbers left) (footNumbers right) (sorted.map ptrNumbers) ∧
    ∃ t', Rounded.timeline (numbers fl) (cfgNumbers c) (footNumbers left) (footNumbers right) initTime.val dT.val
      (sorted.map ptrNumbers) = .ok (ordered.map ptrNumbers, t') ∧ SamePhases t t' := by
  obtain ⟨h1, h2, t', h3, h4⟩ := timeline_num hfl.unit ⟨hc.nonneg, hc.le_one⟩ hc.longest hs h0 hlen h
  exact ⟨h1, h2, t', h3, h4.left.symm, h4.right.symm, h4.shifts.symm, h4.merges.symm⟩

/-- C109: with numbers only, and as long as nothing overflows, the outcome is that of C92, unless a number of samples does not fit
in a `size_t`, which is undefined behaviour. -/
theorem C109_numbers {f : K → K} (cfg : GenSettings K) (l r : FootPrint K) (i d : K) (ptrs : List (Ptr K))
    (h : f (1 - f (cfg.switchPercentage / 2)) ≠ 0) :
    timeline (fun x => num (f x)) (cfgDbl cfg) (footDbl l) (footDbl r) (num i) (num d) (ptrs.map ptrDbl) = .ub .notRepresentable ∨
    timeline (fun x => num (f x)) (cfgDbl cfg) (footDbl l) (footDbl r) (num i) (num d) (ptrs.map ptrDbl) =
      outMap (fun x => (x.1.map ptrDbl, timingDbl x.2)) (Rounded.timeline f cfg l r i d ptrs) :=
  timeline_agree cfg l r i d ptrs h

theorem length_pos_of (hs : SortedDbl left right sorted) (ha : AcceptedDbl left right initTime dT) (ho : orderSteps sorted = .ok ordered) :
    ∃ last, ordered.getLast? = some last := by
  obtain ⟨-, -, l, ls, r, rs, h1, h2, -⟩ := ha
  have hlen : 2 ≤ sorted.length := by
    rw [hs.1.length_eq]
    simp [Ptr.ofFeet, Ptr.ofFoot, h1, h2]
    omega
  cases h0 : ordered.getLast? with
  | some x => exact ⟨x, rfl⟩
  | none =>
    rw [List.getLast?_eq_none_iff.mp h0] at ho
    unfold orderSteps at ho
    split_ifs at ho
    match sorted, ho, hlen with
    | [a, b], ho, _ => simp [adjacentDup] at ho
    | a :: b :: c :: rest, ho, _ =>
      simp only at ho
      split_ifs at ho <;> simp at ho

/-- C109: a sampling period that is not a number is not refused: the request is undefined behaviour. -/
theorem C109_period (hs : SortedDbl left right sorted) (ha : AcceptedDbl left right initTime nan) (ho : orderSteps sorted = .ok ordered) :
    timeline fl c left right initTime nan sorted = .ub .notRepresentable := by
  obtain ⟨last, hl⟩ := length_pos_of hs ha ho
  exact timeline_ub_num ha ho hl (Or.inl rfl)

/-- C109: so is a request with a terminal half switch time that is infinite or not a number. -/
theorem C109_terminal (hs : SortedDbl left right sorted) (ha : AcceptedDbl left right initTime dT) (ho : orderSteps sorted = .ok ordered)
    (he : ¬ c.endSwitch.IsNum) : timeline fl c left right initTime dT sorted = .ub .notRepresentable := by
  obtain ⟨last, hl⟩ := length_pos_of hs ha ho
  exact timeline_ub_num ha ho hl (Or.inr (Or.inl he))

/-- C109: so is a request for a walk with an initial time or a last landing time that is infinite or not a number. -/
theorem C109_times {last : Ptr (Dbl K)} (ha : AcceptedDbl left right initTime dT) (ho : orderSteps sorted = .ok ordered)
    (hlen : 2 < ordered.length) (hl : ordered.getLast? = some last) (h : ¬ initTime.IsNum ∨ ¬ last.step.impactTime.IsNum) :
    timeline fl c left right initTime dT sorted = .ub .notRepresentable :=
  timeline_ub_num ha ho hl (Or.inr (Or.inr ⟨by omega, h⟩))

/-- C109: a landing time that is not a number makes the sort undefined behaviour, if two other landing times differ. -/
theorem C109_sort (ha : AcceptedDbl left right initTime dT) (hp : sorted.Perm (Ptr.ofFeet left right))
    (hn : ∃ s ∈ left.steps ++ right.steps, s.impactTime = nan)
    (hd : ∃ s ∈ left.steps ++ right.steps, ∃ s' ∈ left.steps ++ right.steps, lt s.impactTime s'.impactTime = true) :
    timeline fl c left right initTime dT sorted = .ub .notAnOrder := by
  refine timeline_ub_sort ha ?_
  have hmem : ∀ s ∈ left.steps ++ right.steps, ∃ p ∈ sorted, p.step = s := by
    intro s hsm
    rw [List.mem_append] at hsm
    rcases hsm with hsm | hsm
    · obtain ⟨i, hi, rfl⟩ := List.getElem_of_mem hsm
      exact ⟨⟨true, i, left.steps[i]⟩, hp.mem_iff.mpr (List.mem_append_left _ (List.mem_map.mpr
        ⟨(left.steps[i], i), by simp [List.mem_zipIdx_iff_getElem?], rfl⟩)), rfl⟩
    · obtain ⟨i, hi, rfl⟩ := List.getElem_of_mem hsm
      exact ⟨⟨false, i, right.steps[i]⟩, hp.mem_iff.mpr (List.mem_append_right _ (List.mem_map.mpr
        ⟨(right.steps[i], i), by simp [List.mem_zipIdx_iff_getElem?], rfl⟩)), rfl⟩
  unfold orderSteps
  rw [if_pos]
  obtain ⟨s, h1, h2⟩ := hn
  obtain ⟨u, h3, v, h4, h5⟩ := hd
  obtain ⟨p, p1, rfl⟩ := hmem _ h1
  obtain ⟨q, q1, rfl⟩ := hmem _ h3
  obtain ⟨w, w1, rfl⟩ := hmem _ h4
  exact ⟨List.any_eq_true.mpr ⟨p, p1, by simpa using h2⟩,
    List.any_eq_true.mpr ⟨q, q1, List.any_eq_true.mpr ⟨w, w1, h5⟩⟩⟩

/-- C109: when there is no step to make, the initial time is used by the check only. -/
theorem C109_standing (initTime' : Dbl K) (hlen : ordered.length = 2) (ha : AcceptedDbl left right initTime' dT)
    (h : timeline fl c left right initTime dT sorted = .ok (ordered, t)) :
    ∃ t', timeline fl c left right initTime' dT sorted = .ok (ordered, t') ∧ SamePhases t t' := by
  obtain ⟨l, ls, r, rs, hl, hr, -, hd, -, ho, hcr⟩ := timeline_split h
  obtain ⟨l', ls', r', rs', hl', hr', e⟩ := timeline_accepted (fl := fl) (c := c) (sorted := sorted) ha
  rw [hl] at hl'
  rw [hr] at hr'
  cases hl'
  cases hr'
  cases hlast : ordered.getLast? with
  | none => rw [List.getLast?_eq_none_iff.mp hlast] at hlen; cases hlen
  | some last =>
    simp only [createPhasesTimings, hlast] at hcr
    rw [if_pos hlen, Out.bind_eq_ok] at hcr
    obtain ⟨n, h1, h2⟩ := hcr
    refine ⟨{ t with prevTime := initTime' }, ?_, rfl, rfl, rfl, rfl⟩
    cases h2
    rw [e, ho, Out.bind_ok]
    simp only [createPhasesTimings, hlast]
    rw [if_pos hlen, h1]
    rfl

/-- C109: the setters do not refuse arguments that are not numbers. -/
theorem C109_setters (s : GenSettings (Dbl K)) (fp : FootPrint (Dbl K)) (step : Step (Dbl K)) :
    run fl s (.setSwitchOverSwingRatio nan) = (true, { s with switchPercentage := nan }) ∧
    run fl s (.setTerminalHalfSwitchTime nan) = (true, { s with endSwitch := nan }) ∧
    run fl s (.setPauseConditions nan nan) = (true, { s with maxStepTime := nan, nominalStepTime := nan }) ∧
    run fl s (.setMergePointRatio nan) = (true, { s with mergeBegin := nan, mergeEnd := nan }) ∧
    run fl s (.setMergePointRatios nan nan) = (true, { s with mergeBegin := nan, mergeEnd := nan }) ∧
    addContact fp { step with impactTime := nan } =
      (true, { fp with steps := fp.steps ++ [{ step with impactTime := nan, footName := fp.footName }] }) := ⟨rfl, rfl, rfl, rfl, rfl, rfl⟩

/-- C109: an infinite ratio is stored as a share that is not a number; an infinite terminal half switch time is stored. -/
theorem C109_infinite (s : GenSettings (Dbl K)) (fp : FootPrint (Dbl K)) (step : Step (Dbl K)) :
    run fl s (.setSwitchOverSwingRatio (inf false)) = (true, { s with switchPercentage := nan }) ∧
    run fl s (.setTerminalHalfSwitchTime (inf false)) = (true, { s with endSwitch := inf false }) ∧
    addContact fp { step with impactTime := inf false } =
      (true, { fp with steps := fp.steps ++ [{ step with impactTime := inf false, footName := fp.footName }] }) := ⟨rfl, rfl, rfl⟩

section
private def fq : ℚ → Dbl ℚ := num
private def sq (t : Dbl ℚ) (n : String) : Step (Dbl ℚ) := ⟨⟨num 0, num 0⟩, num 0, t, n⟩
private def lq : FootPrint (Dbl ℚ) := ⟨[sq (num 0) "l"], "l"⟩
private def rq (t : Dbl ℚ) : FootPrint (Dbl ℚ) := ⟨[sq (num 0) "r", sq t "r"], "r"⟩
private def pq (t : Dbl ℚ) : List (Ptr (Dbl ℚ)) := [⟨true, 0, sq (num 0) "l"⟩, ⟨false, 0, sq (num 0) "r"⟩, ⟨false, 1, sq t "r"⟩]

/-- A rounding, settings and a walk: the theorems speak of something. -/
example : DblRounding fq := by
  refine ⟨fun x h0 h1 => ⟨x, rfl, h0, h1⟩, fun x y h => ?_, fun x h => by cases h⟩
  simpa [fq, lt] using h

example : (match timeline fq newDbl lq (rq (num 4)) (num 0) (num 1) (pq (num 4)) with
    | .ok x => x.1.length | _ => 0) = 3 := by decide +kernel
example : SortedDbl lq (rq (num 4)) (pq (num 4)) := ⟨List.Perm.refl _, by decide +kernel⟩
example : AcceptedDbl lq (rq (num 4)) (num 0) nan := ⟨by decide, by decide, _, _, _, _, rfl, rfl, by decide +kernel⟩
example : timeline fq newDbl lq (rq (num 4)) (num 0) nan (pq (num 4)) = .ub .notRepresentable := by decide +kernel
/-- An infinite sampling period lets the index of the last merge point wrap. -/
example : timeline fq newDbl lq (rq (num 4)) (num 0) (inf false) (pq (num 4)) = .ub .unsignedWrap := by decide +kernel
example : timeline fq newDbl lq (rq (num 4)) nan (num 1) (pq (num 4)) = .ub .notRepresentable := by decide +kernel
example : timeline fq newDbl lq (rq (inf false)) (num 0) (num 1) (pq (inf false)) = .ub .notRepresentable := by decide +kernel
/-- Of three contacts one at NaN: the other ones are equal. -/
example : timeline fq newDbl lq (rq nan) (num 0) (num 1) (pq nan) = .ub .notRepresentable := by decide +kernel
/-- Two contacts that differ and one at NaN. -/
example : timeline fq newDbl ⟨[sq (num 0) "l", sq nan "l"], "l"⟩ (rq (num 4)) (num 0) (num 1)
    [⟨true, 0, sq (num 0) "l"⟩, ⟨true, 1, sq nan "l"⟩, ⟨false, 0, sq (num 0) "r"⟩, ⟨false, 1, sq (num 4) "r"⟩] = .ub .notAnOrder := by
  decide +kernel
/-- Standing, with an initial time that is not a number. -/
example : (match timeline fq newDbl lq ⟨[sq (num 0) "r"], "r"⟩ nan (num 1) ((pq nan).take 2) with
    | .ok x => x.1.length | _ => 0) = 2 := by decide +kernel
/-- A share that is not a number: undefined behaviour as well. -/
example : timeline fq { newDbl with switchPercentage := nan } lq (rq (num 4)) (num 0) (num 1) (pq (num 4)) = .ub .notRepresentable := by
  decide +kernel
end

end Uni.Special
