import Verif.Lemmas.Accept
import Verif.Props.Replan
import Verif.Props.Generator

/-! # C61, C62, C63: planned steps are accepted by the generator; what the getters return -/

set_option autoImplicit false
set_option linter.unusedSectionVars false

namespace Uni.Gen
open Spec Planner
variable {K : Type} [Field K] [LinearOrder K] [IsStrictOrderedRing K]

/-! ## C62 -/

section
variable [Trig K]

/-- The footprints of a plan made from two contacts (or from nothing) can be executed one step after the other. -/
theorem planned_wellSpaced {p : Planner K} {integ : Integrator K} {left right left' right' : FootPrint K} {t0 t1 : K} {d : Plan K}
    (h : PlanOf p integ left right t0 t1 left' right' d) (hp : Timed p) (hm : 0 < p.minTime)
    (h1 : left.steps.length = right.steps.length) (h2 : left.steps.length ≤ 1) :
    ∃ l ls r rs, left'.steps = l :: ls ∧ right'.steps = r :: rs ∧ l.impactTime ≤ t0 ∧ r.impactTime ≤ t0 ∧
      left'.footName = left.footName ∧ right'.footName = right.footName ∧
      WellSpaced p.minTime t0 left'.steps right'.steps := by
  have hst : ∃ l r, d.l0.steps = [l] ∧ d.r0.steps = [r] ∧ d.l0.footName = left.footName ∧ d.r0.footName = right.footName := by
    rcases h.begins.steps with ⟨hne, e1, e2⟩ | ⟨-, -, u, -, e1, e2⟩
    · have : left.steps.length = 1 := by
        rcases Nat.lt_or_ge left.steps.length 1 with hlt | hge
        · exfalso
          apply hne
          exact ⟨List.length_eq_zero_iff.mp (by omega), List.length_eq_zero_iff.mp (by omega)⟩
        · omega
      obtain ⟨l, hl⟩ := List.length_eq_one_iff.mp this
      obtain ⟨r, hr⟩ := List.length_eq_one_iff.mp (h1 ▸ this)
      exact ⟨l, r, by rw [e1, hl], by rw [e2, hr], by rw [e1], by rw [e2]⟩
    · exact ⟨_, _, by rw [e1], by rw [e2], by rw [e1], by rw [e2]⟩
  obtain ⟨l, r, hl, hr, nl, nr⟩ := hst
  have hpt := h.begins.prevTime
  have htimes : l.impactTime ≤ t0 ∧ r.impactTime ≤ t0 := by
    have a := h.begins.last
    have b := h.begins.swing
    cases hs : d.q.swingLeft <;> simp only [hs, hl, hr, Bool.false_eq_true, if_true, if_false, List.getLast?_singleton, Option.some.injEq] at a b
    · exact ⟨by rw [a]; exact hpt, (b r rfl).trans hpt⟩
    · exact ⟨(b l rfl).trans hpt, by rw [a]; exact hpt⟩
  rcases h.effect with ⟨-, rfl, rfl⟩ | ⟨-, l', r', g1, g2, g⟩
  · obtain ⟨-, hpw⟩ := along_times hp.minTime (h.gaps hp)
    have hafter : ∀ e ∈ d.log, t0 < e.step.impactTime := by
      intro e he
      rcases List.mem_append.mp he with he | he
      · have off0 : 0 ≤ d.start.offset := by
          show 0 ≤ (if d.q.firstStep then d.q.nominalTime else 0)
          split_ifs
          · rw [h.nominalTime]; exact hp.nominal_nonneg
          · exact le_refl _
        have := (run_situations (p := d.q) (sol := d.sol) (L := d.left) (R := d.right) (I := fun c => 0 ≤ c.offset)
          (P := fun _ e => t0 < e.step.impactTime)
          (fun c e _ _ => le_refl _) (fun c e hc he => by
            obtain ⟨-, -, -, a, -⟩ := decided_facts he
            rw [h.initTime] at a
            linarith) h.run off0).1
        exact Along.all (Situations.along this) e he
      · have := Along.all ((h.terminal_along hp.nominal_nonneg).mono (fun s e h => h.2.2)) e he
        have := hp.nominal
        linarith
    refine ⟨l, stepsOf true d.log, r, stepsOf false d.log, by simp [extendBy, hl], by simp [extendBy, hr], htimes.1, htimes.2, nl, nr, ?_⟩
    constructor
    · intro s hs
      simp only [extendBy, hl, hr, List.cons_append, List.nil_append, List.tail_cons] at hs
      rcases List.mem_append.mp hs with hs | hs
      · obtain ⟨e, he, -, rfl⟩ := mem_stepsOf hs
        exact hafter e he
      · obtain ⟨e, he, -, rfl⟩ := mem_stepsOf hs
        exact hafter e he
    · simp only [extendBy, hl, List.cons_append, List.nil_append, List.tail_cons]
      exact stepsOf_pairwise true hpw
    · simp only [extendBy, hr, List.cons_append, List.nil_append, List.tail_cons]
      exact stepsOf_pairwise false hpw
    · simp only [extendBy, hl, hr, List.cons_append, List.nil_append, List.tail_cons]
      intro a ha b hb
      obtain ⟨e, he, le, rfl⟩ := mem_stepsOf ha
      obtain ⟨f, hf, lf, rfl⟩ := mem_stepsOf hb
      have hne : e ≠ f := by rintro rfl; rw [le] at lf; cases lf
      rw [List.pairwise_iff_getElem] at hpw
      obtain ⟨i, hi, ei⟩ := List.getElem_of_mem he
      obtain ⟨j, hj, ej⟩ := List.getElem_of_mem hf
      rcases lt_trichotomy i j with hij | hij | hij
      · left; have := hpw i j hi hj hij; rwa [ei, ej] at this
      · subst hij; exact absurd (ei.symm.trans ej) hne
      · right; have := hpw j i hj hi hij; rwa [ei, ej] at this
  · rw [hl] at g1; rw [hr] at g2
    simp only [List.getLast?_singleton, Option.some.injEq] at g1 g2
    subst g1 g2
    have single : ∀ (fp fp' : FootPrint K) (s : Step K) (t : K), fp.steps = [s] → Retimed fp t fp' →
        ∃ s', fp'.steps = [s'] ∧ s'.impactTime = t ∧ fp'.footName = fp.footName := by
      rintro fp fp' s t hs ⟨older, x, k, rfl⟩
      rw [hs] at k
      have k' := congrArg List.length k
      simp only [List.length_append, List.length_singleton] at k'
      have : older = [] := List.length_eq_zero_iff.mp (by omega)
      subst this
      exact ⟨_, rfl, rfl, rfl⟩
    have spaced : ∀ (a b : Step K), WellSpaced p.minTime t0 [a] [b] := fun a b => ⟨by simp, by simp, by simp, by simp⟩
    rcases g with ⟨-, rfl, rfl⟩ | ⟨hlt, rfl, k⟩ | ⟨hlt, k, rfl⟩
    · exact ⟨l, [], r, [], hl, hr, htimes.1, htimes.2, nl, nr, by rw [hl, hr]; exact spaced _ _⟩
    · obtain ⟨s, hs, ht, hn⟩ := single _ _ _ _ hr k
      exact ⟨l, [], s, [], hl, hs, htimes.1, by rw [ht]; exact htimes.1, nl, hn.trans nr, by rw [hl, hs]; exact spaced _ _⟩
    · obtain ⟨s, hs, ht, hn⟩ := single _ _ _ _ hl k
      exact ⟨s, [], r, [], hs, hr, by rw [ht]; exact htimes.2, htimes.2, hn.trans nl, nr, by rw [hs, hr]; exact spaced _ _⟩

theorem WellSpaced.mono {g g' t0 : K} {left right : List (Step K)} (h : WellSpaced g t0 left right) (hg : g' ≤ g) :
    WellSpaced g' t0 left right :=
  ⟨h.after, h.orderL.imp fun h => by linarith, h.orderR.imp fun h => by linarith,
    fun a ha b hb => (h.cross a ha b hb).imp (fun h => by linarith) (fun h => by linarith)⟩

variable [FloorRing K]

/-- C62: the steps planned from two contacts (or from nothing) are accepted by the generator, whatever the order in which the
sort leaves ties, provided that half a sample is not longer than the minimum step duration and the final double support. -/
theorem C62_accepted {p p' : Planner K} {integ : Integrator K} {fuel : Nat} {left right left' right' : FootPrint K} {t0 t1 dT : K}
    {cfg : GenSettings K} {sorted : List (Ptr K)} (hp : Timed p) (hm : 0 < p.minTime) (hL : NonNeg left) (hR : NonNeg right)
    (h1 : left.steps.length = right.steps.length) (h2 : left.steps.length ≤ 1) (hn : left.footName ≠ right.footName)
    (h : p.computeNewSteps integ fuel left right t0 t1 = .done true p' left' right')
    (hv : ValidTimings cfg) (hd : 0 < dT) (he : dT / 2 ≤ cfg.endSwitch) (hdm : dT / 2 ≤ p.minTime)
    (hs : SortedPtrs left' right' sorted) : ∃ ordered t, timeline cfg left' right' t0 dT sorted = .ok (ordered, t) := by
  obtain ⟨d, hpl⟩ := exists_plan hp hL hR h
  obtain ⟨l, ls, r, rs, hl, hr, a, b, nl, nr, hw⟩ := planned_wellSpaced hpl hp hm h1 h2
  obtain ⟨⟨o, t⟩, ho⟩ := timeline_accepts hv hd he (by rw [nl, nr]; exact hn) hl hr a b (WellSpaced.mono hw hdm) hs
  exact ⟨o, t, ho⟩

end

/-- C62: the same after a re-planning request. -/
theorem C62_replan_accepted {p p' : Planner ℝ} {integ : Integrator ℝ} {fuel : Nat} {dcm : DcmVelocity ℝ}
    {left right left' right' : FootPrint ℝ} {t0 t1 dT : ℝ} {q : Request ℝ} {prev : Option (Step ℝ × Step ℝ)}
    {cfg : GenSettings ℝ} {sorted : List (Ptr ℝ)}
    (hp : Timed p) (hm : 0 < p.minTime) (hL : NonNeg left) (hR : NonNeg right) (hn : left.footName ≠ right.footName)
    (h : replan p integ fuel dcm left right t0 t1 q = .done true p' left' right' prev)
    (hv : ValidTimings cfg) (hd : 0 < dT) (he : dT / 2 ≤ cfg.endSwitch) (hdm : dT / 2 ≤ p.minTime)
    (hs : SortedPtrs left' right' sorted) : ∃ ordered t, timeline cfg left' right' t0 dT sorted = .ok (ordered, t) := by
  obtain ⟨sL, sR, cL, cR, d, -, -, -, -, -, -, hpl⟩ := C52_contacts_partial hp hL hR h
  obtain ⟨l, ls, r, rs, hl, hr, a, b, nl, nr, hw⟩ := planned_wellSpaced hpl hp hm rfl (le_refl _)
  obtain ⟨⟨o, t⟩, ho⟩ := timeline_accepts hv hd he (by rw [nl, nr]; exact hn) hl hr a b (WellSpaced.mono hw hdm) hs
  exact ⟨o, t, ho⟩

/-- Some order of the steps that `std::sort` may return always exists. -/
theorem exists_sorted (left right : FootPrint ℝ) : ∃ sorted, SortedPtrs left right sorted := by
  classical
  refine ⟨(Ptr.ofFeet left right).insertionSort (fun a b => a.step.impactTime ≤ b.step.impactTime), List.perm_insertionSort _ _, ?_⟩
  have : Std.Total (fun a b : Ptr ℝ => a.step.impactTime ≤ b.step.impactTime) := ⟨fun a b => le_total _ _⟩
  have : IsTrans (Ptr ℝ) (fun a b => a.step.impactTime ≤ b.step.impactTime) := ⟨fun a b c h1 h2 => le_trans h1 h2⟩
  exact List.pairwise_insertionSort _ _

/-- Non-vacuity of C62: a plan is made from two contacts and gets its phases. -/
example (sol : Planner ℝ → UState ℝ → ℝ → ℝ → ℝ → UState ℝ) : ∃ l' r' sorted a,
    timeline (GenSettings.new : GenSettings ℝ) l' r' 0 (1 / 100) sorted = .ok a := by
  obtain ⟨p', l', r', h⟩ := Planner.realDemo_plans sol "left" "right"
  obtain ⟨sorted, hs⟩ := exists_sorted l' r'
  suffices k : ∃ o t, timeline (GenSettings.new : GenSettings ℝ) l' r' 0 (1 / 100) sorted = .ok (o, t) by
    obtain ⟨o, t, ho⟩ := k
    exact ⟨l', r', sorted, (o, t), ho⟩
  refine C62_accepted (cfg := GenSettings.new) (dT := 1 / 100) Planner.realDemo_timed
    (by simp [Planner.realDemo, Planner.new]) ?_ ?_ ?_ ?_ ?_ h (C36_settings [])
    (by norm_num) (by simp only [GenSettings.new]; norm_num) (by simp only [Planner.realDemo, Planner.new]; norm_num) hs
  · intro s hs; simp only [List.mem_singleton] at hs; rw [hs]
  · intro s hs; simp only [List.mem_singleton] at hs; rw [hs]
  · rfl
  · exact le_refl _
  · decide

private def st (t : ℚ) (n : String) : Step ℚ := ⟨⟨0, 0⟩, 0, t, n⟩
private def lf (ts : List ℚ) : FootPrint ℚ := ⟨ts.map (st · "left"), "left"⟩
private def rf (ts : List ℚ) : FootPrint ℚ := ⟨ts.map (st · "right"), "right"⟩
private def pl (i : Nat) (t : ℚ) : Ptr ℚ := ⟨true, i, st t "left"⟩
private def pr (i : Nat) (t : ℚ) : Ptr ℚ := ⟨false, i, st t "right"⟩

/-- C62: steps closer than half a sample are refused. -/
theorem C62_too_close_witness :
    SortedPtrs (lf [0, 3 / 2]) (rf [0, 8 / 5]) [pl 0 0, pr 0 0, pl 1 (3 / 2), pr 1 (8 / 5)] ∧
    timeline (GenSettings.new : GenSettings ℚ) (lf [0, 3 / 2]) (rf [0, 8 / 5]) 0 1 [pl 0 0, pr 0 0, pl 1 (3 / 2), pr 1 (8 / 5)] = .fail :=
  ⟨by unfold SortedPtrs; decide +kernel, by decide +kernel⟩


/-! ## Outputs -/

section
variable {K : Type} [Field K] [LinearOrder K] [IsStrictOrderedRing K] [FloorRing K]

/-- A request refused on arrival writes nothing. -/
theorem C61_rejected_keep {cfg : GenSettings K} {left right : FootPrint K} {t dT : K} {sorted : List (Ptr K)}
    (h : Rejected left right t dT) (o : GenOutputs) : outputsAfter cfg left right t dT sorted o = o := by
  unfold outputsAfter timeline
  rcases h with h | h | h | h | ⟨s, h, ht⟩
  · rw [h]
  · rw [h]; cases left.steps <;> rfl
  · cases left.steps <;> cases right.steps <;> simp [h]
  · cases left.steps <;> cases right.steps <;> by_cases hn : left.footName = right.footName <;> simp [h, hn]
  · cases hl : left.steps with
    | nil => rfl
    | cons a ls =>
      cases hr : right.steps with
      | nil => rfl
      | cons b rs =>
        rw [hl, hr] at h
        simp only [List.head?_cons, Option.some.injEq] at h
        have hm : t < max a.impactTime b.impactTime := by
          rcases h with rfl | rfl
          · exact lt_max_of_lt_left ht
          · exact lt_max_of_lt_right ht
        by_cases hn : left.footName = right.footName
        · simp only [if_pos hn]
        · by_cases hd : dT ≤ 0
          · simp only [if_neg hn, if_pos hd]
          · simp only [if_neg hn, if_neg hd, if_pos hm]

/-- C61 (partial; missing: histories without a successful generation, see `C61_before`): once a generation succeeded the phases can be read, whatever happens afterwards. -/
theorem C61_after_success_partial (o : GenOutputs) {reqs : List (GenRequest K)} {q : GenRequest K} (hq : q ∈ reqs)
    {a : List (Ptr K) × Timing K} (h : q.outcome = .ok a) : ∃ p, (outputsAll o reqs).getStepPhases = .ok p := by
  have keep : ∀ (l : List (GenRequest K)) (o : GenOutputs), o.phases.isSome → (outputsAll o l).phases.isSome := by
    intro l
    induction l with
    | nil => exact fun o h => h
    | cons q l ih =>
      intro o ho
      refine ih _ ?_
      show (outputsAfter q.cfg q.left q.right q.initTime q.dT q.sorted o).phases.isSome
      unfold outputsAfter
      split
      · rfl
      · exact ho
      · split
        · split_ifs
          · exact ho
          · exact ho
          · exact ho
          · split
            · rfl
            · exact ho
        · exact ho
  have : (outputsAll o reqs).phases.isSome := by
    obtain ⟨l1, l2, rfl⟩ := List.append_of_mem hq
    unfold outputsAll
    rw [List.foldl_append, List.foldl_cons]
    apply keep
    unfold outputsAfter
    rw [show timeline q.cfg q.left q.right q.initTime q.dT q.sorted = .ok a from h]
    rfl
  obtain ⟨p, hp⟩ := Option.isSome_iff_exists.mp this
  exact ⟨p, by unfold GenOutputs.getStepPhases; rw [hp]⟩

/-- C61 (negative): a generator all of whose requests were refused on arrival has no phases, reading them dereferences null
pointers. -/
theorem C61_before {reqs : List (GenRequest K)} (h : ∀ q ∈ reqs, Rejected q.left q.right q.initTime q.dT) :
    (outputsAll GenOutputs.new reqs).getStepPhases = .ub .badIterator := by
  have : ∀ (l : List (GenRequest K)), (∀ q ∈ l, Rejected q.left q.right q.initTime q.dT) → ∀ o, outputsAll o l = o := by
    intro l
    induction l with
    | nil => exact fun _ _ => rfl
    | cons q l ih =>
      intro h o
      have h1 : outputsAfter q.cfg q.left q.right q.initTime q.dT q.sorted o = o :=
        C61_rejected_keep (h q (by simp)) o
      show outputsAll (outputsAfter q.cfg q.left q.right q.initTime q.dT q.sorted o) l = o
      rw [h1]
      exact ih (fun x hx => h x (List.mem_cons_of_mem _ hx)) o
  rw [this reqs h]
  rfl

/-- C63 (partial; missing: after a generation that fails while assigning the phases, see `C63_stale_contacts_witness`): after a
successful generation the getters describe the same horizon. -/
theorem C63_after_success_partial (o : GenOutputs) (reqs : List (GenRequest K)) {q : GenRequest K} {a : List (Ptr K) × Timing K}
    (h : q.outcome = .ok a) :
    ∃ l r, (outputsAll o (reqs ++ [q])).getStepPhases = .ok (l, r) ∧
      SameHorizon l r (outputsAll o (reqs ++ [q])).leftContact (outputsAll o (reqs ++ [q])).rightContact
        (outputsAll o (reqs ++ [q])).leftFixed := by
  obtain ⟨ordered, t⟩ := a
  have e : outputsAll o (reqs ++ [q]) =
      ⟨some (t.left, t.right), t.merges, contacts t.left, contacts t.right, leftFixed t.left⟩ := by
    unfold outputsAll
    rw [List.foldl_append, List.foldl_cons, List.foldl_nil]
    unfold outputsAfter
    rw [show timeline q.cfg q.left q.right q.initTime q.dT q.sorted = .ok (ordered, t) from h]
  have hlen := (C34_partition (show timeline q.cfg q.left q.right q.initTime q.dT q.sorted = .ok (ordered, t) from h)).1
  rw [e]
  refine ⟨_, _, rfl, hlen, ?_, ?_, ?_, ?_⟩
  · simp [contacts]
  · simp [contacts, hlen]
  · simp [leftFixed]
  · intro j a b ha hb
    simp only [contacts, leftFixed, List.getElem?_map, ha, hb, Option.map_some]
    cases a <;> cases b <;> simp

/-- Where the loop stops. -/
private theorem lastTiming_spec (cfg : GenSettings K) (dT : K) (nl nr : Nat) (half : Bool) (l : List (Ptr K)) :
    ∀ (first : Bool) (s : Timing K), ∃ n, n ≤ l.length ∧
      addSteps cfg dT nl nr first half (l.take n) s = .ok (lastTiming cfg dT nl nr first half l s) ∧
      (n < l.length → ∀ t, addSteps cfg dT nl nr first half (l.take (n + 1)) s ≠ .ok t) := by
  induction l with
  | nil => exact fun first s => ⟨0, le_rfl, rfl, fun h => absurd h (by simp)⟩
  | cons q l ih =>
    intro first s
    cases h : addStep cfg dT nl nr first (first && half) q s with
    | ok s' =>
      obtain ⟨n, h1, h2, h3⟩ := ih false s'
      refine ⟨n + 1, by simpa using h1, ?_, fun hn t => ?_⟩
      · simp only [List.take_succ_cons, addSteps, lastTiming, h, Out.bind_ok]; exact h2
      · simp only [List.take_succ_cons, addSteps, h, Out.bind_ok]
        exact h3 (by simpa using hn) t
    | fail => exact ⟨0, by simp, by simp [addSteps, lastTiming, h], fun _ t => by simp [addSteps, h]⟩
    | ub u => exact ⟨0, by simp, by simp [addSteps, lastTiming, h], fun _ t => by simp [addSteps, h]⟩

/-- C63: what the getters return after a generation that fails while assigning the phases: phases and merge points of the longest
part of the walk to which phases can be assigned, and the flags of before. -/
theorem C63_failed {cfg : GenSettings K} {left right : FootPrint K} {t dT : K} {sorted ordered : List (Ptr K)} {l r : Step K}
    (hfail : timeline cfg left right t dT sorted = .fail) (hl : left.steps.head? = some l) (hr : right.steps.head? = some r)
    (hn : left.footName ≠ right.footName) (hd : 0 < dT) (ht : l.impactTime ≤ t ∧ r.impactTime ≤ t) (hs : orderSteps sorted = .ok ordered)
    (o : GenOutputs) :
    ∃ n w, n ≤ (ordered.drop 2).length ∧
      addSteps { cfg with nominalSwitchTime := cfg.switchPercentage * cfg.nominalStepTime } dT left.steps.length right.steps.length true
        (decide (l.impactTime ≠ r.impactTime)) ((ordered.drop 2).take n) ⟨[], [], [0], [0], 1, 1, t, false, false⟩ = .ok w ∧
      (n < (ordered.drop 2).length → ∀ w', addSteps { cfg with nominalSwitchTime := cfg.switchPercentage * cfg.nominalStepTime } dT
        left.steps.length right.steps.length true (decide (l.impactTime ≠ r.impactTime)) ((ordered.drop 2).take (n + 1))
        ⟨[], [], [0], [0], 1, 1, t, false, false⟩ ≠ .ok w') ∧
      outputsAfter cfg left right t dT sorted o = { o with phases := some (w.left, w.right), merges := w.merges } := by
  obtain ⟨n, h1, h2, h3⟩ := lastTiming_spec { cfg with nominalSwitchTime := cfg.switchPercentage * cfg.nominalStepTime } dT
    left.steps.length right.steps.length (decide (l.impactTime ≠ r.impactTime)) (ordered.drop 2) true
    ⟨[], [], [0], [0], 1, 1, t, false, false⟩
  refine ⟨n, _, h1, h2, h3, ?_⟩
  unfold outputsAfter
  rw [hfail]
  cases hls : left.steps with
  | nil => rw [hls] at hl; cases hl
  | cons a la =>
    cases hrs : right.steps with
    | nil => rw [hrs] at hr; cases hr
    | cons b lb =>
      rw [hls] at hl; rw [hrs] at hr
      cases hl; cases hr
      simp only [if_neg hn, if_neg (not_le.mpr hd), if_neg (not_lt.mpr (max_le ht.1 ht.2)), hs]

/-- C63: a request refused on arrival changes nothing. -/
theorem C63_rejected_keep {q : GenRequest K} (h : Rejected q.left q.right q.initTime q.dT) (o : GenOutputs)
    (reqs : List (GenRequest K)) : outputsAll o (reqs ++ [q]) = outputsAll o reqs := by
  unfold outputsAll
  rw [List.foldl_append]
  exact C61_rejected_keep h _

end

/-- A request for a walk of one step, accepted. -/
private def good : GenRequest ℚ := ⟨GenSettings.new, lf [0, 2], rf [0], 0, 1, [pl 0 0, pr 0 0, pl 1 2]⟩
/-- A request whose second step comes too soon after the first. -/
private def bad : GenRequest ℚ :=
  ⟨GenSettings.new, lf [0, 3 / 2], rf [0, 8 / 5], 0, 1, [pl 0 0, pr 0 0, pl 1 (3 / 2), pr 1 (8 / 5)]⟩
/-- A request refused on arrival. -/
private def early : GenRequest ℚ := ⟨GenSettings.new, lf [0], rf [1], 0, 1, [pl 0 0, pr 0 1]⟩

/-- Non-vacuity of C61. -/
example : (∃ a, good.outcome = .ok a) ∧ Rejected early.left early.right early.initTime early.dT :=
  ⟨⟨([pl 0 0, pr 0 0, pl 1 2], ⟨[.switchOut, .swing, .switchIn], [.switchIn, .stance, .switchOut], [0, 1, 2, 3], [0, 2], 2, 1, 2,
    true, false⟩),
    by decide +kernel⟩, by
    right; right; right; right
    exact ⟨st 1 "right", Or.inr rfl, by decide +kernel⟩⟩

/-- Non-vacuity of `C63_failed`. -/
example : timeline bad.cfg bad.left bad.right 0 1 bad.sorted = .fail ∧ orderSteps bad.sorted = .ok bad.sorted :=
  ⟨by decide +kernel, by decide +kernel⟩

/-- C63 (negative): a generation that fails while assigning the phases leaves the phases of the steps before the offending
one next to the contact vectors of an earlier generation. -/
theorem C63_stale_contacts_witness :
    bad.outcome = .fail ∧
    ∃ l r, (outputsAll GenOutputs.new [good, bad]).getStepPhases = .ok (l, r) ∧
      ¬ SameHorizon l r (outputsAll GenOutputs.new [good, bad]).leftContact
        (outputsAll GenOutputs.new [good, bad]).rightContact (outputsAll GenOutputs.new [good, bad]).leftFixed := by
  have e : outputsAll GenOutputs.new [good, bad] = ⟨some ([.switchOut, .swing], [.switchIn, .stance]), [0],
      [true, false, true], [true, true, true], [true, false, false]⟩ := by decide +kernel
  refine ⟨by decide +kernel, _, _, by rw [e]; rfl, ?_⟩
  rw [e]
  rintro ⟨-, h, -⟩
  cases h

end Uni.Gen
