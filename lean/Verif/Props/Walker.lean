import Verif.Lemmas.WalkerRun

/-! # C80 to C83: the whole generator -/

set_option autoImplicit false
set_option linter.unusedSectionVars false

namespace Uni.Walker
open Spec Gen Planner

section
variable {K : Type} [Field K] [LinearOrder K] [IsStrictOrderedRing K] [FloorRing K] [Trig K]
variable {w w' : Walker K} {initTime dT gap : K} {left right : FootPrint K} {sorted : List (Ptr K)}

/-! ## C81 -/

/-- C81: after any successful request, in any state the object can be in, every attached generator has a trajectory, and all the
trajectories, the phases and the contacts have the same number of samples. -/
theorem C81_complete {integ : Integrator K} {fuel : Nat} {sort : Sorter K} {c : Call K} (hw : Reached integ sort w)
    (h : w.call integ fuel sort c = .done true w') : ∃ n, Complete w' n := by
  cases c with
  | fromFootPrints l r t0 dT =>
    simp only [Walker.call] at h
    split at h
    · rename_i e; cases h; exact complete_of hw.minJerk e
    · cases h
    · cases h
  | generate t0 dT t1 =>
    rcases next_done h with ⟨w1, e1, e2⟩ | ⟨h, -⟩
    · have hw1 := hw.history.plan e1
      unfold Walker.fromMembers at e2
      split at e2
      · rename_i e
        cases e2
        refine complete_of ?_ e
        intro p hp
        obtain ⟨ops, e⟩ := hw1.minJerk p hp
        rw [e]
        exact feet_apex ops
      · cases e2
      · cases e2
    · cases h
  | reGenerate t0 dT t1 q =>
    rcases next_done h with ⟨w1, e1, e2⟩ | ⟨h, -⟩
    · have hw1 := hw.history.replan e1
      unfold Walker.fromMembers at e2
      split at e2
      · rename_i e
        cases e2
        refine complete_of ?_ e
        intro p hp
        obtain ⟨ops, e⟩ := hw1.minJerk p hp
        rw [e]
        exact feet_apex ops
      · cases e2
      · cases e2
    · cases h

/-! ## C80 -/

/-- What a request that has been served delivers: the planned footsteps, all the trajectories, feet that follow the steps. -/
structure Served (w w' : Walker K) (left right : FootPrint K) : Prop where
  left_steps : w'.left = left
  right_steps : w'.right = right
  planner : w'.planner = w.planner
  cfg : w'.cfg = w.cfg
  complete : ∃ n, Complete w' n
  cubic : ∀ p lo ro lp rp, w'.cubic = some p → p.result = some (lo, ro) → w'.outputs.getStepPhases = .ok (lp, rp) →
    FeetFollow lp left.steps lo ∧ FeetFollow rp right.steps ro
  minJerk : ∀ p lo ro lp rp, w'.minJerk = some p → p.result = some (lo, ro) → w'.outputs.getStepPhases = .ok (lp, rp) →
    FeetFollow lp left.steps lo ∧ FeetFollow rp right.steps ro

theorem follows {left right : FootPrint K} {cfg : GenSettings K} (hs : SortedPtrs left right sorted) {ordered : List (Ptr K)} {t : Timing K}
    (ht : timeline cfg left right initTime dT sorted = .ok (ordered, t)) (hpos : t.shifts.Pairwise (· < ·))
    {lo ro : List (FootSample K)} (hlo : lo.length = t.left.length) (hro : ro.length = t.left.length)
    (hc : ∀ (f : Bool) (j : Nat) (p : Phase), (if f then t.left else t.right)[j]? = some p → p ≠ .swing →
      ∃ s o, (if f then left.steps else right.steps)[landings (if f then t.left else t.right) j]? = some s ∧
        (if f then lo else ro)[j]? = some o ∧ AtRestOn s o) (f : Bool) :
    FeetFollow (if f then t.left else t.right) (if f then left.steps else right.steps) (if f then lo else ro) := by
  obtain ⟨l, r, tt, hr⟩ := timeline_ok ht
  have hp : tt.Positive := positive_of_shifts (by rw [← hr.built.shifts]; exact hpos)
  have e : (if f then t.left else t.right) = tt.phases f := by
    cases f
    · exact hr.built.right
    · exact hr.built.left
  have hl : t.left.length = slotStart tt.slots tt.slots.length + tt.rest := by
    rw [hr.built.left, tt.length_phases, total_eq]
  have hrest := hp.2
  have hlen : (if f then lo else ro).length = t.left.length := by cases f <;> simp [hlo, hro]
  refine ⟨hc f, ?_, ?_⟩
  · obtain ⟨p, h0, hne⟩ : ∃ p, (if f then t.left else t.right)[0]? = some p ∧ p ≠ .swing := by
      rw [e]
      cases hsl : tt.slots with
      | nil =>
        refine ⟨_, phases_rest tt f 0 ?_ (by rw [total_eq]; omega), by split_ifs <;> simp⟩
        rw [hsl]; simp [slotStart, slotSegs, total]
      | cons x xs =>
        have h0 : tt.slots[0]? = some x := by rw [hsl]; rfl
        have hx := hp.1 x (by rw [hsl]; simp)
        have e0 : slotStart tt.slots 0 = 0 := by simp [slotStart, slotSegs, total]
        refine ⟨_, (phases_slot tt f 0 x h0).1 0 (by rw [e0]) (by rw [e0]; omega), by split_ifs <;> simp⟩
    obtain ⟨s, o, h1, h2, h3⟩ := hc f 0 p h0 hne
    refine ⟨s, o, ?_, ?_, h3⟩
    · rw [List.head?_eq_getElem?]; simpa [landings] using h1
    · rw [List.head?_eq_getElem?]; exact h2
  · have hlast : (if f then t.left else t.right)[t.left.length - 1]? = some (if tt.lastLeft = f then .switchIn else .switchOut) := by
      rw [e]
      exact phases_rest tt f _ (by omega) (by rw [total_eq]; omega)
    obtain ⟨s, o, h1, h2, h3⟩ := hc f _ _ hlast (by split_ifs <;> simp)
    refine ⟨s, o, ?_, ?_, h3⟩
    · rw [List.getLast?_eq_getElem?, ← landings_last hs ht hpos f, Nat.add_sub_cancel]
      exact h1
    · rw [List.getLast?_eq_getElem?, hlen]
      exact h2

/-- The trajectories of a walk without empty phases are generated. -/
theorem generates (hexp : Trig.exp (0 : K) = 1) (hh : History w) (hu : Usable w gap dT) (hn : Names w left right)
    (hs : SortedPtrs left right sorted) {ordered : List (Ptr K)} {t : Timing K}
    (ht : timeline w.cfg left right initTime dT sorted = .ok (ordered, t)) (hpos : t.shifts.Pairwise (· < ·)) :
    ∃ w', w.generateFromFootPrints left right initTime dT sorted = .ok (true, w') ∧ Served w w' left right := by
  have hv : ValidTimings w.cfg := by
    obtain ⟨ops, e⟩ := hh.cfg
    rw [e]; exact C36_settings ops
  obtain ⟨l, r, tt, hr⟩ := timeline_ok ht
  have hd := hr.dT_pos
  have ready : ∀ s : FeetSettings K, FeetMade s → 0 ≤ s.stepHeight → MinJerk.Ready s := by
    rintro s ⟨ops, rfl⟩ h
    exact ⟨h, (feet_apex ops).1, (feet_apex ops).2⟩
  obtain ⟨c, hc, fc⟩ : ∃ c, Plugin.run w.cubic (runCubic w.garbage dT left right t) = .ok (true, c) ∧
      ∀ p lo ro, c = some p → p.result = some (lo, ro) →
        FeetFollow t.left left.steps lo ∧ FeetFollow t.right right.steps ro := by
    cases hp : w.cubic with
    | none => exact ⟨none, rfl, fun p _ _ h => by cases h⟩
    | some p =>
      have hrd := ready _ (hh.cubic p hp) (hu.cubic p hp)
      obtain ⟨lo, ro, ho, l1, l2⟩ := CubicFeet.C43_spline_succeeds_partial hrd w.garbage hs ht hpos
      refine ⟨_, Plugin.run_true.mpr (Or.inr ⟨p, p.state, some (lo, ro), rfl, by simp [runCubic, ho], rfl⟩), ?_⟩
      intro _ _ _ hq hres
      cases hq
      cases hres
      have := follows hs ht hpos l1 (l2.trans (C34_partition ht).1.symm) (CubicFeet.C43_spline_contact_partial hrd hs ht hpos ho)
      exact ⟨this true, this false⟩
  obtain ⟨m, hm, fm⟩ : ∃ m, Plugin.run w.minJerk (runMinJerk dT left right t) = .ok (true, m) ∧
      ∀ p lo ro, m = some p → p.result = some (lo, ro) →
        FeetFollow t.left left.steps lo ∧ FeetFollow t.right right.steps ro := by
    cases hp : w.minJerk with
    | none => exact ⟨none, rfl, fun p _ _ h => by cases h⟩
    | some p =>
      have hrd := ready _ (hh.minJerk p hp) (hu.minJerk p hp)
      obtain ⟨lo, ro, ho, l1, l2⟩ := MinJerk.C42_succeeds_partial hrd hs ht hpos
      refine ⟨_, Plugin.run_true.mpr (Or.inr ⟨p, p.state, some (lo, ro), rfl, by simp [runMinJerk, ho], rfl⟩), ?_⟩
      intro _ _ _ hq hres
      cases hq
      cases hres
      have := follows hs ht hpos l1 (l2.trans (C34_partition ht).1.symm) (MinJerk.C43_contact_partial hrd hs ht hpos ho)
      exact ⟨this true, this false⟩
  obtain ⟨z, hz⟩ : ∃ z, Plugin.run w.zmp (runZmp w.cfg initTime dT left right ordered t) = .ok (true, z) := by
    cases hp : w.zmp with
    | none => exact ⟨none, rfl⟩
    | some p =>
      obtain ⟨z', o, ho⟩ := Zmp.C44_succeeds hv (hu.zmp (by rw [hp]; simp)) hs ht hpos hn.left_steps hn.right_steps p.state
      exact ⟨_, Plugin.run_true.mpr (Or.inr ⟨p, z', some o, rfl, by simp [runZmp, ho], rfl⟩)⟩
  obtain ⟨d, hdd⟩ : ∃ d, Plugin.run w.dcm (runDcm w.cfg initTime dT left right ordered t) = .ok (true, d) := by
    cases hp : w.dcm with
    | none => exact ⟨none, rfl⟩
    | some p =>
      obtain ⟨v1, v2, v3⟩ := hu.dcm p hp
      obtain ⟨n1, n2⟩ := hn.dcm (by rw [hp]; simp)
      have hwalk : Dcm.Walk w.cfg left right initTime dT sorted ordered t := ⟨hv, hs, ht, hpos, n1, n2, hn.left_steps, hn.right_steps⟩
      have hroom : Dcm.HasRoom w.cfg p.state dT t := by
        intro a b ha hb
        obtain ⟨h1, h2, h3, h4⟩ := Dcm.shifts_ends hwalk hr
        rw [h1, show 2 * tt.slots.length + 2 - 2 = 2 * tt.slots.length by omega, h2] at ha
        rw [h1, show 2 * tt.slots.length + 2 - 1 = 2 * tt.slots.length + 1 by omega, h3] at hb
        cases ha; cases hb
        rw [h4, Nat.add_sub_cancel_left]
        refine ⟨v3, v2.trans (mul_le_mul_of_nonneg_right ?_ (by linarith [v1.still_lt]))⟩
        have e1 := (stdRound_bounds (w.cfg.endSwitch / dT)).2
        have e2 : (tt.rest : ℤ) = stdRound (w.cfg.endSwitch / dT) := hr.built.rest
        have e3 : (tt.rest : K) = (stdRound (w.cfg.endSwitch / dT) : K) := by rw [← e2]; simp
        rw [e3]
        have : (w.cfg.endSwitch / dT - 1 / 2) * dT ≤ (stdRound (w.cfg.endSwitch / dT) : K) * dT := mul_le_mul_of_nonneg_right e1 hd.le
        have e4 : (w.cfg.endSwitch / dT - 1 / 2) * dT = w.cfg.endSwitch - dT / 2 := by field_simp
        linarith
      obtain ⟨d', o, ho⟩ := Dcm.C73_succeeds hexp hwalk v1 hroom (hh.dcm p hp)
      exact ⟨_, Plugin.run_true.mpr (Or.inr ⟨p, d', some o, rfl, ho, rfl⟩)⟩
  obtain ⟨g, hg⟩ : ∃ g, Plugin.run w.height (runHeight dT t) = .ok (true, g) := by
    cases hp : w.height with
    | none => exact ⟨none, rfl⟩
    | some p =>
      obtain ⟨o, ho⟩ := CoMHeight.C51_succeeds (hu.height p hp) ht hpos
      exact ⟨_, Plugin.run_true.mpr (Or.inr ⟨p, p.state, some o, rfl, by simp [runHeight, ho], rfl⟩)⟩
  have hgen : w.generateFromFootPrints left right initTime dT sorted =
      .ok (true, { w with left := left, right := right, outputs := outputsAfter w.cfg left right initTime dT sorted w.outputs, cubic := c,
                          minJerk := m, zmp := z, dcm := d, height := g }) := by
    unfold generateFromFootPrints
    simp only [ht]
    exact trajectories_true.mpr ⟨c, m, z, d, g, hc, hm, hz, hdd, hg, rfl⟩
  have hph : ∀ lp rp, (outputsAfter w.cfg left right initTime dT sorted w.outputs).getStepPhases = .ok (lp, rp) → lp = t.left ∧ rp = t.right := by
    intro lp rp h
    simp only [outputsAfter, ht, GenOutputs.getStepPhases, Out.ok.injEq, Prod.mk.injEq] at h
    exact ⟨h.1.symm, h.2.symm⟩
  refine ⟨_, hgen, rfl, rfl, rfl, rfl, ?_, ?_, ?_⟩
  · refine complete_of (fun p hp => ?_) hgen
    have hrd := ready _ (hh.minJerk p hp) (hu.minJerk p hp)
    exact ⟨hrd.apex_pos, hrd.apex_lt⟩
  · intro p lo ro lp rp h1 h2 h3
    obtain ⟨rfl, rfl⟩ := hph lp rp h3
    exact fc p lo ro h1 h2
  · intro p lo ro lp rp h1 h2 h3
    obtain ⟨rfl, rfl⟩ := hph lp rp h3
    exact fm p lo ro h1 h2

/-- Plans that start when the robot stands still, or has just landed, are turned into trajectories. -/
theorem plan_generates (hexp : Trig.exp (0 : K) = 1) (hh : History w) (hu : Usable w gap dT) (hd : 0 < dT) (hg : 0 < gap)
    {p : Planner K} (hp : Timed p) (hgm : gap ≤ p.minTime) {integ : Integrator K} {l r : FootPrint K} {t1 : K} {pl : Plan K}
    (hpl : PlanOf p integ l r initTime t1 left right pl) (hlen : l.steps.length = r.steps.length) (hlen1 : l.steps.length ≤ 1)
    (hn : Names w l r) (hf : pl.q.firstStep = true ∨ initTime + gap ≤ pl.prev.impactTime + p.minTime)
    (hs : SortedPtrs left right sorted) :
    ∃ w', w.generateFromFootPrints left right initTime dT sorted = .ok (true, w') ∧ Served w w' left right := by
  have hv : ValidTimings w.cfg := by
    obtain ⟨ops, e⟩ := hh.cfg
    rw [e]; exact C36_settings ops
  have hm : 0 < p.minTime := lt_of_lt_of_le hg hgm
  obtain ⟨a, as, b, bs, hl, hr, ha, hb, nl, nr, hw⟩ := planned_wellSpaced hpl hp hm hlen hlen1
  have hw' := WellSpaced.mono hw hgm
  have hdg : dT / 2 ≤ gap := by
    have h1 := hu.fine.single
    have h2 := hv.switch_pos
    have h3 := hv.switch_lt
    nlinarith
  have hn' : Names w left right := by
    obtain ⟨n1, n2, n3, n4⟩ := hpl.named hn.left_steps hn.right_steps
    refine ⟨n1, n2, by rw [n3, n4]; exact hn.differ, fun h => ?_⟩
    rw [n3, n4]; exact hn.dcm h
  obtain ⟨⟨o, t⟩, ho⟩ := timeline_accepts hv hd hu.fine.last hn'.differ hl hr ha hb (WellSpaced.mono hw' hdg) hs
  refine generates hexp hh hu hn' hs ho (shifts_increasing hv hg hu.fine hw' hs ?_ ho)
  intro s hs
  obtain ⟨e, he, rfl⟩ := hpl.tails hlen hlen1 s hs
  exact hpl.first_landing hp hgm hf e he

/-- `generate` when the robot stands still and the planner succeeds. -/
theorem serves (hpi : (0 : K) ≤ Trig.pi) (hexp : Trig.exp (0 : K) = 1) {integ : Integrator K} {fuel : Nat} {sort : Sorter K}
    (hsort : ∀ l r, SortedPtrs l r (sort l r)) (hw : Reached integ sort w) (hd : 0 < dT) (hm : 0 < w.planner.minTime)
    (hu : Usable w w.planner.minTime dT) (hn : Names w w.left w.right) (hstill : StandsStill w.left w.right)
    (hL : NonNeg w.left) (hR : NonNeg w.right) {t1 : K} {p' : Planner K}
    (h : w.planner.computeNewSteps integ fuel w.left w.right initTime t1 = .done true p' left right) :
    ∃ w', w.generate integ fuel sort initTime dT t1 = .done true w' ∧
      Served { w with planner := p', left := left, right := right } w' left right := by
  have hp := hw.timed hpi
  obtain ⟨d, hpl⟩ := exists_plan hp hL hR h
  have hlen : w.left.steps.length = w.right.steps.length ∧ w.left.steps.length ≤ 1 := by
    rcases hstill with ⟨e1, e2⟩ | ⟨l, r, e1, e2, -⟩ <;> rw [e1, e2] <;> simp
  have hfirst : d.q.firstStep = true := by
    refine hpl.starts_together ?_
    rcases hstill with ⟨e1, e2⟩ | ⟨l, r, e1, e2, e⟩
    · exact Or.inl ⟨e1, e2⟩
    · exact Or.inr ⟨l, r, by rw [e1]; rfl, by rw [e2]; rfl, e⟩
  have hplan : w.plan integ fuel initTime t1 = .done true { w with planner := p', left := left, right := right } := by
    unfold plan
    rw [h]
  have hh := hw.history.plan hplan
  obtain ⟨w', h1, h2⟩ := plan_generates (w := { w with planner := p', left := left, right := right }) (dT := dT) hexp hh
    ⟨hu.fine, hu.cubic, hu.minJerk, hu.zmp, hu.dcm, hu.height⟩ hd hm hp (le_refl _) hpl hlen.1 hlen.2
    ⟨hn.left_steps, hn.right_steps, hn.differ, hn.dcm⟩ (Or.inl hfirst) (hsort left right)
  refine ⟨w', ?_, h2⟩
  unfold generate
  rw [hplan]
  simp only [Result.next, fromMembers, h1]

/-- C80: in every state the object can be in, if the settings are usable and the robot stands still, `generate` succeeds as soon
as the planner does, with the planned footsteps, and every trajectory is delivered. -/
theorem C80_generate (hpi : (0 : K) ≤ Trig.pi) (hexp : Trig.exp (0 : K) = 1) {integ : Integrator K} {fuel : Nat} {sort : Sorter K}
    (hsort : ∀ l r, SortedPtrs l r (sort l r)) (hw : Reached integ sort w) (hd : 0 < dT) (hm : 0 < w.planner.minTime)
    (hu : Usable w w.planner.minTime dT) (hn : Names w w.left w.right) (hstill : StandsStill w.left w.right)
    (hL : NonNeg w.left) (hR : NonNeg w.right) {t1 : K} {p' : Planner K}
    (h : w.planner.computeNewSteps integ fuel w.left w.right initTime t1 = .done true p' left right) :
    ∃ w' n, w.generate integ fuel sort initTime dT t1 = .done true w' ∧ w'.left = left ∧ w'.right = right ∧ w'.planner = p' ∧
      Complete w' n := by
  obtain ⟨w', h1, h2⟩ := serves hpi hexp hsort hw hd hm hu hn hstill hL hR h
  obtain ⟨n, hn⟩ := h2.complete
  exact ⟨w', n, h1, h2.left_steps, h2.right_steps, h2.planner, hn⟩

/-- C80: the planner does succeed unless there is a listed reason to refuse the request. -/
theorem C80_valid_requests_succeed (hpi : (0 : K) ≤ Trig.pi) (hexp : Trig.exp (0 : K) = 1) {integ : Integrator K} {fuel : Nat}
    {sort : Sorter K} (hsort : ∀ l r, SortedPtrs l r (sort l r)) (hw : Reached integ sort w) (hd : 0 < dT) (hm : 0 < w.planner.minTime)
    (hdT : 0 < w.planner.dT)
    (hu : Usable w w.planner.minTime dT) (hn : Names w w.left w.right) (hstill : StandsStill w.left w.right)
    (hL : NonNeg w.left) (hR : NonNeg w.right) {t1 : K} (hv : ¬ Refused w.planner integ w.left w.right initTime t1)
    (hub : ∀ why, w.planner.controller = .personFollowing → w.left.steps = [] → w.planner.ctrl.person.getDesiredPoint initTime ≠ .ub why)
    (hf : (⌈(t1 - initTime) / w.planner.dT⌉₊ + 1) * (⌈(t1 - initTime) / w.planner.dT⌉₊ + 3) < fuel) :
    ∃ w' n, w.generate integ fuel sort initTime dT t1 = .done true w' ∧ Complete w' n := by
  have hb : w.left.steps = [] ↔ w.right.steps = [] := by
    rcases hstill with ⟨e1, e2⟩ | ⟨l, r, e1, e2, -⟩ <;> rw [e1, e2] <;> simp
  obtain ⟨p', l', r', h⟩ := C58_valid_requests_succeed hdT (hw.timed hpi).nominal_nonneg hv hb hub hf
  obtain ⟨w', n, h1, -, -, -, h2⟩ := C80_generate hpi hexp hsort hw hd hm hu hn hstill hL hR h
  exact ⟨w', n, h1, h2⟩

/-! ## C83 -/

/-- C83: the feet of a walk generated when the robot stands still follow the planned steps, with both generators. -/
theorem C83_feet (hpi : (0 : K) ≤ Trig.pi) (hexp : Trig.exp (0 : K) = 1) {integ : Integrator K} {fuel : Nat} {sort : Sorter K}
    (hsort : ∀ l r, SortedPtrs l r (sort l r)) (hw : Reached integ sort w) (hd : 0 < dT) (hm : 0 < w.planner.minTime)
    (hu : Usable w w.planner.minTime dT) (hn : Names w w.left w.right) (hstill : StandsStill w.left w.right)
    (hL : NonNeg w.left) (hR : NonNeg w.right) {t1 : K} (h : w.generate integ fuel sort initTime dT t1 = .done true w') :
    ∃ lp rp, w'.outputs.getStepPhases = .ok (lp, rp) ∧
      (∀ p, w'.cubic = some p → ∃ lo ro, p.result = some (lo, ro) ∧ FeetFollow lp w'.left.steps lo ∧ FeetFollow rp w'.right.steps ro) ∧
      ∀ p, w'.minJerk = some p → ∃ lo ro, p.result = some (lo, ro) ∧ FeetFollow lp w'.left.steps lo ∧ FeetFollow rp w'.right.steps ro := by
  obtain ⟨p', l', r', e⟩ : ∃ p' l' r', w.planner.computeNewSteps integ fuel w.left w.right initTime t1 = .done true p' l' r' := by
    rcases next_done h with ⟨w1, e1, -⟩ | ⟨h, -⟩
    · unfold plan at e1
      split at e1
      · rename_i b p l r e
        cases e1
        exact ⟨p, l, r, e⟩
      · cases e1
      · cases e1
    · cases h
  obtain ⟨w2, h1, h2⟩ := serves hpi hexp hsort hw hd hm hu hn hstill hL hR e
  rw [h] at h1
  cases h1
  obtain ⟨n, hc⟩ := h2.complete
  obtain ⟨lp, rp, e1, -, -⟩ := hc.phases
  refine ⟨lp, rp, e1, fun p hp => ?_, fun p hp => ?_⟩
  · obtain ⟨lo, ro, e2, -⟩ := hc.cubic p hp
    refine ⟨lo, ro, e2, ?_⟩
    rw [h2.left_steps, h2.right_steps]
    exact h2.cubic p lo ro lp rp hp e2 e1
  · obtain ⟨lo, ro, e2, -⟩ := hc.minJerk p hp
    refine ⟨lo, ro, e2, ?_⟩
    rw [h2.left_steps, h2.right_steps]
    exact h2.minJerk p lo ro lp rp hp e2 e1

/-! ## C82 -/

/-- What the getters of the generators return. -/
structure SameResults (w w' : Walker K) : Prop where
  outputs : w'.outputs = w.outputs
  cubic : w'.cubic.bind Plugin.result = w.cubic.bind Plugin.result
  minJerk : w'.minJerk.bind Plugin.result = w.minJerk.bind Plugin.result
  zmp : w'.zmp.bind Plugin.result = w.zmp.bind Plugin.result
  dcm : w'.dcm.bind Plugin.result = w.dcm.bind Plugin.result
  height : w'.height.bind Plugin.result = w.height.bind Plugin.result

/-- C82: settings do not touch what has been generated. -/
theorem C82_settings_keep (o : Op K) : SameResults w (w.run o) ∧ (w.run o).left = w.left ∧ (w.run o).right = w.right := by
  have ha : ∀ {S T : Type} (p : Option (Plugin S T)) (s : S), (Plugin.attach p s).bind Plugin.result = p.bind Plugin.result := by
    intro S T p s
    cases p <;> rfl
  have hs : ∀ {S T : Type} (p : Option (Plugin S T)) (f : S → S), (Plugin.set p f).bind Plugin.result = p.bind Plugin.result := by
    intro S T p s
    cases p <;> rfl
  cases o <;> refine ⟨⟨rfl, ?_, ?_, ?_, ?_, ?_⟩, rfl, rfl⟩ <;> first | rfl | simp only [run, ha, hs]

theorem timeline_rejected {cfg : GenSettings K} (h : Rejected left right initTime dT) :
    timeline cfg left right initTime dT sorted = .fail := by
  unfold timeline
  rcases h with h | h | h | h | ⟨s, h, ht⟩
  · rw [h]
  · rw [h]; cases left.steps <;> rfl
  · cases left.steps <;> cases right.steps <;> simp [h]
  · cases left.steps <;> cases right.steps <;> by_cases hn : left.footName = right.footName <;> simp [h, hn]
  · cases hl : left.steps with
    | nil => rfl
    | cons a ls =>
      cases hr : right.steps with
      | nil => rfl
      | cons b rs =>
        rw [hl, hr] at h
        simp only [List.head?_cons, Option.some.injEq] at h
        have hm : initTime < max a.impactTime b.impactTime := by
          rcases h with rfl | rfl
          · exact lt_max_of_lt_left ht
          · exact lt_max_of_lt_right ht
        by_cases hn : left.footName = right.footName
        · simp only [if_pos hn]
        · by_cases hd : dT ≤ 0
          · simp only [if_neg hn, if_pos hd]
          · simp only [if_neg hn, if_neg hd, if_pos hm]

/-- C82 (partial).  Full statement: a request that fails leaves what was generated before.  What holds: so it is if the request is
refused on arrival, or by the planner.  Missing: failures of a trajectory generator, see `C82_mixture_witness`. -/
theorem C82_refused_keep_partial (hr : Rejected left right initTime dT) :
    ∃ w', w.generateFromFootPrints left right initTime dT sorted = .ok (false, w') ∧ SameResults w w' := by
  have ht := timeline_rejected (cfg := w.cfg) (sorted := sorted) hr
  refine ⟨{ w with left := left, right := right, outputs := outputsAfter w.cfg left right initTime dT sorted w.outputs }, ?_, ?_⟩
  · unfold generateFromFootPrints
    simp only [ht]
  · exact ⟨C61_rejected_keep hr _, rfl, rfl, rfl, rfl, rfl⟩

/-- C82 (partial): the same for requests that fail in the planner. -/
theorem C82_not_planned_keep_partial {integ : Integrator K} {fuel : Nat} {sort : Sorter K} {t1 : K} {p' : Planner K}
    (h : w.planner.computeNewSteps integ fuel w.left w.right initTime t1 = .done false p' left right) :
    ∃ w', w.generate integ fuel sort initTime dT t1 = .done false w' ∧ SameResults w w' := by
  refine ⟨{ w with planner := p', left := left, right := right }, ?_, ⟨rfl, rfl, rfl, rfl, rfl, rfl⟩⟩
  unfold generate plan
  rw [h]
  rfl

/-- C82 (partial): the same for re-planning. -/
theorem C82_not_replanned_keep_partial {integ : Integrator K} {fuel : Nat} {sort : Sorter K} {t1 : K} {q : Request K} {p' : Planner K}
    {prev : Option (Step K × Step K)}
    (h : Gen.replan w.planner integ fuel w.dcmVelocity w.left w.right initTime t1 q = .done false p' left right prev) :
    ∃ w', w.reGenerate integ fuel sort initTime dT t1 q = .done false w' ∧ SameResults w w' := by
  unfold reGenerate Walker.replan
  rw [h]
  refine ⟨_, rfl, ⟨rfl, rfl, rfl, ?_, rfl, rfl⟩⟩
  cases prev with
  | none => rfl
  | some s => simp only [Plugin.set]; cases w.zmp <;> rfl

end

/-! ## C80: re-planning -/

/-- C80 (partial).  Full statement: with usable settings a re-planning request that the planner accepts is served.  Missing:
requests that come late, see `C80_late_witness`. -/
theorem C80_regenerate_partial {w : Walker ℝ} {integ : Integrator ℝ} {fuel : Nat} {sort : Sorter ℝ} {gap t0 t1 dT : ℝ} {q : Request ℝ}
    {p' : Planner ℝ} {left right : FootPrint ℝ} {prev : Option (Step ℝ × Step ℝ)}
    (hsort : ∀ l r, SortedPtrs l r (sort l r)) (hw : Reached integ sort w) (hd : 0 < dT) (hg : 0 < gap) (hgm : gap ≤ w.planner.minTime)
    (hu : Usable w gap dT) (hdiff : w.left.footName ≠ w.right.footName)
    (hdcm : w.dcm ≠ none → w.left.footName = "left" ∧ w.right.footName = "right") (hL : NonNeg w.left) (hR : NonNeg w.right)
    (htime : Timely q t0 w.dcmVelocity w.left.steps w.right.steps gap w.planner.minTime)
    (h : Gen.replan w.planner integ fuel w.dcmVelocity w.left w.right t0 t1 q = .done true p' left right prev) :
    ∃ w' n, w.reGenerate integ fuel sort t0 dT t1 q = .done true w' ∧ w'.left = left ∧ w'.right = right ∧ w'.planner = p' ∧
      Complete w' n := by
  have hp := hw.timed (by simp [Real.pi_pos.le])
  obtain ⟨sL, sR, cL, cR, d, h1, h2, -, h4, n1, n2, hpl⟩ := C52_contacts_partial hp hL hR h
  have hf : d.q.firstStep = true ∨ t0 + gap ≤ d.prev.impactTime + w.planner.minTime := by
    rcases htime sL sR cL cR h1 h2 h4 with e | e
    · exact Or.inl (hpl.starts_together (Or.inr ⟨cL, cR, rfl, rfl, e⟩))
    · right
      rw [hpl.prev_latest (l := cL) (r := cR) rfl rfl]
      exact e
  obtain ⟨z, hre, hz⟩ : ∃ z, w.replan integ fuel t0 t1 q = .done true { w with planner := p', left := left, right := right, zmp := z } ∧
      (z ≠ none → w.zmp ≠ none) := by
    unfold Walker.replan
    rw [h]
    refine ⟨_, rfl, ?_⟩
    cases prev with
    | none => exact id
    | some s => intro hne he; exact hne (by simp [Plugin.set, he])
  have hh := hw.history.replan hre
  obtain ⟨w', k1, k2⟩ := plan_generates (w := { w with planner := p', left := left, right := right, zmp := z }) (dT := dT)
    (by simp) hh ⟨hu.fine, hu.cubic, hu.minJerk, fun hne => hu.zmp (hz hne), hu.dcm, hu.height⟩ hd hg hp hgm hpl rfl (le_refl _)
    ⟨by intro s hs; simp only [List.mem_singleton] at hs; rw [hs]; exact n1, by intro s hs; simp only [List.mem_singleton] at hs; rw [hs]; exact n2,
      hdiff, hdcm⟩ hf (hsort left right)
  obtain ⟨n, hn⟩ := k2.complete
  refine ⟨w', n, ?_, k2.left_steps, k2.right_steps, k2.planner, hn⟩
  unfold reGenerate
  rw [hre]
  simp only [Result.next, fromMembers, k1]

/-! ## Examples -/

section
variable {K : Type} [Field K] [LinearOrder K] [IsStrictOrderedRing K] [FloorRing K] [Trig K]

/-- One way of sorting. -/
def insertion : Sorter K := fun l r => (Ptr.ofFeet l r).insertionSort (fun a b => a.step.impactTime ≤ b.step.impactTime)

theorem insertion_sorts (l r : FootPrint K) : SortedPtrs l r (insertion l r) := by
  have : Std.Total (fun a b : Ptr K => a.step.impactTime ≤ b.step.impactTime) := ⟨fun a b => le_total _ _⟩
  have : IsTrans (Ptr K) (fun a b => a.step.impactTime ≤ b.step.impactTime) := ⟨fun a b c h1 h2 => le_trans h1 h2⟩
  exact ⟨List.perm_insertionSort _ _, List.pairwise_insertionSort _ _⟩

theorem Reached.runAll {integ : Integrator K} {sort : Sorter K} (ops : List (Op K)) {w : Walker K} (h : Reached integ sort w) :
    Reached integ sort (w.runAll ops) := by
  induction ops generalizing w with
  | nil => exact h
  | cons o ops ih => exact ih (.op _ _ h)

end

section

/-- Rational stand-ins, good enough for examples that go straight ahead. -/
local instance : Trig ℚ :=
  ⟨fun _ => 1, fun _ => 0, fun q => Nat.sqrt (⌊q * 10 ^ 8⌋₊) / 10 ^ 4, fun x => 1 + x, fun _ => 0, fun _ _ => 0, 22 / 7⟩

/-- The unicycle goes straight ahead. -/
private def straight : Integrator ℚ := fun p u t0 _ =>
  (p.ctrl, some fun t => ⟨⟨u.position.x + (t - t0) / 40, u.position.y⟩, u.angle⟩)

/-- Every generator attached. -/
private def demo : Walker ℚ := (Walker.new 0).runAll [.planner (.setPlannerPeriod (1 / 2)), .planner (.setUnicycleController .direct),
  .addCubic, .cubic (.setStepHeight (1 / 10)), .addMinJerk, .minJerk (.setStepHeight (1 / 10)),
  .addZmp ⟨0, 0, 0, 0, ⟨0, 0, 0⟩, true, ⟨0, 0, 0, ""⟩, ⟨0, 0, 0, ""⟩, true, []⟩,
  .addDcm, .dcm (.setOmega 1), .addHeight, .height 1 0]

/-- Whether a call returned true. -/
private def isTrue : Result ℚ → Bool
  | .done b _ => b
  | _ => false

private theorem demo_usable : Usable demo demo.planner.minTime (1 / 2) where
  fine := ⟨by decide +kernel, by decide +kernel, by decide +kernel, by decide +kernel⟩
  cubic := by intro p h; cases h; decide +kernel
  minJerk := by intro p h; cases h; decide +kernel
  zmp := by intro _; decide +kernel
  dcm := by
    intro p h; cases h
    exact ⟨⟨by decide +kernel, by decide +kernel, by decide +kernel⟩, by decide +kernel, by decide +kernel⟩
  height := by intro p h; cases h; decide +kernel

private theorem demo_plans : isTrue (demo.plan straight 1000 0 10) = true := by decide +kernel

/-- Non-vacuity of C80. -/
example : ∃ w' n, demo.generate straight 1000 insertion 0 (1 / 2) 10 = .done true w' ∧ Complete w' n := by
  obtain ⟨w1, h⟩ : ∃ w1, demo.plan straight 1000 0 10 = .done true w1 := by
    have := demo_plans
    generalize demo.plan straight 1000 0 10 = r at this
    cases r with
    | done b w => cases b <;> simp_all [isTrue]
    | ub => simp [isTrue] at this
    | outOfFuel => simp [isTrue] at this
  unfold plan at h
  split at h <;> cases h
  rename_i p l r e
  obtain ⟨w', n, h1, -, -, -, h2⟩ := C80_generate (by decide +kernel) (by decide +kernel) insertion_sorts
    (Reached.runAll _ (.new 0)) (by decide +kernel) (by decide +kernel) demo_usable
    ⟨by simp [Named, demo, Walker.runAll, run, Walker.new], by simp [Named, demo, Walker.runAll, run, Walker.new], by decide +kernel, fun _ => ⟨rfl, rfl⟩⟩ (Or.inl ⟨rfl, rfl⟩)
    (by intro s hs; cases hs) (by intro s hs; cases hs) e
  exact ⟨w', n, h1, h2⟩

/-- Non-vacuity of C81 and C83. -/
example : ∃ w', demo.generate straight 1000 insertion 0 (1 / 2) 10 = .done true w' ∧ (∃ n, Complete w' n) ∧
    ∃ lp rp p lo ro, w'.outputs.getStepPhases = .ok (lp, rp) ∧ w'.minJerk = some p ∧ p.result = some (lo, ro) ∧
      FeetFollow lp w'.left.steps lo ∧ FeetFollow rp w'.right.steps ro := by
  have hr : Reached straight insertion demo := Reached.runAll _ (.new 0)
  have h0 : isTrue (demo.generate straight 1000 insertion 0 (1 / 2) 10) = true := by decide +kernel
  obtain ⟨w', h⟩ : ∃ w', demo.generate straight 1000 insertion 0 (1 / 2) 10 = .done true w' := by
    generalize demo.generate straight 1000 insertion 0 (1 / 2) 10 = r at h0
    cases r with
    | done b w => cases b <;> simp_all [isTrue]
    | ub => simp [isTrue] at h0
    | outOfFuel => simp [isTrue] at h0
  have hm : (match demo.generate straight 1000 insertion 0 (1 / 2) 10 with
      | .done _ w => w.minJerk.isSome
      | _ => false) = true := by decide +kernel
  rw [h] at hm
  obtain ⟨p, hp⟩ := Option.isSome_iff_exists.mp hm
  obtain ⟨lp, rp, e1, -, e2⟩ := C83_feet (by decide +kernel) (by decide +kernel) insertion_sorts hr (by decide +kernel)
    (by decide +kernel) demo_usable ⟨by simp [Named, demo, Walker.runAll, run, Walker.new], by simp [Named, demo, Walker.runAll, run, Walker.new],
      by decide +kernel, fun _ => ⟨rfl, rfl⟩⟩ (Or.inl ⟨rfl, rfl⟩) (by intro s hs; cases hs) (by intro s hs; cases hs) h
  obtain ⟨lo, ro, e3, e4⟩ := e2 p hp
  exact ⟨w', h, C81_complete hr (c := .generate 0 (1 / 2) 10) h, lp, rp, p, lo, ro, e1, hp, e3, e4⟩

/-- Short steps, two generators. -/
private def hurry : Walker ℚ := (Walker.new 0).runAll [.planner (.setPlannerPeriod (1 / 2)), .planner (.setUnicycleController .direct),
  .planner (.setCostWeights 1 0), .addCubic, .cubic (.setStepHeight (1 / 10)), .addHeight, .height 1 0]

/-- The walk of `hurry`, and the one that should replace it when its last step is about to come. -/
private def lateCheck : Bool :=
  match hurry.generate straight 1000 insertion 0 (1 / 2) 10 with
  | .done true w =>
    w.zmp.isNone && w.dcm.isNone && w.minJerk.isNone && w.cubic.all (fun p => decide (0 ≤ p.state.stepHeight)) &&
    w.height.all (fun p => decide (0 ≤ p.state.height)) &&
    decide ((1 / 2 : ℚ) / 2 ≤ w.cfg.switchPercentage / 2 * (w.planner.minTime - 1 / 2 / 2)) &&
    decide ((1 / 2 : ℚ) ≤ (1 - w.cfg.switchPercentage) * (w.planner.minTime - 1 / 2 / 2)) &&
    decide ((1 / 2 : ℚ) ≤ (1 - w.cfg.switchPercentage) * w.cfg.nominalStepTime) &&
    decide ((1 / 2 : ℚ) / 2 ≤ w.cfg.endSwitch) &&
    decide (w.left.steps.all (fun s => s.footName = w.left.footName) ∧ w.right.steps.all (fun s => s.footName = w.right.footName) ∧
      w.left.footName ≠ w.right.footName) &&
    (match w.replan straight 1000 10 15 .plain with
      | .done true _ => true
      | _ => false) &&
    (match w.reGenerate straight 1000 insertion 10 (1 / 2) 15 .plain with
      | .done false w' => decide (w'.outputs.leftContact.length = 17) && decide ((w'.cubic.bind Plugin.result).isNone) &&
        decide ((w'.height.bind Plugin.result).map List.length = some 33)
      | _ => false)
  | _ => false

private theorem late_checked : lateCheck = true := by decide +kernel

private theorem late : ∃ w w1 w' : Walker ℚ, Reached straight insertion w ∧ Usable w w.planner.minTime (1 / 2) ∧ Names w w.left w.right ∧
    w.replan straight 1000 10 15 .plain = .done true w1 ∧ w.reGenerate straight 1000 insertion 10 (1 / 2) 15 .plain = .done false w' ∧
    w'.outputs.leftContact.length = 17 ∧ w'.cubic.bind Plugin.result = none ∧ (w'.height.bind Plugin.result).map List.length = some 33 := by
  have h := late_checked
  unfold lateCheck at h
  split at h
  case h_2 => cases h
  rename_i w hw
  have hr : Reached straight insertion w :=
    .call _ _ 1000 (.generate 0 (1 / 2) 10) true (Reached.runAll _ (.new 0)) hw
  simp only [Bool.and_eq_true, decide_eq_true_eq, Option.isNone_iff_eq_none] at h
  obtain ⟨⟨⟨⟨⟨⟨⟨⟨⟨⟨⟨h1, h2⟩, h0⟩, h3⟩, h4⟩, h5⟩, h6⟩, h7⟩, h8⟩, h9, h10, h11⟩, h12⟩, h13⟩ := h
  split at h12
  case h_2 => cases h12
  rename_i w1 e1
  split at h13
  case h_2 => cases h13
  rename_i w' e2
  simp only [Bool.and_eq_true, decide_eq_true_eq, Option.isNone_iff_eq_none] at h13
  refine ⟨w, w1, w', hr, ⟨⟨h5, h6, fun _ => h7, h8⟩, ?_, ?_, fun h => absurd h1 h, ?_, ?_⟩, ⟨?_, ?_, h11, fun h => absurd h2 h⟩, e1, e2,
    h13.1.1, h13.1.2, h13.2⟩
  · intro p hp; rw [hp] at h3; simpa using h3
  · intro p hp; rw [hp] at h0; cases h0
  · intro p hp; rw [hp] at h2; cases h2
  · intro p hp; rw [hp] at h4; simpa using h4
  · intro s hs; simpa using List.all_eq_true.mp h9 s hs
  · intro s hs; simpa using List.all_eq_true.mp h10 s hs

/-- C80 does not extend to every re-planning request: shortly before a step lands there is no time left for the sample that the feet
generators require, and the request fails although the planner accepted it. -/
theorem C80_late_witness : ∃ w w1 w' : Walker ℚ, Reached straight insertion w ∧ Usable w w.planner.minTime (1 / 2) ∧ Names w w.left w.right ∧
    w.replan straight 1000 10 15 .plain = .done true w1 ∧ w.reGenerate straight 1000 insertion 10 (1 / 2) 15 .plain = .done false w' := by
  obtain ⟨w, w1, w', h1, h2, h3, h4, h5, -⟩ := late
  exact ⟨w, w1, w', h1, h2, h3, h4, h5⟩

/-- C82 does not hold: after a request that fails in a trajectory generator the contacts are those of the new walk, the heights of the
centre of mass those of the old one. -/
theorem C82_mixture_witness : ∃ w w' : Walker ℚ, Reached straight insertion w ∧
    w.reGenerate straight 1000 insertion 10 (1 / 2) 15 .plain = .done false w' ∧
    w'.outputs.leftContact.length = 17 ∧ (w'.height.bind Plugin.result).map List.length = some 33 := by
  obtain ⟨w, w1, w', h1, h2, h3, h4, h5, h6, -, h7⟩ := late
  exact ⟨w, w', h1, h5, h6, h7⟩

/-- Non-vacuity of C82: a request is refused, a plan is not made. -/
example : Rejected demo.left demo.right 0 (1 / 2) ∧
    (match demo.planner.computeNewSteps straight 1000 demo.left demo.right 0 (-1) with
      | .done false _ _ _ => true
      | _ => false) = true := ⟨Or.inl rfl, by decide +kernel⟩

end

/-- Non-vacuity of `C80_regenerate_partial`: feet in contact since the beginning, a walk to be replaced. -/
example (sol : Planner ℝ → UState ℝ → ℝ → ℝ → ℝ → UState ℝ) : ∃ (w w' : Walker ℝ) (fuel n : Nat),
    w.left.steps.length = 2 ∧ w.cubic ≠ none ∧
    w.reGenerate (fun p u a b => (p.ctrl, some (sol p u a b))) fuel insertion 0 (1 / 100) 20 .plain = .done true w' ∧ Complete w' n := by
  obtain ⟨p', l', r', h⟩ := Planner.realDemo_plans sol "left" "right"
  have h1 : NonNeg (⟨[⟨⟨0, 7 / 100⟩, 0, 0, "left"⟩, ⟨⟨1, 7 / 100⟩, 0, 3, "left"⟩], "left"⟩ : FootPrint ℝ) := by
    intro s hs
    simp only [List.mem_cons, List.not_mem_nil, or_false] at hs
    rcases hs with rfl | rfl <;> norm_num
  have h2 : NonNeg (⟨[⟨⟨0, -7 / 100⟩, 0, 0, "right"⟩], "right"⟩ : FootPrint ℝ) := by
    intro s hs
    simp only [List.mem_singleton] at hs
    rw [hs]
  have hL : Present [(⟨⟨0, 7 / 100⟩, 0, 0, "left"⟩ : Step ℝ), ⟨⟨1, 7 / 100⟩, 0, 3, "left"⟩] 0 ⟨⟨0, 7 / 100⟩, 0, 0, "left"⟩ := by
    refine ⟨[], [⟨⟨1, 7 / 100⟩, 0, 3, "left"⟩], rfl, le_refl _, ?_⟩
    intro x hx
    simp only [List.mem_singleton] at hx
    rw [hx]; norm_num
  have hR : Present [(⟨⟨0, -7 / 100⟩, 0, 0, "right"⟩ : Step ℝ)] 0 ⟨⟨0, -7 / 100⟩, 0, 0, "right"⟩ :=
    ⟨[], [], rfl, le_refl _, fun x hx => by cases hx⟩
  have h3 := C52_plain h1 h2 _ _ hL hR h
  -- the footprints are those of a request that was refused
  obtain ⟨w, hw⟩ : ∃ w : Walker ℝ, w = { (Walker.new 0).runAll [.planner (.setUnicycleController .direct), .addCubic, .cubic (.setStepHeight (1 / 10))] with
      left := ⟨[⟨⟨0, 7 / 100⟩, 0, 0, "left"⟩, ⟨⟨1, 7 / 100⟩, 0, 3, "left"⟩], "left"⟩, right := ⟨[⟨⟨0, -7 / 100⟩, 0, 0, "right"⟩], "right"⟩ } :=
    ⟨_, rfl⟩
  have hr : Reached (fun p u a b => (p.ctrl, some (sol p u a b))) insertion w := by
    refine .call _ _ 0 (.fromFootPrints w.left w.right 0 0) false (Reached.runAll [.planner (.setUnicycleController .direct), .addCubic, .cubic (.setStepHeight (1 / 10))] (.new 0)) ?_
    have hrej : Rejected w.left w.right (0 : ℝ) 0 := Or.inr (Or.inr (Or.inr (Or.inl (le_refl _))))
    simp only [Walker.call, generateFromFootPrints, timeline_rejected hrej, C61_rejected_keep hrej]
    rw [hw]
  have hcub : ∃ s, w.cubic = some ⟨s, none⟩ ∧ s.stepHeight = 1 / 10 := by
    refine ⟨_, by rw [hw]; rfl, ?_⟩
    norm_num [FeetSettings.run]
  have hpl : w.planner = Planner.realDemo := by rw [hw]; rfl
  have hcfg : w.cfg = GenSettings.new := by rw [hw]; rfl
  have hus : Usable w 1 (1 / 100) := by
    refine ⟨⟨?_, ?_, ?_, ?_⟩, ?_, ?_, ?_, ?_, ?_⟩
    · rw [hcfg]; norm_num [GenSettings.new]
    · rw [hcfg]; norm_num [GenSettings.new]
    · rw [hcfg]; norm_num [GenSettings.new]
    · rw [hcfg]; norm_num [GenSettings.new]
    · intro p hp
      obtain ⟨s, e1, e2⟩ := hcub
      rw [e1] at hp
      cases hp
      simp only [e2]
      norm_num
    · intro p hp; rw [hw] at hp; cases hp
    · intro hp; rw [hw] at hp; exact absurd rfl hp
    · intro p hp; rw [hw] at hp; cases hp
    · intro p hp; rw [hw] at hp; cases hp
  have htm : Timely .plain 0 w.dcmVelocity w.left.steps w.right.steps 1 w.planner.minTime := by
    have hd : w.dcmVelocity = .absent := by rw [hw]; rfl
    rw [hd]
    rintro sL sR cL cR a1 a2 ⟨-, a3⟩
    obtain ⟨-, a4⟩ := a3 (by rintro ⟨v, hv, -⟩; cases hv)
    left
    obtain ⟨e1, e2⟩ := a4 (by rintro _ _ hq; cases hq)
    rw [e1, e2]
    rw [hw] at a1 a2
    obtain ⟨o1, n1, e3, e4, -⟩ := a1
    obtain ⟨o2, n2, e5, e6, -⟩ := a2
    have g1 := h1 sL (by show sL ∈ _; simp only at e3; rw [e3]; simp)
    have g2 := h2 sR (by show sR ∈ _; simp only at e5; rw [e5]; simp)
    rw [le_antisymm e4 g1, le_antisymm e6 g2]
  obtain ⟨w', n, k1, -, -, -, k2⟩ := C80_regenerate_partial (w := w) (gap := 1) (dT := 1 / 100) insertion_sorts hr (by norm_num) (by norm_num)
    (by rw [hpl]; norm_num [Planner.realDemo, Planner.new])
    hus
    (by rw [hw]; simp) (by intro hp; rw [hw] at hp; exact absurd rfl hp) (by rw [hw]; exact h1) (by rw [hw]; exact h2) htm
    (by rw [hpl]; rw [hw]; exact h3)
  refine ⟨w, w', _, n, by rw [hw]; rfl, ?_, k1, k2⟩
  obtain ⟨s, e, -⟩ := hcub
  rw [e]; simp

end Uni.Walker
