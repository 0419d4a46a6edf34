import Verif.Lemmas.GoesOn
import Verif.Props.Curve

/-! # C115: a walk can always be continued -/

set_option autoImplicit false
set_option linter.unusedSectionVars false

namespace Uni.Walker
open Spec Gen

variable {integ : Integrator ℝ} {sort : Sorter ℝ} {w : Walker ℝ} {dT time gap : ℝ} {legs : List (Leg ℝ)}

/-- C115: the walk of a robot that stood still can be continued. -/
theorem C115_begins (hsort : ∀ l r, SortedPtrs l r (sort l r)) (hreach : Reached integ sort w) (hg : 0 < gap) (hgm : gap ≤ w.planner.minTime)
    (hu : Usable w gap dT) (hn : Names w w.left w.right) (hstill : StandsStill w.left w.right) (hL : NonNeg w.left) (hR : NonNeg w.right)
    {fuel : Nat} {t0 t1 : ℝ} {w' : Walker ℝ} (h : w.generate integ fuel sort t0 dT t1 = .done true w') :
    Walking integ sort dT [] w' t0 ∧ Continuable sort gap dT w' t0 ∧ SameConfig w.planner w'.planner ∧
      (ComesToRest dT w → ComesToRest dT w') := by
  have hpi : (0 : ℝ) ≤ Trig.pi := by rw [pi_real]; exact Real.pi_pos.le
  have hp := hreach.timed hpi
  rcases next_done h with ⟨w1, e1, e2⟩ | ⟨hf, -⟩
  swap
  · cases hf
  obtain ⟨n1, n2, ordered, t, hmade⟩ := members_made_by e2
  unfold Walker.plan at e1
  split at e1
  rotate_left
  · cases e1
  · cases e1
  rename_i b p' l' r' hplan
  simp only [Result.done.injEq] at e1
  obtain ⟨rfl, rfl⟩ := e1
  simp only at n1 n2
  obtain ⟨d, hpl⟩ := Planner.exists_plan hp hL hR hplan
  have hlen : w.left.steps.length = w.right.steps.length ∧ w.left.steps.length ≤ 1 := by
    rcases hstill with ⟨e1, e2⟩ | ⟨l, r, e1, e2, -⟩ <;> rw [e1, e2] <;> simp
  have hfirst : d.q.firstStep = true := by
    refine hpl.starts_together ?_
    rcases hstill with ⟨e1, e2⟩ | ⟨l, r, e1, e2, e⟩
    · exact Or.inl ⟨e1, e2⟩
    · exact Or.inr ⟨l, r, by rw [e1]; rfl, by rw [e2]; rfl, e⟩
  have hnn := Planner.C28_nonneg hp hL hR hplan
  obtain ⟨m1, m2, m3, m4⟩ := hpl.named hn.left_steps hn.right_steps
  have hcfg : w'.cfg = w.cfg := hmade.cfg
  refine ⟨.start (c := .generate t0 dT t1) hreach h rfl, ⟨by rw [n1]; exact hnn.1, by rw [n2]; exact hnn.2, ?_, usable_made hmade ⟨hu.fine,
    hu.cubic, hu.minJerk, hu.zmp, hu.dcm, hu.height⟩, ⟨by rw [n1]; exact m1, by rw [n2]; exact m2,
      by rw [n1, n2, m3, m4]; exact hn.differ, ?_⟩, ?_⟩, ?_, ?_⟩
  · intro o t'' ht''
    obtain ⟨a, as, b, bs, hl, hr', ha, hb, nl, nr, hsp⟩ := planned_wellSpaced hpl hp (lt_of_lt_of_le hg hgm) hlen.1 hlen.2
    rw [n1, n2, hcfg] at ht''
    refine shifts_increasing hreach.valid hg hu.fine (WellSpaced.mono hsp hgm) (hsort l' r') ?_ ht''
    intro s hs
    obtain ⟨e, he, rfl⟩ := hpl.tails hlen.1 hlen.2 s hs
    exact hpl.first_landing hp hgm (Or.inl hfirst) e he
  · intro hne
    rw [n1, n2, m3, m4]
    refine hn.dcm fun he => ?_
    obtain ⟨p, hp⟩ := Option.ne_none_iff_exists'.mp hne
    obtain ⟨p0, _, f1, -⟩ := hmade.dcm p hp
    rw [he] at f1; cases f1
  · intro l r hl hr
    rw [n1] at hl
    rw [n2] at hr
    rcases hpl.begins.steps with ⟨hne, h1, h2⟩ | ⟨-, -, u, -, h1, h2⟩
    · rcases hstill with ⟨k1, k2⟩ | ⟨a, b, k1, k2, -⟩
      · exact absurd ⟨k1, k2⟩ hne
      · exact plan_together hpl ⟨h1.trans (show w.left = ⟨[a], w.left.footName⟩ by rw [← k1]),
          h2.trans (show w.right = ⟨[b], w.right.footName⟩ by rw [← k2])⟩ hl hr
    · exact plan_together hpl ⟨h1, h2⟩ hl hr
  · rw [show w'.planner = p' from members_planner e2]
    exact Planner.C59_configuration_kept hplan
  · rintro ⟨p, hp, hst⟩
    obtain ⟨p', hp'⟩ := Option.ne_none_iff_exists'.mp (members_dcm e2 (by simp [hp]))
    obtain ⟨p0, _, f1, -, f3⟩ := hmade.dcm p' hp'
    rw [hp] at f1
    cases f1
    obtain ⟨_, _, _, -, -, -, -, e⟩ := Dcm.compute_inv f3
    exact ⟨p', hp', by rw [e, hcfg]; exact hst⟩

/-- How a walk goes on, and how it is planned. -/
theorem goes_on_by (hsort : ∀ l r, SortedPtrs l r (sort l r)) (h : Walking integ sort dT legs w time) (hc : Continuable sort gap dT w time)
    (hg : 0 < gap) {k m : Nat} (hk : w.outputs.merges[k]? = some m) (changes : List (Planner.Op ℝ))
    (hw : Willing (w.runAll (changes.map .planner)).planner integ) (hgm : gap ≤ (w.runAll (changes.map .planner)).planner.minTime)
    {endTime : ℝ} (hend : m * dT + time < endTime) {q : Request ℝ} (hq : NonNegTimes q)
    (htime : Timely q (m * dT + time) (velocityAt w m) w.left.steps w.right.steps gap (w.runAll (changes.map .planner)).planner.minTime) :
    ∃ new, Walking integ sort dT (legs ++ [⟨w, time, m, q⟩]) new (m * dT + time) ∧ Continuable sort gap dT new (m * dT + time) ∧
      SameConfig (w.runAll (changes.map .planner)).planner new.planner ∧ (ComesToRest dT w → ComesToRest dT new) ∧ new.cfg = w.cfg ∧
      ∃ fuel nl nr sL sR cL cR, (w.runAll (changes.map .planner)).planner.computeNewSteps integ fuel ⟨[cL], nl⟩ ⟨[cR], nr⟩ (m * dT + time) endTime =
        .done true new.planner new.left new.right ∧ Present w.left.steps (m * dT + time) sL ∧ Present w.right.steps (m * dT + time) sR ∧
        0 ≤ cL.impactTime ∧ 0 ≤ cR.impactTime ∧
        (q = .plain → cL.position = sL.position ∧ cL.angle = sL.angle ∧ cR.position = sR.position ∧ cR.angle = sR.angle ∧
          (cL.impactTime = cR.impactTime ∨ cL.impactTime = sL.impactTime ∧ cR.impactTime = sR.impactTime)) := by
  have hpi : (0 : ℝ) ≤ Trig.pi := by rw [pi_real]; exact Real.pi_pos.le
  obtain ⟨before, fuel0, c, hrb, hcall, e1, e2⟩ := walking_call h
  subst e1 e2
  obtain ⟨w1, ordered, t, hreach, hmade⟩ := walking_made h
  obtain ⟨l0, r0, tt, hr⟩ := timeline_ok hmade.made
  have hd := hr.dT_pos
  have hpos := hc.phases _ _ hmade.made
  have h0 : 0 ≤ (timesOf c).1 := (hc.left l0 (List.mem_of_mem_head? hr.headL)).trans hr.init_l
  have hmd : 0 ≤ (m : ℝ) * (timesOf c).2 := mul_nonneg (Nat.cast_nonneg m) hd.le
  obtain ⟨sL, pL⟩ := exists_present (t := m * (timesOf c).2 + (timesOf c).1) hr.headL (by linarith [hr.init_l])
  obtain ⟨sR, pR⟩ := exists_present (t := m * (timesOf c).2 + (timesOf c).1) hr.headR (by linarith [hr.init_r])
  have hkt : t.merges[k]? = some m := by rw [hmade.outputs] at hk; exact hk
  have hm : m < t.left.length := (C38_strict hreach.valid (hsort _ _) hmade.made hpos).2 m (List.mem_of_getElem? hkt)
  -- the states of the generators of the ZMP and of the DCM
  obtain ⟨weight, hweight⟩ : ∃ weight, ∀ p, w.zmp = some p → p.state.initStates[k]? = some weight := by
    cases hz : w.zmp with
    | none => exact ⟨⟨0, 0, 0⟩, fun p hp => by cases hp⟩
    | some p =>
      obtain ⟨p0, o, -, -, ho⟩ := hmade.zmp p hz
      obtain ⟨x, -, hx⟩ := (Zmp.C69_states hreach.valid (hsort _ _) hmade.made hpos ho).2 k m hkt
      exact ⟨x, fun p' hp => by cases hp; exact hx⟩
  obtain ⟨pos, vel, hdcm, hvel⟩ : ∃ pos vel, (∀ p o, w.dcm = some p → p.result = some o → ∃ s, o.samples[m]? = some s ∧ s.pos = pos ∧ s.vel = vel) ∧
      ∀ p, w.dcm = some p → velocityAt w m = .known vel := by
    cases hz : w.dcm with
    | none => exact ⟨0, 0, fun p o hp => (by cases hp), fun p hp => (by cases hp)⟩
    | some p =>
      obtain ⟨n, hn⟩ := C81_complete hrb hcall
      obtain ⟨lp, rp, f1, f2, -⟩ := hn.phases
      rw [hmade.outputs] at f1
      simp only [GenOutputs.getStepPhases, Out.ok.injEq, Prod.mk.injEq] at f1
      obtain ⟨o, f3, f4, -⟩ := hn.dcm p hz
      have hlt : m < o.samples.length := by rw [f4, ← f2, ← f1.1]; exact hm
      refine ⟨o.samples[m].pos, o.samples[m].vel, ?_, ?_⟩
      · intro p' o' hp ho
        cases hp
        rw [f3] at ho
        cases ho
        exact ⟨_, List.getElem?_eq_getElem hlt, rfl, rfl⟩
      · intro p' hp
        simp [velocityAt, hz, f3, List.getElem?_eq_getElem hlt]
  -- the request
  obtain ⟨p2, hp2⟩ := runAll_planner changes w
  have hrun : w.runAll (changes.map .planner ++ [.zmp (.setWeightInitialState weight), .dcm (.setDCMInitialState pos vel)]) =
      { w with planner := p2, zmp := Plugin.set w.zmp fun z => z.setWeightInitialState weight,
               dcm := Plugin.set w.dcm fun d => (d.setDCMInitialState pos vel).2 } := by
    unfold runAll at hp2 ⊢
    rw [List.foldl_append, hp2]
    rfl
  have hr2 : Reached integ sort (w.runAll (changes.map .planner ++
      [.zmp (.setWeightInitialState weight), .dcm (.setDCMInitialState pos vel)])) := Reached.runAll _ hreach
  rw [hp2] at hw hgm htime ⊢
  simp only at hw hgm htime ⊢
  have ht2 := hr2.timed hpi
  have hv2 : (w.runAll (changes.map .planner ++ [.zmp (.setWeightInitialState weight), .dcm (.setDCMInitialState pos vel)])).dcmVelocity =
      velocityAt w m := by
    rw [hrun]
    cases hz : w.dcm with
    | none => simp [dcmVelocity, velocityAt, hz, Plugin.set]
    | some p => rw [hvel p hz]; simp [dcmVelocity, Plugin.set, Dcm.setDCMInitialState]
  have hunset : velocityAt w m ≠ .unset := by
    cases hz : w.dcm with
    | none => simp [velocityAt, hz]
    | some p => rw [hvel p hz]; simp
  have hu2 : Usable (w.runAll (changes.map .planner ++ [.zmp (.setWeightInitialState weight), .dcm (.setDCMInitialState pos vel)])) gap
      (timesOf c).2 := by
    rw [hrun]
    refine ⟨hc.usable.fine, hc.usable.cubic, hc.usable.minJerk, fun hne => hc.usable.zmp fun he => hne (by simp [Plugin.set, he]), ?_,
      hc.usable.height⟩
    intro p hp
    cases hz : w.dcm with
    | none => simp [Plugin.set, hz] at hp
    | some p0 =>
      simp only [Plugin.set, hz, Option.map_some, Option.some.injEq] at hp
      subst hp
      obtain ⟨v1, v2, v3⟩ := hc.usable.dcm p0 hz
      exact ⟨⟨v1.1, v1.2, v1.3⟩, v2, v3⟩
  rw [hrun] at ht2
  obtain ⟨fuel, p', l', r', prev, hre⟩ := replan_succeeds hw ht2 hc.left hc.right (by linarith) hend pL pR hunset hq
  obtain ⟨new, n, g1, g2, g3, g4, -⟩ := C80_regenerate_partial (t0 := m * (timesOf c).2 + (timesOf c).1) (t1 := endTime) (q := q) (fuel := fuel)
    (p' := p') (left := l') (right := r') (prev := prev) hsort hr2 hd hg (by rw [hrun]; exact hgm) hu2
    (by rw [hrun]; exact hc.names.differ)
    (by
      rw [hrun]
      intro hne
      exact hc.names.dcm fun he => hne (by simp [Plugin.set, he]))
    (by rw [hrun]; exact hc.left) (by rw [hrun]; exact hc.right) (by rw [hv2, hrun]; exact htime) (by rw [hv2, hrun]; exact hre)
  have hmerge : Merging integ sort before w new c k m q (timesOf c).2 :=
    ⟨hrb, ⟨fuel0, hcall⟩, hk, fuel, changes, weight, pos, vel, endTime, hweight, hdcm, g1⟩
  obtain ⟨_, _, _, w3, ordered', t', _, _, _, _, _, _, _, -, hm3, -, -, parts⟩ := parts hpi hmerge hc.left hc.right
  have hcfg : new.cfg = w.cfg := hm3.cfg.trans parts.cfg
  refine ⟨new, .again h rfl hmerge, ?_, ?_, ?_, hcfg, ?_⟩
  · obtain ⟨sL', sR', cL, cR, d, k1, k2, -, k4, n1, n2, hpl⟩ := C52_contacts_partial ht2 hc.left hc.right hre
    obtain ⟨_, _, _, _, _, _, _, _, _, o1, o2, o3, _⟩ := computeNewStepsFromMeasured_true hc.left hc.right hre
    have hnn := Planner.C28_nonneg ht2 (by intro s hs; simp at hs; rw [hs]; exact o1) (by intro s hs; simp at hs; rw [hs]; exact o2) o3
    refine ⟨by rw [g2]; exact hnn.1, by rw [g3]; exact hnn.2, ?_, ?_, ?_, ?_⟩
    · intro o t'' ht''
      have hf : d.q.firstStep = true ∨ m * (timesOf c).2 + (timesOf c).1 + gap ≤ d.prev.impactTime + p2.minTime := by
        rcases htime sL' sR' cL cR k1 k2 k4 with e | e
        · exact Or.inl (hpl.starts_together (Or.inr ⟨cL, cR, rfl, rfl, e⟩))
        · right
          rw [hpl.prev_latest (l := cL) (r := cR) rfl rfl]
          exact e
      obtain ⟨a, as, b, bs, hl, hr', ha, hb, nl, nr, hsp⟩ := planned_wellSpaced hpl ht2 (lt_of_lt_of_le hg hgm) rfl (le_refl _)
      rw [g2, g3, hcfg] at ht''
      refine shifts_increasing hreach.valid hg hc.usable.fine (WellSpaced.mono hsp hgm) (hsort l' r') ?_ ht''
      intro s hs
      obtain ⟨e, he, rfl⟩ := hpl.tails rfl (le_refl _) s hs
      exact hpl.first_landing ht2 hgm hf e he
    · refine usable_made hm3 ⟨by rw [parts.cfg]; exact hc.usable.fine, fun p hp => ?_, fun p hp => ?_, fun hne => ?_, fun p hp => ?_, fun p hp => ?_⟩
      · exact hc.usable.cubic p (parts.cubic ▸ hp)
      · exact hc.usable.minJerk p (parts.minJerk ▸ hp)
      · rw [parts.cfg]
        refine hc.usable.zmp fun he => hne ?_
        rcases parts.zmp with ⟨f, -⟩ | f <;> simp [f, he, Plugin.set]
      · rw [parts.dcm] at hp
        cases hz : w.dcm with
        | none => rw [hz] at hp; cases hp
        | some p1 =>
          rw [hz] at hp
          cases hp
          obtain ⟨v1, v2, v3⟩ := hc.usable.dcm p1 hz
          rw [parts.cfg]
          exact ⟨⟨v1.1, v1.2, v1.3⟩, v2, v3⟩
      · exact hc.usable.height p (parts.height ▸ hp)
    · refine ⟨parts.leftNamed.1, parts.rightNamed.1, by rw [parts.leftNamed.2, parts.rightNamed.2]; exact hc.names.differ, fun hne => ?_⟩
      rw [parts.leftNamed.2, parts.rightNamed.2]
      refine hc.names.dcm fun he => ?_
      obtain ⟨p, hp⟩ := Option.ne_none_iff_exists'.mp hne
      obtain ⟨p0, _, f1, -⟩ := hm3.dcm p hp
      rw [parts.dcm, he] at f1
      cases f1
    · intro l r hl hr
      rw [g2] at hl
      rw [g3] at hr
      rcases hpl.begins.steps with ⟨-, h1, h2⟩ | ⟨h1, -⟩
      · exact plan_together hpl ⟨h1, h2⟩ hl hr
      · simp at h1
  · rw [g4]
    obtain ⟨_, _, _, _, _, _, _, _, _, o1, o2, o3, _⟩ := computeNewStepsFromMeasured_true hc.left hc.right hre
    exact Planner.C59_configuration_kept o3
  · rintro ⟨p, hp, hst⟩
    obtain ⟨p', hp'⟩ := Option.ne_none_iff_exists'.mp (reGenerate_dcm g1 (by rw [hrun]; simp [Plugin.set, hp]))
    obtain ⟨p0, _, f1, -, f3⟩ := hm3.dcm p' hp'
    rw [parts.dcm, hp] at f1
    cases f1
    obtain ⟨_, _, _, -, -, -, -, e⟩ := Dcm.compute_inv f3
    exact ⟨p', hp', by rw [e, hcfg]; exact hst⟩
  · rw [g4, g2, g3]
    obtain ⟨sL', sR', reset, cL, cR, k1, k2, -, k4, o1, o2, o3, _⟩ := computeNewStepsFromMeasured_true hc.left hc.right hre
    refine ⟨_, _, _, sL', sR', _, _, o3, k1, k2, o1, o2, ?_⟩
    rintro rfl
    unfold editedSteps at k4
    simp only [Request.correction, Correction.editsLeft, Correction.editsRight] at k4
    cases reset <;> simp at k4 <;> (try split_ifs at k4) <;> (obtain ⟨rfl, rfl⟩ := k4; exact ⟨rfl, rfl, rfl, rfl, by simp⟩)

/-- C115: a walk in execution can be replaced at each of its merge points, with any new orders to the planner that it has no reason to
refuse, and any request that does not come late.  The new walk can be continued in turn. -/
theorem C115_goes_on (hsort : ∀ l r, SortedPtrs l r (sort l r)) (h : Walking integ sort dT legs w time) (hc : Continuable sort gap dT w time)
    (hg : 0 < gap) {k m : Nat} (hk : w.outputs.merges[k]? = some m) (changes : List (Planner.Op ℝ))
    (hw : Willing (w.runAll (changes.map .planner)).planner integ) (hgm : gap ≤ (w.runAll (changes.map .planner)).planner.minTime)
    {endTime : ℝ} (hend : m * dT + time < endTime) {q : Request ℝ} (hq : NonNegTimes q)
    (htime : Timely q (m * dT + time) (velocityAt w m) w.left.steps w.right.steps gap (w.runAll (changes.map .planner)).planner.minTime) :
    ∃ new, Walking integ sort dT (legs ++ [⟨w, time, m, q⟩]) new (m * dT + time) ∧ Continuable sort gap dT new (m * dT + time) ∧
      SameConfig (w.runAll (changes.map .planner)).planner new.planner ∧ (ComesToRest dT w → ComesToRest dT new) := by
  obtain ⟨new, h1, h2, h3, h4, -⟩ := goes_on_by hsort h hc hg hk changes hw hgm hend hq htime
  exact ⟨new, h1, h2, h3, h4⟩

/-- The DCM of a walk that can be continued. -/
theorem continuable_fine (h : Walking integ sort dT legs w time) (hc : Continuable sort gap dT w time) (hsort : ∀ l r, SortedPtrs l r (sort l r))
    {p : Plugin (Dcm ℝ) (DcmOut ℝ)} (hp : w.dcm = some p) : DcmFine sort dT w time ∧ LeftRight w.left w.right := by
  obtain ⟨n1, n2⟩ := hc.names.dcm (by rw [hp]; simp)
  have hn : LeftRight w.left w.right := ⟨n1, n2, hc.names.left_steps, hc.names.right_steps⟩
  obtain ⟨w1, _, _, hreach, -⟩ := walking_made h
  obtain ⟨v1, v2, v3⟩ := hc.usable.dcm p hp
  refine ⟨⟨p, hp, v1, fun ordered t ht => ⟨hc.phases _ _ ht, fun a b ha hb => ?_⟩⟩, hn⟩
  obtain ⟨l, r, tt, hr⟩ := timeline_ok ht
  have hd := hr.dT_pos
  have hwalk : Dcm.Walk w.cfg w.left w.right time dT (sort w.left w.right) ordered t := ⟨hreach.valid, hsort _ _, ht, hc.phases _ _ ht, hn⟩
  obtain ⟨h1, h2, h3, h4⟩ := Dcm.shifts_ends hwalk hr
  rw [h1, show 2 * tt.slots.length + 2 - 2 = 2 * tt.slots.length by omega, h2] at ha
  rw [h1, show 2 * tt.slots.length + 2 - 1 = 2 * tt.slots.length + 1 by omega, h3] at hb
  cases ha; cases hb
  rw [h4, Nat.add_sub_cancel_left]
  exact ⟨v3, v2.trans (mul_le_mul_of_nonneg_right (rest_long hr) (by linarith [v1.still_lt]))⟩

/-- At the end of a walk with steps the DCM is at rest. -/
theorem rests (h : Walking integ sort dT legs w time) (hc : Continuable sort gap dT w time) (hsort : ∀ l r, SortedPtrs l r (sort l r))
    (hrest : ComesToRest dT w) {m : Nat} (hm : w.outputs.merges.getLast? = some m)
    (hsteps : ¬ ∃ l r, w.left.steps = [l] ∧ w.right.steps = [r]) : velocityAt w m = .known 0 := by
  obtain ⟨p, hp, hst⟩ := hrest
  obtain ⟨hf, hn⟩ := continuable_fine h hc hsort hp
  obtain ⟨p', d, o, ordered, t, e1, e2, -, hv, -, hw, hroom, ho, -⟩ := dcm_made hsort h hn hf
  rw [hp] at e1
  cases e1
  obtain ⟨w1, ordered', t', hreach, hmade⟩ := walking_made h
  have := hw.made
  rw [hmade.made] at this
  cases this
  obtain ⟨l, r, tt, hr⟩ := timeline_ok hw.made
  have hd := hr.dT_pos
  obtain ⟨h1, h2, h3, h4⟩ := Dcm.shifts_ends hw hr
  have hol := Dcm.slots_length hw.sort hr
  have hslots : 0 < tt.slots.length := by
    by_contra hz
    apply hsteps
    have hlen : ordered.length = w.left.steps.length + w.right.steps.length := by
      obtain ⟨hperm, -⟩ := orderSteps_ok hr.order hw.sort.2
      rw [(hperm.trans hw.sort.1).length_eq]
      simp [Ptr.ofFeet, Ptr.ofFoot]
    have hl := hr.headL
    have hr' := hr.headR
    cases el : w.left.steps with
    | nil => rw [el] at hl; cases hl
    | cons a as =>
      cases er : w.right.steps with
      | nil => rw [er] at hr'; cases hr'
      | cons b bs =>
        rw [el, er] at hlen
        simp only [List.length_cons] at hlen
        exact ⟨a, b, by rw [List.length_eq_zero_iff.mp (show as.length = 0 by omega)],
          by rw [List.length_eq_zero_iff.mp (show bs.length = 0 by omega)]⟩
  have hme : m = t.left.length - 1 := by
    rw [hmade.outputs] at hm
    rcases hr.built.cases with ⟨-, e, -⟩ | ⟨-, ms, -, -, e, -⟩
    · rw [e] at hslots; simp at hslots
    · simp only [e, List.getLast?_concat, Option.some.injEq] at hm
      rw [← hm, hr.built.left, tt.length_phases]
  have hN : 0 < t.left.length := by
    rcases hr.built.cases with ⟨-, e, -⟩ | ⟨-, ms, -, e, -⟩
    · rw [e] at hslots; simp at hslots
    · rw [hr.built.left, tt.length_phases]; exact e
  obtain ⟨x, y, u, v, p'', init, he, -, hwh, -, hs⟩ := Dcm.full_of (by simp) hw hv ho hr
  obtain ⟨a0, ha0, -⟩ := Dcm.last_single (d := d) hw hr (by omega)
    (show t.shifts[t.shifts.length - 2]? = some _ by rw [h1, show 2 * tt.slots.length + 2 - 2 = 2 * tt.slots.length by omega]; exact h2) init he.ex
  have hstill := hwh.still _ ha0
  obtain ⟨s, s1, -, s3⟩ := hs hroom m (by omega)
  have es : p.state.stillness = d.stillness := by
    obtain ⟨_, _, _, -, -, -, -, e⟩ := Dcm.compute_inv ho
    rw [e]; rfl
  have hlong : dT ≤ (tt.rest : ℝ) * dT * d.stillness := by
    rw [es] at hst
    exact hst.trans (mul_le_mul_of_nonneg_right (rest_long hr) hv.still_nonneg)
  have hNr : (t.left.length : ℝ) = slotStart tt.slots tt.slots.length + tt.rest := by rw [h4]; push_cast; ring
  have hmr : (m : ℝ) = t.left.length - 1 := by rw [hme, Nat.cast_sub hN]; simp
  have := s3 _ hstill (by
      change _ + (_ - _) * (1 - d.stillness) ≤ _
      rw [hmr, hNr]
      linarith) (mul_le_mul_of_nonneg_right (by rw [hmr]; linarith) hd.le)
  obtain ⟨c1, c2⟩ := Piece.cubic_at_rest d.omega
    ((slotStart tt.slots tt.slots.length : ℝ) * dT + ((t.left.length : ℝ) * dT - (slotStart tt.slots tt.slots.length : ℝ) * dT) * (1 - d.stillness))
    ((t.left.length : ℝ) * dT) (Dcm.middle (d.zmpAt y.step) (d.zmpAt x.step)) ((m : ℝ) * dT)
  have ek : (d.ready w.cfg dT init).stillness = d.stillness := rfl
  simp only [ek, c1, c2] at this
  simp [velocityAt, hp, e2, s1, this]

/-- C115: a request without landing times of its own does not come late at the end of a walk, when the DCM rests, nor while the robot
stands. -/
theorem C115_in_time (hsort : ∀ l r, SortedPtrs l r (sort l r)) (h : Walking integ sort dT legs w time) (hc : Continuable sort gap dT w time)
    {m : Nat} (hm : (ComesToRest dT w ∧ w.outputs.merges.getLast? = some m) ∨ ∃ l r, w.left.steps = [l] ∧ w.right.steps = [r])
    {q : Request ℝ} (hq : ∀ l r, q ≠ .steps l r) (minTime : ℝ) :
    Timely q (m * dT + time) (velocityAt w m) w.left.steps w.right.steps gap minTime := by
  intro sL sR cL cR pL pR ht
  left
  by_cases hrest : AtRest (velocityAt w m)
  · rw [(ht.1 hrest).1, (ht.1 hrest).2]
  obtain ⟨e1, e2⟩ := (ht.2 hrest).2 (fun l r e => absurd e (hq l r))
  by_cases hs : ∃ l r, w.left.steps = [l] ∧ w.right.steps = [r]
  · obtain ⟨l, r, hl, hr⟩ := hs
    have single : ∀ {steps : List (Step ℝ)} {x s : Step ℝ} {t : ℝ}, steps = [x] → Present steps t s → s = x := by
      rintro steps x s t e ⟨older, newer, h1, -⟩
      rw [e] at h1
      cases older with
      | nil => simp at h1; exact h1.1.symm
      | cons a as => simp at h1
    rw [e1, e2, single hl pL, single hr pR]
    exact hc.together l r hl hr
  · rcases hm with ⟨h1, h2⟩ | h1
    · exfalso
      apply hrest
      exact ⟨0, rests h hc hsort h1 h2 hs, by simp⟩
    · exact absurd h1 hs

/-- C115: so a robot can go on walking for any number of walks, each one planned at the end of the one before over the next `horizon`
seconds, if the planner has no reason to refuse, whatever the states of its controllers. -/
theorem C115_forever (hsort : ∀ l r, SortedPtrs l r (sort l r)) (h : Walking integ sort dT legs w time) (hc : Continuable sort gap dT w time)
    (hg : 0 < gap) (hrest : ComesToRest dT w) (hw : ∀ p, SameConfig w.planner p → Willing p integ) (hgm : gap ≤ w.planner.minTime) (n : Nat) :
    ∃ more new time', Walking integ sort dT (legs ++ more) new time' ∧ more.length = n ∧ Continuable sort gap dT new time' ∧
      ComesToRest dT new ∧ SameConfig w.planner new.planner ∧
      ∀ l ∈ more, l.request = .plain ∧ l.walk.outputs.merges.getLast? = some l.count ∧ Continuable sort gap dT l.walk l.start ∧
        ComesToRest dT l.walk := by
  induction n with
  | zero => exact ⟨[], w, time, by simpa using h, rfl, hc, hrest, Planner.SameConfig.refl _, by simp⟩
  | succ n ih =>
    obtain ⟨more, new, time', h1, h2, h3, h4, h5, h6⟩ := ih
    obtain ⟨w1, ordered, t, -, hmade⟩ := walking_made h1
    have hne : new.outputs.merges ≠ [] := by rw [hmade.outputs]; exact List.length_pos_iff.mp (Zmp.merges_ne_nil hmade.made)
    obtain ⟨m, hm⟩ : ∃ m, new.outputs.merges.getLast? = some m := ⟨_, List.getLast?_eq_some_getLast hne⟩
    have hmin : new.planner.minTime = w.planner.minTime := by rw [h5]
    obtain ⟨next, g1, g2, g3, g4⟩ := C115_goes_on hsort h1 h3 hg (k := new.outputs.merges.length - 1) (m := m)
      (by rw [← List.getLast?_eq_getElem?]; exact hm) [] (hw _ h5) (by change gap ≤ new.planner.minTime; rw [hmin]; exact hgm)
      (endTime := m * dT + time' + 1) (by linarith) (q := .plain) (fun _ _ e => by cases e)
      (C115_in_time hsort h1 h3 (Or.inl ⟨h4, hm⟩) (fun _ _ e => by cases e) _)
    refine ⟨more ++ [⟨new, time', m, .plain⟩], next, _, by rw [← List.append_assoc]; exact g1, by simp [h2], g2, g4 h4, Planner.SameConfig.trans h5 g3, ?_⟩
    intro l hl
    rcases List.mem_append.mp hl with hl | hl
    · exact h6 l hl
    · simp only [List.mem_singleton] at hl
      rw [hl]
      exact ⟨rfl, hm, h3, h4⟩

/-! ## Examples -/

/-- A generator of the ZMP and of the DCM, under direct control. -/
noncomputable def strider : Walker ℝ := (Walker.new 0).runAll [.planner (.setUnicycleController .direct),
  .addZmp ⟨0, 0, 0, 0, ⟨0, 0, 0⟩, true, ⟨0, 0, 0, ""⟩, ⟨0, 0, 0, ""⟩, true, []⟩, .addDcm]

/-- The unicycle moves in any way. -/
def moving (sol : Planner ℝ → UState ℝ → ℝ → ℝ → ℝ → UState ℝ) : Integrator ℝ := fun p u a b => (p.ctrl, some (sol p u a b))

theorem strider_planner : strider.planner = Planner.realDemo := rfl

theorem strider_usable : Usable strider strider.planner.minTime (1 / 100) := by
  have hcfg : strider.cfg = GenSettings.new := rfl
  refine ⟨⟨?_, ?_, ?_, ?_⟩, ?_, ?_, ?_, ?_, ?_⟩
  · rw [hcfg, strider_planner]; norm_num [GenSettings.new, Planner.realDemo, Planner.new]
  · rw [hcfg, strider_planner]; norm_num [GenSettings.new, Planner.realDemo, Planner.new]
  · rw [hcfg]; norm_num [GenSettings.new]
  · rw [hcfg]; norm_num [GenSettings.new]
  · intro p hp; cases hp
  · intro p hp; cases hp
  · intro _ _; rw [hcfg]; norm_num [GenSettings.new]
  · intro p hp
    cases hp
    rw [hcfg]
    refine ⟨⟨?_, ?_, ?_⟩, ?_, fun _ => ⟨?_, ?_, ?_⟩⟩ <;> norm_num [GenSettings.new, Dcm.new]
  · intro p hp; cases hp

theorem strider_rests : ComesToRest (1 / 100) strider :=
  ⟨⟨Dcm.new, none⟩, rfl, by rw [show strider.cfg = GenSettings.new from rfl]; norm_num [GenSettings.new, Dcm.new]⟩

theorem realDemo_willing {sol : Planner ℝ → UState ℝ → ℝ → ℝ → ℝ → UState ℝ} {p : Planner ℝ} (h : SameConfig Planner.realDemo p) :
    Willing p (moving sol) := by
  have hpi := Real.pi_pos
  rw [h]
  refine ⟨⟨?_, ?_, ?_⟩, ⟨?_, ?_, fun h => by cases h⟩, ?_, ?_, ?_, fun q u t0 t1 h => by cases h⟩
  · norm_num [Planner.realDemo, Planner.new]
  · norm_num [Planner.realDemo, Planner.new]
  · simp only [Planner.realDemo, Planner.new, Planner.deg2rad, pi_real]; linarith
  · simp only [speedLimit, Planner.realDemo, Planner.new, sqrt_real]; positivity
  · simp only [turnLimit, Planner.realDemo, Planner.new, Planner.deg2rad, pi_real]; positivity
  · norm_num [Planner.realDemo, Planner.new]
  · simp only [Planner.realDemo, Planner.new, Planner.deg2rad, pi_real]; positivity
  · norm_num [Planner.realDemo, Planner.new]

/-- A first walk, however the unicycle moves. -/
theorem strider_generates (sol : Planner ℝ → UState ℝ → ℝ → ℝ → ℝ → UState ℝ) : ∃ w fuel,
    strider.generate (moving sol) fuel insertion 0 (1 / 100) 20 = .done true w ∧ Walking (moving sol) insertion (1 / 100) [] w 0 ∧
    Continuable insertion strider.planner.minTime (1 / 100) w 0 ∧ SameConfig Planner.realDemo w.planner ∧ ComesToRest (1 / 100) w := by
  have hw := realDemo_willing (sol := sol) (Planner.SameConfig.refl _)
  have hm : 0 < strider.planner.minTime := by rw [strider_planner]; norm_num [Planner.realDemo, Planner.new]
  have hr : Reached (moving sol) insertion strider := Reached.runAll _ (.new 0)
  have hn : Names strider strider.left strider.right := ⟨(by intro s hs; cases hs), (by intro s hs; cases hs), by decide, fun _ => ⟨rfl, rfl⟩⟩
  have hL : NonNeg strider.left := by intro s hs; cases hs
  have hR : NonNeg strider.right := by intro s hs; cases hs
  obtain ⟨w, n, h, -⟩ := C80_valid_requests_succeed (w := strider) (integ := moving sol) (initTime := 0) (t1 := 20) (by rw [pi_real]; exact Real.pi_pos.le)
    (by simp) insertion_sorts hr (dT := 1 / 100) (by norm_num) hm hw.period strider_usable hn (Or.inl ⟨rfl, rfl⟩) hL hR
    (by
      rintro (h | h | h | h | h | ⟨s, h, h'⟩ | h | ⟨-, -, h, -⟩ | ⟨q, u, h⟩)
      · exact h hw.accepted
      · exact h hw.limits
      · rcases h with h | h
        · exact absurd hw.minLength (not_le.mpr h)
        · exact absurd hw.minAngle (not_le.mpr h)
      · norm_num at h
      · norm_num at h
      · rcases h with h | h <;> cases h
      · rw [strider_planner] at h
        norm_num [Planner.realDemo, Planner.new] at h
      · cases h
      · cases h)
    (by intro why h; cases h) (Nat.lt_succ_self _)
  obtain ⟨h1, h2, h3, h4⟩ := C115_begins insertion_sorts hr hm (le_refl _) strider_usable hn (Or.inl ⟨rfl, rfl⟩) hL hR h
  exact ⟨w, _, h, h1, h2, h3, h4 strider_rests⟩

theorem strider_walks (sol : Planner ℝ → UState ℝ → ℝ → ℝ → ℝ → UState ℝ) : ∃ w, Walking (moving sol) insertion (1 / 100) [] w 0 ∧
    Continuable insertion strider.planner.minTime (1 / 100) w 0 ∧ SameConfig Planner.realDemo w.planner ∧ ComesToRest (1 / 100) w := by
  obtain ⟨w, -, -, h⟩ := strider_generates sol
  exact ⟨w, h⟩

/-- The DCM of walks that can be continued. -/
theorem fine_everywhere (hsort : ∀ l r, SortedPtrs l r (sort l r)) (h : Walking integ sort dT legs w time)
    (hc : Everywhere (fun w time => Continuable sort gap dT w time ∧ ComesToRest dT w) legs w time) : Everywhere (DcmFine sort dT) legs w time := by
  have key : ∀ {legs : List (Leg ℝ)} {w : Walker ℝ} {time : ℝ}, Walking integ sort dT legs w time → Continuable sort gap dT w time ∧ ComesToRest dT w →
      DcmFine sort dT w time := by
    rintro legs w time h ⟨h1, p, hp, -⟩
    exact (continuable_fine h h1 hsort hp).1
  induction h with
  | start hr hg hd => exact ⟨by simp, key (.start hr hg hd) hc.2⟩
  | @again legs before old new c k m q hw hd hm ih =>
    obtain ⟨c1, c2⟩ := everywhere_snoc hc
    have i := ih c1
    refine ⟨fun l hl => ?_, key (.again hw hd hm) c2⟩
    rcases List.mem_append.mp hl with hl | hl
    · exact i.1 l hl
    · simp only [List.mem_singleton] at hl
      rw [hl]
      exact i.2

/-- Non-vacuity of C114 and C115: however the unicycle moves, the robot can go on for any number of walks, with a smooth curve of the
DCM through all samples. -/
theorem strides (sol : Planner ℝ → UState ℝ → ℝ → ℝ → ℝ → UState ℝ) (n : Nat) : ∃ legs w time, Walking (moving sol) insertion (1 / 100) legs w time ∧
    legs.length = n ∧ Everywhere (fun w time => Continuable insertion strider.planner.minTime (1 / 100) w time ∧ ComesToRest (1 / 100) w) legs w time := by
  obtain ⟨w, h1, h2, h3, h4⟩ := strider_walks sol
  have hm : 0 < strider.planner.minTime := by rw [strider_planner]; norm_num [Planner.realDemo, Planner.new]
  obtain ⟨more, new, time, g1, g2, g3, g4, -, g6⟩ := C115_forever insertion_sorts h1 h2 hm h4
    (fun p hp => realDemo_willing (Planner.SameConfig.trans h3 hp)) (by rw [h3]; exact le_refl _) n
  exact ⟨_, new, time, g1, g2, fun l hl => (g6 l hl).2.2, g3, g4⟩

example (sol : Planner ℝ → UState ℝ → ℝ → ℝ → ℝ → UState ℝ) (n : Nat) : ∃ legs w time, Walking (moving sol) insertion (1 / 100) legs w time ∧
    legs.length = n ∧ (executed dcmOf legs w).length = (executed supportsOf legs w).length ∧
    ∃ c v : ℝ → Vec2 ℝ, SmoothCurve c v ∧ ∀ (j : Nat) (s : DcmSample ℝ), (executed dcmOf legs w)[j]? = some s →
      s.pos = c ((j : ℝ) * (1 / 100)) ∧ s.vel = v ((j : ℝ) * (1 / 100)) := by
  obtain ⟨legs, w, time, h, hlen, hc⟩ := strides sol n
  have ht : Everywhere (fun w _ => NonNeg w.left ∧ NonNeg w.right) legs w time :=
    ⟨fun l hl => ⟨(hc.1 l hl).1.left, (hc.1 l hl).1.right⟩, hc.2.1.left, hc.2.1.right⟩
  have hf := fine_everywhere insertion_sorts h hc
  have hn : LeftRight (firstWalk legs w).left (firstWalk legs w).right := by
    have key : ∀ {w : Walker ℝ} {time : ℝ}, Continuable insertion strider.planner.minTime (1 / 100) w time ∧ ComesToRest (1 / 100) w →
        LeftRight w.left w.right := by
      rintro w time ⟨hc, p, hp, -⟩
      obtain ⟨n1, n2⟩ := hc.names.dcm (by rw [hp]; simp)
      exact ⟨n1, n2, hc.names.left_steps, hc.names.right_steps⟩
    cases legs with
    | nil => exact key hc.2
    | cons l ls => exact key (hc.1 l (by simp))
  exact ⟨legs, w, time, h, hlen, C114_samples (by rw [pi_real]; exact Real.pi_pos.le) (by simp) insertion_sorts h ht hf hn,
    C114_curve insertion_sorts h ht hf hn⟩

/-! ## Without a DCM generator -/

section

/-- Rational stand-ins, good enough for examples that go straight ahead. -/
private local instance goesOnFlat : Trig ℚ :=
  ⟨fun _ => 1, fun _ => 0, fun q => Nat.sqrt (⌊q * 10 ^ 8⌋₊) / 10 ^ 4, fun x => 1 + x, fun _ => 0, fun _ _ => 0, 22 / 7⟩

/-- The unicycle goes straight ahead. -/
private def forwards : Integrator ℚ := fun p u t0 _ =>
  (p.ctrl, some fun t => ⟨⟨u.position.x + (t - t0) / 40, u.position.y⟩, u.angle⟩)

/-- A generator for the feet, and a last double support longer than a short step. -/
private def plodder : Walker ℚ := (Walker.new 0).runAll [.planner (.setPlannerPeriod (1 / 2)), .planner (.setUnicycleController .direct),
  .planner (.setCostWeights 1 0), .planner (.setMinimumStepLength (1 / 100)), .addCubic, .cubic (.setStepHeight (1 / 10)),
  .timing (.setTerminalHalfSwitchTime 4)]

/-- The walk of `plodder`, and the one that should replace it at its last sample. -/
private def endCheck : Bool :=
  match plodder.generate forwards 1000 insertion 0 (1 / 2) 10 with
  | .done true w =>
    w.zmp.isNone && w.dcm.isNone && w.minJerk.isNone && w.height.isNone && w.cubic.all (fun p => decide (0 ≤ p.state.stepHeight)) &&
    decide ((1 / 2 : ℚ) / 2 ≤ w.cfg.switchPercentage / 2 * (w.planner.minTime - 1 / 2 / 2)) &&
    decide ((1 / 2 : ℚ) ≤ (1 - w.cfg.switchPercentage) * (w.planner.minTime - 1 / 2 / 2)) &&
    decide ((1 / 2 : ℚ) ≤ (1 - w.cfg.switchPercentage) * w.cfg.nominalStepTime) &&
    decide ((1 / 2 : ℚ) / 2 ≤ w.cfg.endSwitch) &&
    w.left.steps.all (fun s => s.footName = w.left.footName) && w.right.steps.all (fun s => s.footName = w.right.footName) &&
    decide (w.left.footName ≠ w.right.footName) &&
    w.left.steps.all (fun s => decide (0 ≤ s.impactTime)) && w.right.steps.all (fun s => decide (0 ≤ s.impactTime)) &&
    (match Gen.timeline w.cfg w.left w.right 0 (1 / 2) (insertion w.left w.right) with
      | .ok (_, t) => decide (t.shifts.Pairwise (· < ·))
      | _ => true) &&
    decide (w.outputs.merges.getLast? = some 38 ∧ w.left.steps.length = 3) &&
    (match w.replan forwards 1000 19 29 .plain with
      | .done true _ => true
      | _ => false) &&
    (match w.reGenerate forwards 1000 insertion 19 (1 / 2) 29 .plain with
      | .done false _ => true
      | _ => false)
  | _ => false

private theorem end_checked : endCheck = true := by decide +kernel

/-- C115 needs that the request is not late also at the end of a walk, when the robot has been standing for a while: without a DCM
generator the contacts keep their landing times, the planner has the first step land one sample after the request, and no
trajectory of the feet can be made. -/
theorem C115_end_witness : ∃ w w1 w' : Walker ℚ, Walking forwards insertion (1 / 2) [] w 0 ∧
    Continuable insertion w.planner.minTime (1 / 2) w 0 ∧ w.dcm = none ∧ w.outputs.merges.getLast? = some 38 ∧
    w.replan forwards 1000 (((38 : Nat) : ℚ) * (1 / 2) + 0) 29 .plain = .done true w1 ∧
    w.reGenerate forwards 1000 insertion (((38 : Nat) : ℚ) * (1 / 2) + 0) (1 / 2) 29 .plain = .done false w' := by
  have h := end_checked
  unfold endCheck at h
  split at h
  case h_2 => cases h
  rename_i w hw
  have hr : Reached forwards insertion plodder := Reached.runAll _ (.new 0)
  have hwalk : Walking forwards insertion (1 / 2) [] w 0 := .start (c := .generate 0 (1 / 2) 10) hr hw rfl
  simp only [Bool.and_eq_true, List.all_eq_true, decide_eq_true_eq, Option.isNone_iff_eq_none] at h
  obtain ⟨⟨⟨⟨⟨⟨⟨⟨⟨⟨⟨⟨⟨⟨⟨⟨⟨h1, h2⟩, h3⟩, h4⟩, h5⟩, h6⟩, h7⟩, h8⟩, h9⟩, h10⟩, h11⟩, h12⟩, h13⟩, h14⟩, h15⟩, h16, h16'⟩, h17⟩, h18⟩ := h
  split at h17
  case h_2 => cases h17
  rename_i w1 e1
  split at h18
  case h_2 => cases h18
  rename_i w' e2
  have e : ((38 : Nat) : ℚ) * (1 / 2) + 0 = 19 := by norm_num
  refine ⟨w, w1, w', hwalk, ⟨h13, h14, ?_, ⟨⟨h6, h7, fun _ => h8, h9⟩, ?_, ?_, fun h => absurd h1 h, ?_, ?_⟩, ⟨h10, h11, h12, fun h => absurd h2 h⟩, ?_⟩,
    h2, h16, by rw [e]; exact e1, by rw [e]; exact e2⟩
  · intro ordered t ht
    rw [ht] at h15
    simpa using h15
  · intro p hp; rw [hp] at h5; simpa using h5
  · intro p hp; rw [hp] at h3; cases h3
  · intro p hp; rw [hp] at h2; cases h2
  · intro p hp; rw [hp] at h4; cases h4
  · intro l r hl; rw [hl] at h16'; cases h16'

end

end Uni.Walker
