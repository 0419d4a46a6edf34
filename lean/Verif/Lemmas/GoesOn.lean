import Verif.Spec.GoesOn
import Verif.Lemmas.Turns

/-! # When a walk can be replaced -/

set_option autoImplicit false
set_option linter.unusedSectionVars false

namespace Uni.Walker
open Spec Gen

section
variable {K : Type} [Field K] [LinearOrder K] [IsStrictOrderedRing K] [FloorRing K] [Trig K]
variable {integ : Integrator K} {sort : Sorter K} {w : Walker K} {dT time : K} {legs : List (Leg K)}

/-- The contacts from which a plan starts landed between time zero and now. -/
theorem editedSteps_range {t : K} {mL mR l r : Step K} {c : Correction} {reset : Bool} (hl : 0 ≤ l.impactTime ∧ l.impactTime ≤ t)
    (hr : 0 ≤ r.impactTime ∧ r.impactTime ≤ t) (hmL : c.editsLeft = true → 0 ≤ mL.impactTime) (hmR : c.editsRight = true → 0 ≤ mR.impactTime) :
    (0 ≤ (editedSteps t mL mR c reset l r).1.impactTime ∧ (editedSteps t mL mR c reset l r).1.impactTime ≤ t) ∧
    0 ≤ (editedSteps t mL mR c reset l r).2.impactTime ∧ (editedSteps t mL mR c reset l r).2.impactTime ≤ t := by
  cases reset with
  | true =>
    have h1 := max_le hl.2 hr.2
    have h0 := hl.1.trans (le_max_left l.impactTime r.impactTime)
    exact ⟨⟨h0, h1⟩, h0, h1⟩
  | false =>
    unfold editedSteps
    simp only [Bool.false_eq_true, if_false]
    by_cases h : t < (if c.editsLeft = true then editStepFromMeasured l mL else l).impactTime ∨
        t < (if c.editsRight = true then editStepFromMeasured r mR else r).impactTime
    · rw [if_pos h]; exact ⟨hl, hr⟩
    · rw [if_neg h]
      rw [not_or, not_lt, not_lt] at h
      refine ⟨⟨?_, h.1⟩, ?_, h.2⟩
      · simp only
        split_ifs with h1
        · exact hmL h1
        · exact hl.1
      · simp only
        split_ifs with h1
        · exact hmR h1
        · exact hr.1

/-- A request from contacts that have landed is not refused by a willing planner. -/
theorem planner_succeeds {p : Planner K} (hw : Willing p integ) (hp : Timed p) {l r : Step K} {n n' : String} {t0 t1 : K} (h0 : 0 ≤ t0)
    (h1 : t0 < t1) (hl : l.impactTime ≤ t0) (hr : r.impactTime ≤ t0) {fuel : Nat}
    (hf : (⌈(t1 - t0) / p.dT⌉₊ + 1) * (⌈(t1 - t0) / p.dT⌉₊ + 3) < fuel) :
    ∃ p' left' right', p.computeNewSteps integ fuel ⟨[l], n⟩ ⟨[r], n'⟩ t0 t1 = .done true p' left' right' := by
  refine Planner.C58_valid_requests_succeed hw.period hp.nominal_nonneg ?_ (by simp) (by simp) hf
  rintro (h | h | h | h | h | ⟨s, h, h'⟩ | h | ⟨h, -⟩ | ⟨q, u, h⟩)
  · exact h hw.accepted
  · exact h hw.limits
  · rcases h with h | h
    · exact absurd hw.minLength (not_le.mpr h)
    · exact absurd hw.minAngle (not_le.mpr h)
  · exact absurd h0 (not_le.mpr h)
  · exact absurd h1 (not_lt.mpr h)
  · rcases h with h | h
    · simp at h; subst h; exact absurd hl (not_le.mpr h')
    · simp at h; subst h; exact absurd hr (not_le.mpr h')
  · have := hp.nominal
    linarith
  · simp at h
  · exact hw.integration q u _ _ h

theorem replan_succeeds {p : Planner K} (hw : Willing p integ) (hp : Timed p) {left right : FootPrint K} (hL : NonNeg left) (hR : NonNeg right)
    {sL sR : Step K} {t0 t1 : K} (h0 : 0 ≤ t0) (h1 : t0 < t1) (pL : Present left.steps t0 sL) (pR : Present right.steps t0 sR)
    {dcm : DcmVelocity K} (hdcm : dcm ≠ .unset) {q : Request K} (hq : NonNegTimes q) :
    ∃ fuel p' l' r' prev, Gen.replan p integ fuel dcm left right t0 t1 q = .done true p' l' r' prev := by
  have hsL : 0 ≤ sL.impactTime ∧ sL.impactTime ≤ t0 := by
    obtain ⟨older, newer, e, h, -⟩ := pL
    exact ⟨hL sL (by rw [e]; simp), h⟩
  have hsR : 0 ≤ sR.impactTime ∧ sR.impactTime ≤ t0 := by
    obtain ⟨older, newer, e, h, -⟩ := pR
    exact ⟨hR sR (by rw [e]; simp), h⟩
  have hplan : ∀ (l r : Step K) (n n' : String) (prev : Option (Step K × Step K)), l.impactTime ≤ t0 → r.impactTime ≤ t0 →
      ∃ p' l' r', planFrom p integ ((⌈(t1 - t0) / p.dT⌉₊ + 1) * (⌈(t1 - t0) / p.dT⌉₊ + 3) + 1) ⟨[l], n⟩ ⟨[r], n'⟩ t0 t1 prev =
        .done true p' l' r' prev := by
    intro l r n n' prev hl hr
    obtain ⟨p', l', r', e⟩ := planner_succeeds hw hp (n := n) (n' := n') h0 h1 hl hr (Nat.lt_succ_self _)
    exact ⟨p', l', r', by unfold planFrom; rw [e]⟩
  obtain ⟨reset, hreset⟩ : ∃ reset, shouldReset dcm = .ok reset := by
    cases dcm with
    | absent => exact ⟨_, rfl⟩
    | unset => exact absurd rfl hdcm
    | known v => exact ⟨_, rfl⟩
  have hmL : q.correction.editsLeft = true → 0 ≤ (q.measuredLeft t0 left.footName).impactTime := by
    cases q with
    | plain => intro _; simp [Request.measuredLeft]
    | steps a b => intro _; exact (hq a b rfl).1
    | oneFoot _ _ _ => intro _; simp only [Request.measuredLeft]; linarith
    | twoFeet _ _ _ _ => intro _; simp only [Request.measuredLeft]; linarith
  have hmR : q.correction.editsRight = true → 0 ≤ (q.measuredRight t0 right.footName).impactTime := by
    cases q with
    | plain => intro _; simp [Request.measuredRight]
    | steps a b => intro _; exact (hq a b rfl).2
    | oneFoot _ _ _ => intro _; simp only [Request.measuredRight]; linarith
    | twoFeet _ _ _ _ => intro _; simp only [Request.measuredRight]; linarith
  refine ⟨(⌈(t1 - t0) / p.dT⌉₊ + 1) * (⌈(t1 - t0) / p.dT⌉₊ + 3) + 1, ?_⟩
  unfold Gen.replan computeNewStepsFromMeasured
  rw [keepOnly_present hL pL]
  simp only
  rw [keepOnly_present hR pR]
  simp only [hreset, FootPrint.getLastStep, List.getLast?_singleton]
  obtain ⟨⟨a1, a2⟩, a3, a4⟩ := editedSteps_range (reset := reset) (l := { sL with footName := left.footName })
    (r := { sR with footName := right.footName }) hsL hsR hmL hmR
  have hrep : ∀ (edit : Bool) (fp : FootPrint K) (s prev : Step K), fp.steps = [prev] → 0 ≤ s.impactTime → s.impactTime ≤ t0 →
      prev.impactTime ≤ t0 → ∃ s' n, replaceStep edit fp s = (true, ⟨[s'], n⟩) ∧ s'.impactTime ≤ t0 := by
    intro edit fp s prev h1 h2 h3 h4
    unfold replaceStep
    cases edit with
    | false => exact ⟨prev, fp.footName, by simp [← h1], h4⟩
    | true =>
      refine ⟨{ s with footName := fp.footName }, fp.footName, ?_, h3⟩
      simp [FootPrint.addStep, FootPrint.addStepRaw, FootPrint.clearSteps, not_lt.mpr h2]
  split_ifs with hc
  · generalize editedSteps t0 (q.measuredLeft t0 left.footName) (q.measuredRight t0 right.footName) q.correction reset
      { sL with footName := left.footName } { sR with footName := right.footName } = e at a1 a2 a3 a4 ⊢
    obtain ⟨cL, cR⟩ := e
    simp only at a1 a2 a3 a4 ⊢
    obtain ⟨l, n, e1, e2⟩ := hrep (q.correction.editsLeft || reset) ⟨[{ sL with footName := left.footName }], left.footName⟩ cL _ rfl a1 a2 hsL.2
    obtain ⟨r, n', e3, e4⟩ := hrep (q.correction.editsRight || reset) ⟨[{ sR with footName := right.footName }], right.footName⟩ cR _ rfl a3 a4 hsR.2
    rw [e1]
    simp only
    rw [e3]
    simp only
    obtain ⟨p', l', r', h⟩ := hplan l r n n' (some ({ sL with footName := left.footName }, { sR with footName := right.footName })) e2 e4
    exact ⟨p', l', r', _, h⟩
  · obtain ⟨p', l', r', h⟩ := hplan { sL with footName := left.footName } { sR with footName := right.footName } left.footName right.footName none
      hsL.2 hsR.2
    exact ⟨p', l', r', _, h⟩

/-- The call that generated a walk. -/
theorem walking_call (h : Walking integ sort dT legs w time) :
    ∃ before fuel c, Reached integ sort before ∧ before.call integ fuel sort c = .done true w ∧ (timesOf c).1 = time ∧ (timesOf c).2 = dT := by
  cases h with
  | start hr hg hd => exact ⟨_, _, _, hr, hg, rfl, hd⟩
  | again hw hd hm =>
    obtain ⟨f0, h0⟩ := hm.generated
    have hro := Reached.call _ _ _ _ _ hm.reached h0
    obtain ⟨fuel, changes, weight, pos, vel, endTime, -, -, r3⟩ := hm.replanned
    have hr2 := Reached.runAll (changes.map .planner ++ [.zmp (.setWeightInitialState weight), .dcm (.setDCMInitialState pos vel)]) hro
    exact ⟨_, fuel, .reGenerate _ dT endTime _, hr2, r3, rfl, rfl⟩

/-- A foot that has a contact at the beginning has one at every later time. -/
theorem exists_present {l : List (Step K)} {s : Step K} {t : K} (h : l.head? = some s) (ht : s.impactTime ≤ t) : ∃ x, Present l t x := by
  rcases FootPrint.C02_exhaustive (⟨l, ""⟩ : FootPrint K) t with h1 | ⟨older, x, newer, h1⟩
  · exact absurd ht (not_le.mpr (h1 s (List.mem_of_mem_head? h)))
  · exact ⟨x, older, newer, h1⟩

/-- Generating a walk keeps the settings usable. -/
theorem usable_made {w' : Walker K} {sorted ordered : List (Ptr K)} {t : Timing K} {gap : K} (h : MadeBy w w' time dT sorted ordered t)
    (hu : Usable w gap dT) : Usable w' gap dT := by
  refine ⟨by rw [h.cfg]; exact hu.fine, fun p hp => ?_, fun p hp => ?_, fun hne => ?_, fun p hp => ?_, fun p hp => ?_⟩
  · obtain ⟨p0, _, _, f1, f2, -⟩ := h.cubic p hp
    rw [f2]; exact hu.cubic p0 f1
  · obtain ⟨p0, _, _, f1, f2, -⟩ := h.minJerk p hp
    rw [f2]; exact hu.minJerk p0 f1
  · rw [h.cfg]
    refine hu.zmp fun he => ?_
    obtain ⟨p, hp⟩ := Option.ne_none_iff_exists'.mp hne
    obtain ⟨p0, _, f1, -⟩ := h.zmp p hp
    rw [he] at f1; cases f1
  · obtain ⟨p0, _, f1, -, f3⟩ := h.dcm p hp
    obtain ⟨_, _, _, -, -, -, -, e⟩ := Dcm.compute_inv f3
    obtain ⟨v1, v2, v3⟩ := hu.dcm p0 f1
    rw [e, h.cfg]
    exact ⟨⟨v1.1, v1.2, v1.3⟩, v2, v3⟩
  · obtain ⟨p0, _, f1, f2, -⟩ := h.height p hp
    rw [f2]; exact hu.height p0 f1

/-- The generator of the DCM stays attached. -/
theorem members_dcm {w' : Walker K} {t0 : K} (h : w.fromMembers t0 dT sort = .done true w') (hd : w.dcm ≠ none) : w'.dcm ≠ none := by
  unfold fromMembers at h
  split at h
  · rename_i e
    cases h
    obtain ⟨o, t, -, h⟩ := fromFootPrints_true e
    obtain ⟨c, m, z, d, g, -, -, -, h4, -, rfl⟩ := trajectories_true.mp h
    rcases Plugin.run_true.mp h4 with ⟨h5, -⟩ | ⟨_, _, _, -, -, h5⟩
    · exact absurd h5 hd
    · simp [h5]
  all_goals cases h

/-- The generator of the DCM stays attached. -/
theorem reGenerate_dcm {w' : Walker K} {fuel : Nat} {t0 t1 : K} {q : Request K} (h : w.reGenerate integ fuel sort t0 dT t1 q = .done true w')
    (hd : w.dcm ≠ none) : w'.dcm ≠ none := by
  rcases next_done h with ⟨w3, e1, e2⟩ | ⟨hf, -⟩
  swap
  · cases hf
  have hd3 : w3.dcm ≠ none := by
    unfold Walker.replan at e1
    split at e1
    · cases e1; exact hd
    · cases e1
    · cases e1
  exact members_dcm e2 hd3

/-- The last double support lasts as configured, up to half a sample. -/
theorem rest_long {cfg : GenSettings K} {left right : FootPrint K} {initTime : K} {sorted ordered : List (Ptr K)} {t : Timing K} {l r : Step K}
    {tt : Timetable} (hr : Run cfg left right initTime dT sorted ordered t l r tt) : cfg.endSwitch - dT / 2 ≤ (tt.rest : K) * dT := by
  have hd := hr.dT_pos
  have e1 := (stdRound_bounds (cfg.endSwitch / dT)).2
  have e2 : (tt.rest : ℤ) = stdRound (cfg.endSwitch / dT) := hr.built.rest
  have e3 : (tt.rest : K) = (stdRound (cfg.endSwitch / dT) : K) := by rw [← e2]; simp
  rw [e3]
  have : (cfg.endSwitch / dT - 1 / 2) * dT ≤ (stdRound (cfg.endSwitch / dT) : K) * dT := mul_le_mul_of_nonneg_right e1 hd.le
  have e4 : (cfg.endSwitch / dT - 1 / 2) * dT = cfg.endSwitch - dT / 2 := by field_simp
  linarith

/-- A plan without steps aligns the landing times of the contacts. -/
theorem plan_together {p : Planner K} {cL cR : Step K} {n n' : String} {l1 r1 left right : FootPrint K} {t0 t1 : K} {d : Plan K}
    (h : PlanOf p integ l1 r1 t0 t1 left right d) (hst : d.l0 = ⟨[cL], n⟩ ∧ d.r0 = ⟨[cR], n'⟩) {l r : Step K} (hl : left.steps = [l])
    (hr : right.steps = [r]) : l.impactTime = r.impactTime := by
  rcases h.effect with ⟨hne, e1, e2⟩ | ⟨-, a, b, ha, hb, hc⟩
  · exfalso
    rw [e1, hst.1] at hl
    rw [e2, hst.2] at hr
    simp only [extendBy, List.singleton_append, List.cons.injEq, stepsOf, List.map_eq_nil_iff, List.filter_eq_nil_iff, beq_iff_eq] at hl hr
    cases hlog : d.log with
    | nil => exact hne hlog
    | cons e es =>
      have k1 := hl.2 e (by rw [hlog]; simp)
      have k2 := hr.2 e (by rw [hlog]; simp)
      cases he : e.left <;> simp_all
  · rw [hst.1] at ha
    rw [hst.2] at hb
    simp only [List.getLast?_singleton, Option.some.injEq] at ha hb
    subst ha hb
    rcases hc with ⟨e, e1, e2⟩ | ⟨-, e1, older, s, e3, e2⟩ | ⟨-, ⟨older, s, e3, e1⟩, e2⟩
    · rw [e1, hst.1] at hl
      rw [e2, hst.2] at hr
      simp only [List.cons.injEq, and_true] at hl hr
      rw [← hl, ← hr, e]
    · rw [e1, hst.1] at hl
      rw [e2] at hr
      rw [hst.2] at e3
      cases older with
      | nil =>
        simp only [List.nil_append, List.cons.injEq, and_true] at hl hr
        rw [← hl, ← hr]
      | cons x xs => simp at e3
    · rw [e2, hst.2] at hr
      rw [e1] at hl
      rw [hst.1] at e3
      cases older with
      | nil =>
        simp only [List.nil_append, List.cons.injEq, and_true] at hl hr
        rw [← hl, ← hr]
      | cons x xs => simp at e3

end

end Uni.Walker
