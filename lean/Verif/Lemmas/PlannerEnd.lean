import Verif.Lemmas.PlannerRefine

/-! # Helper lemmas: the terminal step and the call after the initialisation -/

set_option autoImplicit false
set_option linter.unusedSectionVars false

namespace Uni
open Spec
variable {K : Type*} [Field K] [LinearOrder K] [Trig K]

theorem Foot.stateOf_stepAt (f : Foot K) (u : UState K) (t : K) : f.stateOf (f.stepAt u t) = u := by
  ext <;> simp [Foot.stateOf, Foot.stepAt, Foot.footPosition, Foot.unicycleAngle]

theorem Foot.stateOf_push (f : Foot K) (a s : Step K) : (f.push a).stateOf s = f.stateOf s := rfl

namespace Planner
section
variable [IsStrictOrderedRing K]

theorem terminal_data (L R : Foot K) (left : Bool) (prev : Step K) (u : UState K) (d : K) :
    dataOf L R left prev u d =
      ⟨if left then rotT prev.angle (L.footPosition u - prev.position)
        else rotT u.angle (prev.position - R.footPosition u),
       |u.angle - (if left then R else L).unicycleAngle prev|, d, (if left then L else R).footPosition u,
       rotT prev.angle ((if left then L else R).footPosition u - prev.position)⟩ := by
  rw [← dataOf_eq]
  unfold stepData
  rw [abs_sub_comm]

theorem addTerminalStep_log {p : Planner K} {left right L R : Foot K} {c : Stance K}
    (u : UState K) (hl : left.SameCfg L) (hr : right.SameCfg R) (hld : left.distanceSet = true)
    (hrd : right.distanceSet = true) (hp : (if c.left then right else left).getLastStep = some c.prev)
    (hlast : (if c.left then left else right).getLastStep = c.last)
    (h0 : 0 ≤ p.initTime) (hn : 0 ≤ p.nominalTime) :
    ∃ left' right' T, p.addTerminalStep c.left left right u = (true, left', right') ∧
      TerminalLog p L R c u T ∧ left'.SameCfg L ∧ right'.SameCfg R ∧
      left'.fp.steps = left.fp.steps ++ stepsOf true T ∧ right'.fp.steps = right.fp.steps ++ stepsOf false T := by
  have hst : 0 ≤ max (p.initTime + p.nominalTime) (c.prev.impactTime + p.nominalTime) :=
    le_max_of_le_left (add_nonneg h0 hn)
  have hlp := fun v => footPosition_cfg hl v
  have hrp := fun v => footPosition_cfg hr v
  obtain ⟨cl, prev, last, st, pz, off⟩ := c
  simp only at hp hlast hst ⊢
  unfold addTerminalStep
  simp only [hp]
  cases cl with
  | true =>
    simp only [if_true] at hp hlast ⊢
    simp only [get_rPl, get_newStepRelativePosition, if_true, hp, Foot.getFootPositionFromUnicycle, hld]
    have hcond : CanFinish p L R ⟨true, prev, last, st, pz, off⟩ u ↔
        (p.problem.areConstraintsSatisfied ⟨rotT prev.angle (left.footPosition u - prev.position),
          |u.angle - right.unicycleAngle prev|, max (p.initTime + p.nominalTime) (prev.impactTime + p.nominalTime) - prev.impactTime,
          left.footPosition u, rotT prev.angle (left.footPosition u - prev.position)⟩ &&
          !right.isTinyStep u && !left.isTinyStep u) = true := by
      unfold CanFinish
      rw [tinyFor_eq hr, tinyFor_eq hl, hp, hlast, terminal_data]
      simp only [if_true, ← hlp, ← unicycleAngle_cfg hr, Bool.and_eq_true, Bool.not_eq_true', and_assoc]
      rfl
    have htiny : tinyFor L last (stateFor R prev) = left.isTinyStep (right.stateOf prev) := by
      rw [tinyFor_eq hl, hlast, stateOf_cfg hr]; rfl
    split_ifs with hc
    · rw [Foot.addStepFromUnicycle_eq _ _ _ hld hst]
      simp only
      rw [Foot.addStepFromUnicycle_eq _ _ _ hrd (add_nonneg hst hn)]
      refine ⟨_, _, _, rfl, .both (hcond.mpr hc), hl.push _, hr.push _, ?_, ?_⟩
      · simp [stepsOf, stepAt_cfg hl]; rfl
      · simp [stepsOf, stepAt_cfg hr]; rfl
    · rw [Foot.getUnicycleStateFromStep_eq _ _ hrd]
      simp only
      have hc' := hcond.not.mpr hc
      split_ifs with ht
      · exact ⟨_, _, _, rfl, .skip hc' (htiny.trans ht), hl, hr, by simp [stepsOf], by simp [stepsOf]⟩
      · rw [Foot.addParallelStep_eq _ _ _ _ hst hp]
        refine ⟨_, _, _, rfl, .close hc' (htiny.trans (by simpa using ht)), hl.push _, hr, ?_, ?_⟩
        · simp [stepsOf, stepAt_cfg hl, stateOf_cfg hr]; rfl
        · simp [stepsOf]
  | false =>
    simp only [Bool.false_eq_true, if_false] at hp hlast ⊢
    simp only [get_rPl, get_newStepRelativePosition, Bool.false_eq_true, if_false, hp,
      Foot.getFootPositionFromUnicycle, hrd, if_true]
    have hcond : CanFinish p L R ⟨false, prev, last, st, pz, off⟩ u ↔
        (p.problem.areConstraintsSatisfied ⟨rotT u.angle (prev.position - right.footPosition u),
          |u.angle - left.unicycleAngle prev|, max (p.initTime + p.nominalTime) (prev.impactTime + p.nominalTime) - prev.impactTime,
          right.footPosition u, rotT prev.angle (right.footPosition u - prev.position)⟩ &&
          !left.isTinyStep u && !right.isTinyStep u) = true := by
      unfold CanFinish
      rw [tinyFor_eq hr, tinyFor_eq hl, hp, hlast, terminal_data]
      simp only [Bool.false_eq_true, if_false, ← hrp, ← unicycleAngle_cfg hl, Bool.and_eq_true, Bool.not_eq_true', and_assoc]
      rfl
    have htiny : tinyFor R last (stateFor L prev) = right.isTinyStep (left.stateOf prev) := by
      rw [tinyFor_eq hr, hlast, stateOf_cfg hl]; rfl
    split_ifs with hc
    · rw [Foot.addStepFromUnicycle_eq _ _ _ hrd hst]
      simp only
      rw [Foot.addStepFromUnicycle_eq _ _ _ hld (add_nonneg hst hn)]
      refine ⟨_, _, _, rfl, .both (hcond.mpr hc), hl.push _, hr.push _, ?_, ?_⟩
      · simp [stepsOf, stepAt_cfg hl]; rfl
      · simp [stepsOf, stepAt_cfg hr]; rfl
    · rw [Foot.getUnicycleStateFromStep_eq _ _ hld]
      simp only
      have hc' := hcond.not.mpr hc
      split_ifs with ht
      · exact ⟨_, _, _, rfl, .skip hc' (htiny.trans ht), hl, hr, by simp [stepsOf], by simp [stepsOf]⟩
      · rw [Foot.addParallelStep_eq _ _ _ _ hst hp]
        refine ⟨_, _, _, rfl, .close hc' (htiny.trans (by simpa using ht)), hl, hr.push _, ?_, ?_⟩
        · simp [stepsOf]
        · simp [stepsOf, stepAt_cfg hr, stateOf_cfg hl]; rfl

theorem initialLoop_at {q : Planner K} {sol : K → UState K} {L R : Foot K} {prev : Step K} (h0 : 0 ≤ q.initTime)
    (hL : L.distanceSet = true) (hR : R.distanceSet = true)
    (hp : (if q.swingLeft then R else L).getLastStep = some prev) :
    At q sol L R (firstStance q L.fp R.fp prev) 0 (q.initialLoop L R prev) := by
  refine ⟨⟨hL, hR, ?_, h0⟩, .refl _, .refl _, rfl, rfl, rfl, rfl, rfl, ?_, ?_, .inl ⟨rfl, ?_⟩⟩
  · unfold Loop.stance; exact hp
  · unfold Loop.swing firstStance initialLoop; cases q.swingLeft <;> rfl
  · intro j hj; simp at hj
  · intro j hj; simp at hj

theorem initialLoop_inv {q : Planner K} {sol : K → UState K} {L R : Foot K} {prev : Step K} (h0 : 0 ≤ q.initTime)
    (hL : L.distanceSet = true) (hR : R.distanceSet = true)
    (hp : (if q.swingLeft then R else L).getLastStep = some prev) : Inv q sol (q.initialLoop L R prev) :=
  ⟨⟨hL, hR, by unfold Loop.stance; exact hp, h0⟩, le_refl _, .inl rfl⟩

theorem stepsOf_append (b : Bool) (l m : List (Landing K)) : stepsOf b (l ++ m) = stepsOf b l ++ stepsOf b m := by
  simp [stepsOf]

theorem stepsOf_length (l : List (Landing K)) : (stepsOf true l).length + (stepsOf false l).length = l.length := by
  induction l with
  | nil => rfl
  | cons e es ih =>
    unfold stepsOf at ih ⊢
    simp only [List.length_map, List.filter_cons, List.length_cons] at ih ⊢
    cases h : e.left <;> simp [-beq_true, -beq_false] <;> omega

/-- The call after the initialisation. -/
theorem plan_run {q : Planner K} {sol : K → UState K} {L R : Foot K} {prev : Step K} (hd : 0 ≤ q.dT)
    (h0 : 0 ≤ q.initTime) (hn : 0 ≤ q.nominalTime) (hL : L.distanceSet = true) (hR : R.distanceSet = true)
    (hp : (if q.swingLeft then R else L).getLastStep = some prev) (fuel : Nat) :
    q.plan sol fuel L R = .outOfFuel ∨
    ∃ log T c' b f, b = c'.left ∧ Run q sol L R (firstStance q L.fp R.fp prev) log c' ∧
      (if q.addTerminal then TerminalLog q L R c' (sol q.endTime) T else T = []) ∧
      ((log ++ T ≠ [] ∧ q.plan sol fuel L R = .done true { q with swingLeft := b, firstStep := f }
          { L.fp with steps := L.fp.steps ++ stepsOf true (log ++ T) }
          { R.fp with steps := R.fp.steps ++ stepsOf false (log ++ T) }) ∨
       (log ++ T = [] ∧ q.plan sol fuel L R =
          { q with swingLeft := b, firstStep := f }.alignLastSteps L.fp R.fp)) := by
  have hoff : 0 ≤ (firstStance q L.fp R.fp prev).offset := by
    unfold firstStance; simp only; split_ifs; exacts [hn, le_refl _]
  unfold plan
  rw [hp]
  simp only
  cases hloop : q.loop sol fuel (q.initialLoop L R prev) with
  | outOfFuel => exact .inl rfl
  | failed s => exact absurd hloop (loop_not_failed sol hd h0 fuel _ _ (initialLoop_inv h0 hL hR hp) hoff)
  | exit s =>
    right
    obtain ⟨log, c', k', g1, g2, g3, g4, g5⟩ := loop_run hd h0 fuel _ _ _ 0 (initialLoop_at h0 hL hR hp) hoff hloop
    simp only [finish]
    have hsw : s.swingLeft = c'.left := g2.swingLeft
    have main : ∀ (l r : Foot K) (T : List (Landing K)), l.SameCfg L → r.SameCfg R →
        l.fp.steps = s.left.fp.steps ++ stepsOf true T → r.fp.steps = s.right.fp.steps ++ stepsOf false T →
        (if q.addTerminal then TerminalLog q L R c' (sol q.endTime) T else T = []) →
        ∃ log T c' b f, b = c'.left ∧ Run q sol L R (firstStance q L.fp R.fp prev) log c' ∧
          (if q.addTerminal then TerminalLog q L R c' (sol q.endTime) T else T = []) ∧
          ((log ++ T ≠ [] ∧ (if L.fp.numberOfSteps = l.fp.numberOfSteps ∧ R.fp.numberOfSteps = r.fp.numberOfSteps then
              { q with swingLeft := s.swingLeft, firstStep := s.firstStep }.alignLastSteps l.fp r.fp
              else .done true { q with swingLeft := s.swingLeft, firstStep := s.firstStep } l.fp r.fp) =
              .done true { q with swingLeft := b, firstStep := f }
              { L.fp with steps := L.fp.steps ++ stepsOf true (log ++ T) }
              { R.fp with steps := R.fp.steps ++ stepsOf false (log ++ T) }) ∨
            (log ++ T = [] ∧ (if L.fp.numberOfSteps = l.fp.numberOfSteps ∧ R.fp.numberOfSteps = r.fp.numberOfSteps then
              { q with swingLeft := s.swingLeft, firstStep := s.firstStep }.alignLastSteps l.fp r.fp
              else .done true { q with swingLeft := s.swingLeft, firstStep := s.firstStep } l.fp r.fp) =
              { q with swingLeft := b, firstStep := f }.alignLastSteps L.fp R.fp)) := by
      intro l r T hl hr hls hrs hT
      have el : l.fp = { L.fp with steps := L.fp.steps ++ stepsOf true (log ++ T) } := by
        have h1 : l.fp.steps = L.fp.steps ++ stepsOf true (log ++ T) := by
          rw [hls, g3, stepsOf_append, List.append_assoc]; rfl
        rw [← h1]; exact congrArg (fun n => FootPrint.mk l.fp.steps n) hl.name
      have er : r.fp = { R.fp with steps := R.fp.steps ++ stepsOf false (log ++ T) } := by
        have h1 : r.fp.steps = R.fp.steps ++ stepsOf false (log ++ T) := by
          rw [hrs, g4, stepsOf_append, List.append_assoc]; rfl
        rw [← h1]; exact congrArg (fun n => FootPrint.mk r.fp.steps n) hr.name
      refine ⟨log, T, c', s.swingLeft, s.firstStep, hsw, g1, hT, ?_⟩
      rw [el, er]
      have hlen := stepsOf_length (log ++ T)
      simp only [FootPrint.numberOfSteps, List.length_append (as := L.fp.steps), List.length_append (as := R.fp.steps)]
      by_cases hne : log ++ T = []
      · right
        refine ⟨hne, ?_⟩
        rw [hne]
        simp [stepsOf]
      · left
        refine ⟨hne, ?_⟩
        rw [if_neg]
        have : (log ++ T).length ≠ 0 := by simpa using hne
        omega
    cases hT : q.addTerminal with
    | false =>
      have := main s.left s.right [] g2.leftCfg g2.rightCfg (by simp [stepsOf]) (by simp [stepsOf]) (by simp [hT])
      simpa [hT] using this
    | true =>
      obtain ⟨l, r, T, t1, t2, t3, t4, t5, t6⟩ := addTerminalStep_log (p := q) (c := c') (sol q.endTime) g2.leftCfg g2.rightCfg
        g2.left g2.right (by rw [← hsw]; have := g2.prev; rw [g2.prevStep] at this; exact this)
        (by rw [← hsw]; exact g2.last) h0 hn
      have := main l r T t3 t4 t5 t6 (by simp [hT, t2])
      have t1' : Planner.addTerminalStep { q with swingLeft := s.swingLeft, firstStep := s.firstStep } s.swingLeft s.left s.right
          (sol q.endTime) = (true, l, r) := by rw [hsw]; exact t1
      simp only [hT, if_true] at this t1' ⊢
      rw [t1']
      exact this

/-- The loop needs at most `(N + 1) (N + 3)` iterations, `N` being the number of periods in the horizon. -/
theorem plan_terminates [FloorSemiring K] {q : Planner K} {sol : K → UState K} {L R : Foot K} {prev : Step K} (hd : 0 < q.dT)
    (h0 : 0 ≤ q.initTime) (hlt : q.initTime < q.endTime) (hn : 0 ≤ q.nominalTime)
    (hL : L.distanceSet = true) (hR : R.distanceSet = true)
    (hp : (if q.swingLeft then R else L).getLastStep = some prev) (fuel : Nat)
    (hf : (⌈(q.endTime - q.initTime) / q.dT⌉₊ + 1) * (⌈(q.endTime - q.initTime) / q.dT⌉₊ + 3) < fuel) :
    q.plan sol fuel L R ≠ .outOfFuel := by
  have hoff : 0 ≤ (q.initialLoop L R prev).timeOffset := by
    unfold initialLoop; simp only; split_ifs; exacts [hn, le_refl _]
  have hb : Base q (q.initTime - q.dT) (q.initialLoop L R prev) := by
    refine ⟨by linarith, .inl ?_, .inl rfl⟩
    simp [initialLoop]
  have e1 : q.periods (q.initTime - q.dT) = ⌈(q.endTime - q.initTime) / q.dT⌉₊ + 1 := by
    unfold periods
    have : (q.endTime - (q.initTime - q.dT)) / q.dT = (q.endTime - q.initTime) / q.dT + 1 := by
      field_simp; ring
    rw [this]
    exact Nat.ceil_add_one (div_nonneg (by linarith) hd.le)
  have e2 : q.ahead q.initTime = ⌈(q.endTime - q.initTime) / q.dT⌉₊ + 1 := by
    unfold ahead; rw [if_pos hlt.le]; rfl
  obtain ⟨s, hs⟩ := loop_exits sol hd h0 fuel (q.initialLoop L R prev) (q.initTime - q.dT)
    (initialLoop_inv h0 hL hR hp) hoff hb (by
      rw [e1, e2]
      have : (q.initialLoop L R prev).t = q.initTime := rfl
      rw [this, e2]
      nlinarith [hf])
  unfold plan
  rw [hp]
  simp only [hs]
  intro hc
  unfold finish at hc
  revert hc
  simp only
  split
  · simp
  · split_ifs
    · unfold alignLastSteps
      split
      · split_ifs <;> simp
      · simp
    · simp

end
end Planner
end Uni
