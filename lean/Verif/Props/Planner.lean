import Verif.Lemmas.PlannerPlan
import Verif.Lemmas.PlannerKeep
import Verif.Model.PlannerSettings

/-! # C22–C31, C56–C59: planning

`PlanOf p integ left right t0 t1 left' right' d` (`Verif.Spec.PlanRun`) says what the footprints must be after a
successful request; `d.log` are the landings added, in order, `d.prev` the step on which the robot stands at the
beginning.  `integ` is an arbitrary integrator, `fuel` the number of iterations granted to the model of the loop
(C22 shows that it does not matter).  `Timed p` holds of every planner configured with the public methods (C32), `NonNeg` of
every footprint filled with them (C01). -/

set_option autoImplicit false
set_option linter.unusedSectionVars false

namespace Uni.Planner
open Spec

section
variable {K : Type*} [Field K] [LinearOrder K] [Trig K] [IsStrictOrderedRing K]
variable {p p' : Planner K} {integ : Integrator K} {fuel : Nat} {left right left' right' : FootPrint K} {t0 t1 : K}

/-! ## C22 -/

/-- C22: with a positive period the loop ends within `(N+1)(N+3)+1` iterations, `N` being the number of periods in the
requested interval, whatever the configuration, the footprints and the trajectory. -/
theorem C22_terminates [FloorSemiring K] (hd : 0 < p.dT) (hn : 0 ≤ p.nominalTime)
    (hf : (⌈(t1 - t0) / p.dT⌉₊ + 1) * (⌈(t1 - t0) / p.dT⌉₊ + 3) < fuel) :
    p.computeNewSteps integ fuel left right t0 t1 ≠ .outOfFuel := terminates hd hn hf

/-- C22: once the loop has ended, granting more iterations changes nothing: the model's bound on the number of iterations is
not observable. -/
theorem C22_fuel_irrelevant (h : p.computeNewSteps integ fuel left right t0 t1 ≠ .outOfFuel) (k : Nat) :
    p.computeNewSteps integ (fuel + k) left right t0 t1 = p.computeNewSteps integ fuel left right t0 t1 :=
  computeNewSteps_mono h k

/-- C22: with a zero period (accepted by `setPlannerPeriod`) no valid request ever returns, however many iterations are
granted. -/
theorem C22_zero_period_never_returns (hd : p.dT = 0) (hn : 0 ≤ p.nominalTime)
    (hne : ¬ (left.steps = [] ∧ right.steps = [])) (hv : ¬ Refused p integ left right t0 t1) :
    ∀ fuel, p.computeNewSteps integ fuel left right t0 t1 = .outOfFuel := diverges hd hn hne hv

/-! ## C23 -/

/-- C23: the landings alternate between the feet; the first one is of the foot that has been on the ground longest, of the
foot chosen by the lateral command or by the configuration if both landed together. -/
theorem C23_alternation (hp : Timed p) (hL : NonNeg left) (hR : NonNeg right)
    (h : p.computeNewSteps integ fuel left right t0 t1 = .done true p' left' right') :
    ∃ d, PlanOf p integ left right t0 t1 left' right' d ∧ Alternates d.firstLeft d.log ∧
      ∃ together, FirstFoot p left.steps.getLast? right.steps.getLast? d.firstLeft together := by
  obtain ⟨d, hd⟩ := exists_plan hp hL hR h
  exact ⟨d, hd, hd.alternates, _, hd.begins.first⟩

/-! ## C24 -/

/-- C24: each landing comes at least the minimum step duration after the previous one (the first one after the step on which
the robot stands). -/
theorem C24_minimum_duration (hp : Timed p) (hL : NonNeg left) (hR : NonNeg right)
    (h : p.computeNewSteps integ fuel left right t0 t1 = .done true p' left' right') :
    ∃ d, PlanOf p integ left right t0 t1 left' right' d ∧
      Along (fun s e => s.impactTime + p.minTime ≤ e.step.impactTime) d.prev d.log := by
  obtain ⟨d, hd⟩ := exists_plan hp hL hR h
  exact ⟨d, hd, hd.gaps hp⟩

/-- C24: with a positive minimum duration the landing times strictly increase. -/
theorem C24_increasing (hp : Timed p) (hm : 0 < p.minTime) (hL : NonNeg left) (hR : NonNeg right)
    (h : p.computeNewSteps integ fuel left right t0 t1 = .done true p' left' right') :
    ∃ d, PlanOf p integ left right t0 t1 left' right' d ∧
      d.log.Pairwise (fun a b => a.step.impactTime < b.step.impactTime) ∧
      ∀ e ∈ d.log, d.prev.impactTime < e.step.impactTime := by
  obtain ⟨d, hd⟩ := exists_plan hp hL hR h
  obtain ⟨h1, h2⟩ := along_times hp.minTime (hd.gaps hp)
  exact ⟨d, hd, h2.imp fun h => by linarith, fun e he => by linarith [h1 e he]⟩

/-- C24: footprints in time order stay in time order. -/
theorem C24_sorted (hp : Timed p) (hL : NonNeg left) (hR : NonNeg right)
    (hl : left.steps.Pairwise (fun a b => a.impactTime ≤ b.impactTime))
    (hr : right.steps.Pairwise (fun a b => a.impactTime ≤ b.impactTime))
    (h : p.computeNewSteps integ fuel left right t0 t1 = .done true p' left' right') :
    left'.steps.Pairwise (fun a b => a.impactTime ≤ b.impactTime) ∧
    right'.steps.Pairwise (fun a b => a.impactTime ≤ b.impactTime) := by
  obtain ⟨d, hd⟩ := exists_plan hp hL hR h
  exact hd.inOrder hp hl hr

/-! ## C26, C27 -/

/-- C26: the landing time of an optimised step is the one of least cost among all the candidate samples since the previous
landing, the latest one in case of ties (`Search.Optimal`); no terminal landing counts as optimised. -/
theorem C26_optimal (hp : Timed p) (hL : NonNeg left) (hR : NonNeg right)
    (h : p.computeNewSteps integ fuel left right t0 t1 = .done true p' left' right') :
    ∃ d, PlanOf p integ left right t0 t1 left' right' d ∧
      Situations d.q (fun c e => e.kind = .optimised →
        ∃ n m, (d.search c).Optimal n m ∧ e.step.impactTime = (d.search c).time m) d.start d.decided ∧
      ∀ e ∈ d.terminal, e.kind ≠ .optimised := by
  obtain ⟨d, hd⟩ := exists_plan hp hL hR h
  refine ⟨d, hd, Situations.mono (fun c e hc hk => ?_) hd.situations, ?_⟩
  · cases hc with
    | optimised n m h => exact ⟨n, m, h, rfl⟩
    | parallel n h => cases hk
  · intro e he
    have := Along.all ((hd.terminal_along hp.nominal_nonneg).mono (fun s e h => h.1)) e he
    rw [this]; simp

/-- C27: the duration of an optimised step net of the pause is positive and at most the maximum. -/
theorem C27_maximum_duration (hp : Timed p) (hL : NonNeg left) (hR : NonNeg right)
    (h : p.computeNewSteps integ fuel left right t0 t1 = .done true p' left' right') :
    ∃ d, PlanOf p integ left right t0 t1 left' right' d ∧
      Situations d.q (fun c e => e.kind = .optimised →
        ∃ m, e.step.impactTime = (d.search c).time m ∧
          0 < e.step.impactTime - c.prev.impactTime - (d.search c).pause m ∧
          e.step.impactTime - c.prev.impactTime - (d.search c).pause m ≤ p.maxTime) d.start d.decided := by
  obtain ⟨d, hd⟩ := exists_plan hp hL hR h
  refine ⟨d, hd, Situations.mono (fun c e hc hk => ?_) hd.situations⟩
  cases hc with
  | optimised n m h =>
    obtain ⟨-, -, h3, h4, -⟩ := h.2.2.2.2.1
    refine ⟨m, rfl, h4, ?_⟩
    have := not_lt.mp (not_or.mp h3).1
    rw [← hd.maxTime]
    exact this
  | parallel n h => cases hk

/-- The pause of a search does not grow as long as no sample is tiny or due. -/
theorem pause_const (s : Search K) (m : Nat) (h1 : ∀ j < m, s.Gate j → s.tiny j = false) (h2 : ∀ j < m, ¬ s.Due j) :
    s.pause m = s.pause0 := by
  induction m with
  | zero => rfl
  | succ m ih =>
    have ih := ih (fun j hj => h1 j (by omega)) (fun j hj => h2 j (by omega))
    rw [Search.pause]
    split_ifs with a b c
    · rw [h1 m (by omega) a] at b; cases b
    · exact absurd ⟨a, h1 m (by omega) a, c⟩ (h2 m (by omega))
    · exact ih
    · exact ih

/-- C27: after the first landing of a plan, an optimised step before which the robot never stands still lasts at most the
maximum duration: no pause is subtracted. -/
theorem C27_without_pause (hp : Timed p) (hL : NonNeg left) (hR : NonNeg right)
    (h : p.computeNewSteps integ fuel left right t0 t1 = .done true p' left' right') :
    ∃ d, PlanOf p integ left right t0 t1 left' right' d ∧
      Situations d.q (fun c e => e.kind = .optimised → c.pause0 = 0 →
        ∃ m, e.step.impactTime = (d.search c).time m ∧
          ((∀ j < m, (d.search c).Gate j → (d.search c).tiny j = false) → (∀ j < m, ¬ (d.search c).Due j) →
            e.step.impactTime ≤ c.prev.impactTime + p.maxTime)) d.start d.decided := by
  obtain ⟨d, hd, hs⟩ := C27_maximum_duration hp hL hR h
  refine ⟨d, hd, Situations.mono (fun c e hc hk h0 => ?_) hs⟩
  obtain ⟨m, h1, -, h3⟩ := hc hk
  refine ⟨m, h1, fun a b => ?_⟩
  have := pause_const (d.search c) m a b
  have e0 : (d.search c).pause0 = c.pause0 := rfl
  rw [this, e0, h0] at h3
  linarith

/-! ## C28 -/

/-- C28: whatever a call returns, the footprints are extended at the end only, or no step is added and the landing time of the
older of the two last steps becomes that of the newer one (`Realigned`). -/
theorem C28_append_only {ok : Bool} (hp : Timed p) (hL : NonNeg left) (hR : NonNeg right)
    (h : p.computeNewSteps integ fuel left right t0 t1 = .done ok p' left' right') :
    (left.steps <+: left'.steps ∧ right.steps <+: right'.steps ∧ left'.footName = left.footName ∧
      right'.footName = right.footName) ∨
    (ok = true ∧ Realigned left right left' right') := by
  rcases computeNewSteps_done hp.period hp.nominal_nonneg hL hR h with
    ⟨-, rfl, rfl⟩ | ⟨-, e1, e2, -, u, -, rfl, rfl⟩ | ⟨h1, d, hd, -⟩
  · exact .inl ⟨List.prefix_refl _, List.prefix_refl _, rfl, rfl⟩
  · rw [e1, e2]; exact .inl ⟨List.nil_prefix, List.nil_prefix, rfl, rfl⟩
  · rcases hd.grows with h | h
    · exact .inl h
    · exact .inr ⟨h1, h⟩

/-- C28: all the steps added have non-negative landing times, so that further calls find footprints fit for them. -/
theorem C28_nonneg {ok : Bool} (hp : Timed p) (hL : NonNeg left) (hR : NonNeg right)
    (h : p.computeNewSteps integ fuel left right t0 t1 = .done ok p' left' right') : NonNeg left' ∧ NonNeg right' := by
  rcases computeNewSteps_done hp.period hp.nominal_nonneg hL hR h with
    ⟨-, rfl, rfl⟩ | ⟨-, e1, e2, h0, u, -, rfl, rfl⟩ | ⟨h1, d, hd, -⟩
  · exact ⟨hL, hR⟩
  · constructor <;>
    · intro s hs
      simp only [List.mem_singleton] at hs
      rw [hs]; exact h0
  · have h0 : NonNeg d.l0 ∧ NonNeg d.r0 := by
      rcases hd.begins.steps with ⟨-, e1, e2⟩ | ⟨-, -, u, -, e1, e2⟩
      · rw [e1, e2]; exact ⟨hL, hR⟩
      · rw [e1, e2]
        constructor <;>
        · intro s hs
          simp only [List.mem_singleton] at hs
          rw [hs]; exact hd.begins.nonneg
    have hprev : 0 ≤ d.prev.impactTime := by
      have hl := hd.begins.last
      cases hb : d.q.swingLeft with
      | true => rw [hb, if_pos rfl] at hl; exact h0.2 _ (List.mem_of_getLast? hl)
      | false => rw [hb, if_neg (by simp)] at hl; exact h0.1 _ (List.mem_of_getLast? hl)
    obtain ⟨ht, -⟩ := along_times hp.minTime (hd.gaps hp)
    have hm := hp.minTime
    rcases hd.effect with ⟨-, rfl, rfl⟩ | ⟨-, l, r, g1, g2, g⟩
    · constructor
      · intro s hs
        rcases List.mem_append.mp hs with hs | hs
        · exact h0.1 s hs
        · obtain ⟨e, he, -, rfl⟩ := mem_stepsOf hs
          linarith [ht e he]
      · intro s hs
        rcases List.mem_append.mp hs with hs | hs
        · exact h0.2 s hs
        · obtain ⟨e, he, -, rfl⟩ := mem_stepsOf hs
          linarith [ht e he]
    · have hl := h0.1 l (List.mem_of_getLast? g1)
      have hr := h0.2 r (List.mem_of_getLast? g2)
      rcases g with ⟨-, rfl, rfl⟩ | ⟨-, rfl, older, s, k, rfl⟩ | ⟨-, ⟨older, s, k, rfl⟩, rfl⟩
      · exact h0
      · refine ⟨h0.1, fun x hx => ?_⟩
        rcases List.mem_append.mp hx with hx | hx
        · exact h0.2 x (by rw [k]; exact List.mem_append_left _ hx)
        · simp only [List.mem_singleton] at hx; rw [hx]; exact hl
      · refine ⟨fun x hx => ?_, h0.2⟩
        rcases List.mem_append.mp hx with hx | hx
        · exact h0.1 x (by rw [k]; exact List.mem_append_left _ hx)
        · simp only [List.mem_singleton] at hx; rw [hx]; exact hr

/-! ## C29 -/

/-- C29: every landing that is not terminal is after the beginning and not after the end of the requested interval; the first
one, if the feet start together, comes more than the nominal step duration after the beginning. -/
theorem C29_window (hp : Timed p) (hL : NonNeg left) (hR : NonNeg right)
    (h : p.computeNewSteps integ fuel left right t0 t1 = .done true p' left' right') :
    ∃ d, PlanOf p integ left right t0 t1 left' right' d ∧
      (∀ e ∈ d.log, e.kind ≠ .terminal → t0 < e.step.impactTime ∧ e.step.impactTime ≤ t1) ∧
      (FirstFoot p left.steps.getLast? right.steps.getLast? d.firstLeft true →
        ∀ e ∈ d.log, e.kind ≠ .terminal → t0 + p.nominalTime < e.step.impactTime) := by
  obtain ⟨d, hd⟩ := exists_plan hp hL hR h
  have hter := Along.all ((hd.terminal_along hp.nominal_nonneg).mono (fun s e h => h.1))
  have hin : ∀ e ∈ d.log, e.kind ≠ .terminal → e ∈ d.decided := by
    intro e he hk
    rcases List.mem_append.mp he with he | he
    · exact he
    · exact absurd (hter e he) hk
  have off0 : 0 ≤ d.start.offset := by
    show 0 ≤ (if d.q.firstStep then d.q.nominalTime else 0)
    split_ifs
    · rw [hd.nominalTime]; exact hp.nominal_nonneg
    · exact le_refl _
  have hw : ∀ e ∈ d.decided, t0 < e.step.impactTime ∧ e.step.impactTime ≤ t1 := by
    have := (run_situations (p := d.q) (sol := d.sol) (L := d.left) (R := d.right) (I := fun c => 0 ≤ c.offset)
      (P := fun _ e => t0 < e.step.impactTime ∧ e.step.impactTime ≤ t1)
      (fun c e _ _ => le_refl _) (fun c e hc he => by
        obtain ⟨-, -, -, a, b⟩ := decided_facts he
        rw [hd.initTime] at a
        rw [hd.endTime] at b
        exact ⟨by linarith, b⟩) hd.run off0).1
    exact Along.all (Situations.along this)
  refine ⟨d, hd, fun e he hk => hw e (hin e he hk), fun htog e he hk => ?_⟩
  have hfirst : d.q.firstStep = true := htog.together_eq hd.begins.first
  have hchain : ∀ e ∈ d.decided, t0 + p.nominalTime < e.step.impactTime := by
    have hrun := hd.run
    have hgap := hd.gaps hp
    have hoff : d.start.offset = p.nominalTime := by
      show (if d.q.firstStep then d.q.nominalTime else 0) = _
      rw [hfirst, if_pos rfl, hd.nominalTime]
    generalize hlog : d.decided = log at hrun
    generalize d.start = c at hrun hoff
    cases hrun with
    | stop _ _ => simp
    | land _ e es c' h1 h2 =>
      have he := (decided_facts h1).2.2.2.1
      rw [hd.initTime, hoff] at he
      have hg : Along (fun s e => s.impactTime + p.minTime ≤ e.step.impactTime) d.prev (e :: es) := by
        have hs := Situations.along (P := fun s e => s.impactTime + d.q.minTime ≤ e.step.impactTime) (Situations.mono (fun c e (hc : Decided d.q d.sol d.left d.right c e) =>
          (decided_facts hc).2.2.1) hd.situations)
        rw [hlog] at hs
        exact hs.mono fun s e h => by rwa [hd.minTime] at h
      obtain ⟨h4, -⟩ := along_times hp.minTime hg.2
      intro x hx
      rcases List.mem_cons.mp hx with rfl | hx
      · exact he
      · linarith [h4 x hx, hp.minTime]
  exact hchain e (hin e he hk)

/-! ## C30 -/

/-- C30: with the terminal step enabled the robot ends with parallel feet (`Closed`). -/
theorem C30_parallel_feet (hp : Timed p) (hL : NonNeg left) (hR : NonNeg right) (hT : p.addTerminal = true)
    (h : p.computeNewSteps integ fuel left right t0 t1 = .done true p' left' right') :
    Closed (leftFoot p left') (rightFoot p right') := by
  obtain ⟨d, hd⟩ := exists_plan hp hL hR h
  exact hd.closed hT

/-! ## C31 -/

/-- C31: inconsistent bounds are rejected and nothing at all changes. -/
theorem C31_inconsistent_bounds (h : ¬ Accepted p) :
    p.computeNewSteps integ fuel left right t0 t1 = .done false p left right := by
  unfold computeNewSteps
  split_ifs with h1 h2 h3
  · rfl
  · rfl
  · rfl
  · exact absurd ⟨not_lt.mp h1, not_lt.mp h2, not_le.mp h3⟩ h

/-- C31: a request that starts before a step already taken is rejected, the footprints are untouched. -/
theorem C31_past (s : Step K) (hs : left.steps.getLast? = some s ∨ right.steps.getLast? = some s)
    (ht : t0 < s.impactTime) : ∃ q, p.computeNewSteps integ fuel left right t0 t1 = .done false q left right := by
  have hne : ¬ (left.steps = [] ∧ right.steps = []) := by
    rintro ⟨a, b⟩; rw [a, b] at hs; simp at hs
  rcases computeNewSteps_cases p integ left right t0 t1 with
    ⟨-, q, hq⟩ | ⟨-, e1, e2, -⟩ | ⟨-, -, e1, e2, -⟩ | ⟨-, q, sol, l0, r0, prev, hb, -⟩
  · exact ⟨q, hq fuel⟩
  · exact absurd ⟨e1, e2⟩ hne
  · exact absurd ⟨e1, e2⟩ hne
  · exfalso
    have h1 := hb.last
    have h2 := hb.swing
    have h3 := hb.prevTime
    rcases hb.steps with ⟨-, rfl, rfl⟩ | ⟨e1, e2, -⟩
    · have : s.impactTime ≤ prev.impactTime := by
        cases hsw : q.swingLeft with
        | true =>
          rw [hsw, if_pos rfl] at h1 h2
          rcases hs with hs | hs
          · exact h2 s hs
          · rw [h1] at hs; cases hs; exact le_refl _
        | false =>
          rw [hsw, if_neg (by simp)] at h1 h2
          rcases hs with hs | hs
          · rw [h1] at hs; cases hs; exact le_refl _
          · exact h2 s hs
      linarith
    · exact absurd ⟨e1, e2⟩ hne

/-- C31: a request that starts before time 0 is rejected, the footprints are untouched (or, in person following without any
reference, it stops with a division by zero before touching them). -/
theorem C31_negative (ht : t0 < 0) : (∃ q, p.computeNewSteps integ fuel left right t0 t1 = .done false q left right) ∨
    p.computeNewSteps integ fuel left right t0 t1 = .ub .divByZero := by
  rcases computeNewSteps_cases p integ left right t0 t1 with
    ⟨-, q, hq⟩ | ⟨-, -, -, -, hq⟩ | ⟨-, -, -, -, h0, -⟩ | ⟨-, q, sol, l0, r0, prev, hb, -⟩
  · exact .inl ⟨q, hq fuel⟩
  · exact .inr (hq fuel)
  · exact absurd h0 (not_le.mpr ht)
  · exact absurd hb.nonneg (not_le.mpr ht)

/-- C31 for an empty interval, provided some step was already taken.  Missing: with two empty footprints the call does add the
two initial steps, see `C31_empty_interval_violated`. -/
theorem C31_empty_interval_partial (ht : t1 ≤ t0) (hne : ¬ (left.steps = [] ∧ right.steps = [])) :
    ∃ q, p.computeNewSteps integ fuel left right t0 t1 = .done false q left right := by
  rcases computeNewSteps_cases p integ left right t0 t1 with
    ⟨-, q, hq⟩ | ⟨-, e1, e2, -⟩ | ⟨-, -, e1, e2, -⟩ | ⟨-, q, sol, l0, r0, prev, hb, -⟩
  · exact ⟨q, hq fuel⟩
  · exact absurd ⟨e1, e2⟩ hne
  · exact absurd ⟨e1, e2⟩ hne
  · exact absurd hb.lt (not_lt.mpr ht)

/-- C31: a call returns false only for one of the listed reasons (`Refused`), and then the footprints are untouched, or both
were empty and have got an initial step each. -/
theorem C31_reasons (hp : Timed p) (h : p.computeNewSteps integ fuel left right t0 t1 = .done false p' left' right') :
    Refused p integ left right t0 t1 ∧
    ((left' = left ∧ right' = right) ∨
      (left.steps = [] ∧ right.steps = [] ∧ Initialised p left right t0 left' right')) := by
  rcases computeNewSteps_cases p integ left right t0 t1 with
    ⟨hr, q, hq⟩ | ⟨-, -, -, -, hq⟩ | ⟨hr, -, e1, e2, h0, q, l0, r0, hi, hq⟩ | ⟨-, q, sol, l0, r0, prev, hs, hq⟩
  · rw [hq] at h; cases h; exact ⟨hr, .inl ⟨rfl, rfl⟩⟩
  · rw [hq] at h; cases h
  · rw [hq] at h; cases h; exact ⟨hr, .inr ⟨e1, e2, hi⟩⟩
  · exfalso
    rw [hq] at h
    have e1 : q.dT = p.dT := by rw [hs.eq]
    have e2 : q.initTime = t0 := by rw [hs.eq]
    have e4 : q.nominalTime = p.nominalTime := by rw [hs.eq]
    rcases plan_run (q := q) (sol := sol) (by rw [e1]; exact hp.period) (by rw [e2]; exact hs.nonneg)
      (by rw [e4]; exact hp.nominal_nonneg) rfl rfl (last_begins hs) fuel with hrun | ⟨log, T, c', b, f, -, -, -, ⟨-, g⟩ | ⟨-, g⟩⟩
    · rw [hrun] at h; cases h
    · rw [g] at h; cases h
    · rw [g] at h
      rcases align_cases { q with swingLeft := b, firstStep := f } (leftFoot p l0).fp (rightFoot p r0).fp with
        ⟨ha, -⟩ | ⟨l, r, b, l1, r1, -, -, ha, -⟩ <;> (rw [ha] at h; cases h)

/-! ## C56, C57 -/

/-- C56: the footprints after a successful request are those prescribed by the specification. -/
theorem C56_refines (hp : Timed p) (hL : NonNeg left) (hR : NonNeg right)
    (h : p.computeNewSteps integ fuel left right t0 t1 = .done true p' left' right') :
    ∃ d, PlanOf p integ left right t0 t1 left' right' d := exists_plan hp hL hR h

/-- C56: the specification determines them: given the planner during the call and the integrated trajectory there is only one
plan. -/
theorem C56_deterministic (hp : Timed p) {left'' right'' : FootPrint K} {d d' : Plan K}
    (h : PlanOf p integ left right t0 t1 left' right' d) (h' : PlanOf p integ left right t0 t1 left'' right'' d')
    (hq : d.q = d'.q) (hsol : d.sol = d'.sol) : d.log = d'.log ∧ left' = left'' ∧ right' = right'' :=
  h.unique hp.period h' hq hsol

/-- C57: the trajectory along which steps are placed is the one returned by the integrator for the requested interval, started
at the pose of the stance foot (`InitialState`), with the velocity limits that come from the configuration and the references
held until the first step may end (`Prepared`). -/
theorem C57_integrated (hp : Timed p) (hL : NonNeg left) (hR : NonNeg right)
    (h : p.computeNewSteps integ fuel left right t0 t1 = .done true p' left' right') :
    ∃ d, PlanOf p integ left right t0 t1 left' right' d ∧
      ∃ c0 u together, FirstFoot p left.steps.getLast? right.steps.getLast? d.firstLeft together ∧
        InitialState p (leftFoot p left) (rightFoot p right) t0 left.steps.getLast? right.steps.getLast? u ∧
        Prepared p t0 (decide (¬ (left.steps = [] ∧ right.steps = []))) together u c0 ∧
        (integ { d.q with ctrl := c0 } u t0 t1).2 = some d.sol := by
  obtain ⟨d, hd⟩ := exists_plan hp hL hR h
  obtain ⟨c0, u, h1, h2, h3⟩ := hd.begins.integrated
  exact ⟨d, hd, c0, u, _, hd.begins.first, h1, h2, by rw [h3]⟩

/-! ## C58 -/

/-- C58: a request succeeds unless there is a listed reason to refuse it, provided that both feet have steps or none has, and
that two references do not share the same time (division by zero). -/
theorem C58_valid_requests_succeed [FloorSemiring K] (hd : 0 < p.dT) (hn : 0 ≤ p.nominalTime)
    (hv : ¬ Refused p integ left right t0 t1) (hb : left.steps = [] ↔ right.steps = [])
    (hub : ∀ w, p.controller = .personFollowing → left.steps = [] → p.ctrl.person.getDesiredPoint t0 ≠ .ub w)
    (hf : (⌈(t1 - t0) / p.dT⌉₊ + 1) * (⌈(t1 - t0) / p.dT⌉₊ + 3) < fuel) :
    ∃ p' left' right', p.computeNewSteps integ fuel left right t0 t1 = .done true p' left' right' :=
  succeeds hd hn hv hb hub hf

/-! ## C59 -/

/-- C59: planning, successful or not, does not change the configuration. -/
theorem C59_configuration_kept {ok : Bool}
    (h : p.computeNewSteps integ fuel left right t0 t1 = .done ok p' left' right') : SameConfig p p' :=
  computeNewSteps_keep p integ fuel left right t0 t1 p' (by rw [h]; rfl)

end

/-! ## C25 -/

/-- C25: every landing placed by the optimisation respects all the configured bounds with respect to the step on which the robot
stands. -/
theorem C25_feasible {p p' : Planner ℝ} {integ : Integrator ℝ} {fuel : Nat} {left right left' right' : FootPrint ℝ} {t0 t1 : ℝ}
    (hp : Timed p) (hL : NonNeg left) (hR : NonNeg right)
    (h : p.computeNewSteps integ fuel left right t0 t1 = .done true p' left' right') :
    ∃ d, PlanOf p integ left right t0 t1 left' right' d ∧
      Along (fun prev e => e.kind = .optimised → WithinBounds p prev e.left e.step) d.prev d.log := by
  obtain ⟨d, hd⟩ := exists_plan hp hL hR h
  refine ⟨d, hd, hd.along (fun c e hc hk => ?_) ((hd.terminal_along hp.nominal_nonneg).mono fun s e he hk => ?_)⟩
  · have := decided_within hc hk
    obtain ⟨a1, a2, a3, a4, a5⟩ := this
    rw [hd.problem] at a1 a2 a3 a4 a5
    rw [hd.rightYaw] at a2
    rw [hd.leftYaw, hd.rightYaw] at a3
    exact ⟨a1, a2, a3, a4, a5⟩
  · rw [he.1] at hk; cases hk

/-- C25: when the plan ends with a complete terminal step (two landings), the first of the two respects the bounds as well. -/
theorem C25_terminal {p p' : Planner ℝ} {integ : Integrator ℝ} {fuel : Nat} {left right left' right' : FootPrint ℝ} {t0 t1 : ℝ}
    (hp : Timed p) (hL : NonNeg left) (hR : NonNeg right)
    (h : p.computeNewSteps integ fuel left right t0 t1 = .done true p' left' right') :
    ∃ d, PlanOf p integ left right t0 t1 left' right' d ∧
      ∀ e e', d.terminal = [e, e'] → WithinBounds p d.final.prev e.left e.step := by
  obtain ⟨d, hd⟩ := exists_plan hp hL hR h
  refine ⟨d, hd, fun e e' he => ?_⟩
  have ht := hd.terminal
  split_ifs at ht
  · have key : WithinBounds d.q d.final.prev e.left e.step := by
      rw [he] at ht
      generalize d.final = c at ht ⊢
      cases ht with
      | both hc => exact within_of_ok hc.1
    obtain ⟨a1, a2, a3, a4, a5⟩ := key
    rw [hd.problem] at a1 a2 a3 a4 a5
    rw [hd.rightYaw] at a2
    rw [hd.leftYaw, hd.rightYaw] at a3
    exact ⟨a1, a2, a3, a4, a5⟩
  · rw [ht] at he; cases he

/-! ## Concrete requests -/

section
/-- For the concrete requests below: constant trigonometric functions and a square root to four digits. -/
local instance : Trig ℚ :=
  ⟨fun _ => 1, fun _ => 0, fun q => Nat.sqrt (⌊q * 10 ^ 8⌋₊) / 10 ^ 4, fun _ => 0, fun _ => 0, fun _ _ => 0, 22 / 7⟩

/-- An integrator: straight walk at constant speed. -/
def straight (v : ℚ) : Integrator ℚ := fun p u t0 _ =>
  (p.ctrl, some fun t => ⟨⟨u.position.x + (t - t0) * v, u.position.y⟩, u.angle⟩)

/-- A planner with direct control and a period of half a second. -/
def demo : Planner ℚ := (Planner.new (K := ℚ)).runAll [.setPlannerPeriod (1 / 2), .setUnicycleController .direct]

/-- The returned value and, for each foot, forward coordinate and landing time of the steps. -/
def summary : PlanResult ℚ → Option (Bool × List (ℚ × ℚ) × List (ℚ × ℚ))
  | .done ok _ l r => some (ok, l.steps.map (fun s => (s.position.x, s.impactTime)),
      r.steps.map (fun s => (s.position.x, s.impactTime)))
  | _ => none

/-- Undefined behaviour reached by the call. -/
def undefinedBehaviour : PlanResult ℚ → Option UB
  | .ub w => some w
  | _ => none

/-- Non-vacuity of C22–C31, C56–C59: a request with several optimised landings and a terminal step. -/
example : summary (demo.computeNewSteps (straight (1 / 50)) 1000 FootPrint.empty FootPrint.empty 0 20) =
    some (true, [(0, 0), (7 / 50, 7), (39 / 100, 39 / 2)], [(0, 0), (7 / 25, 14), (39 / 100, 47 / 2)]) := by
  decide +kernel

/-- Non-vacuity: a second request continues from the first plan (the terminal step included). -/
example : (match demo.computeNewSteps (straight (1 / 50)) 1000 FootPrint.empty FootPrint.empty 0 20 with
    | .done true p l r => summary (p.computeNewSteps (straight 0) 1000 l r (47 / 2) 30)
    | _ => none) =
    some (true, [(0, 0), (7 / 50, 7), (39 / 100, 47 / 2)], [(0, 0), (7 / 25, 14), (39 / 100, 47 / 2)]) := by
  decide +kernel

/-- The configuration satisfies the hypotheses of the theorems. -/
example : Timed demo := by constructor <;> decide +kernel

/-- Two feet side by side. -/
def standing (y : ℚ) : FootPrint ℚ := ⟨[⟨⟨0, y⟩, 0, 0, ""⟩], ""⟩

theorem demo_valid (v : ℚ) (dT : ℚ) :
    ¬ Refused { demo with dT := dT } (straight v) (standing (7 / 100)) (standing (-7 / 100)) 0 20 := by
  have hc : demo.controller = .direct := by decide +kernel
  have h1 : demo.nominalWidth ≤ demo.maxLength ∧ demo.nominalWidth ≤ demo.maxLengthBackward ∧ demo.minAngle < demo.maxAngle := by
    decide +kernel
  have h2 : 0 ≤ speedLimit demo ∧ 0 ≤ turnLimit demo := by decide +kernel
  have h3 : ¬ (demo.minLength < 0 ∨ demo.minAngle < 0) := by decide +kernel
  have h4 : ¬ 0 + demo.nominalTime - demo.minTime < 0 := by decide +kernel
  rintro (h | h | h | h | h | ⟨s, h, h'⟩ | h | ⟨h, -⟩ | ⟨q, u, h⟩)
  · exact h h1
  · exact h ⟨h2.1, h2.2, fun h => by change demo.controller = .navigation at h; rw [hc] at h; cases h⟩
  · exact h3 h
  · revert h; decide +kernel
  · revert h; decide +kernel
  · simp only [standing, List.getLast?_singleton, Option.some.injEq] at h
    rcases h with h | h <;> (rw [← h] at h'; exact absurd h' (lt_irrefl _))
  · exact h4 h
  · cases h
  · cases h

/-- Non-vacuity of C22: a valid request with a zero period, obtained with the public methods, never returns. -/
theorem C22_zero_period_reachable :
    (∃ p : Planner ℚ, p = demo.runAll [.setPlannerPeriod 0] ∧
      ∀ fuel, p.computeNewSteps (straight (1 / 50)) fuel (standing (7 / 100)) (standing (-7 / 100)) 0 20 = .outOfFuel) :=
  ⟨_, rfl, C22_zero_period_never_returns (by decide +kernel) (by decide +kernel) (by simp [standing]) (by
    have := demo_valid (1 / 50) 0
    have e : demo.runAll [.setPlannerPeriod 0] = { demo with dT := 0 } := by
      simp [runAll, run, setPlannerPeriod]
    rw [e]; exact this)⟩

/-- Non-vacuity of C58: the same request with a positive period succeeds. -/
example : ∃ p' l r, demo.computeNewSteps (straight (1 / 50)) 2000 (standing (7 / 100)) (standing (-7 / 100)) 0 20 =
    .done true p' l r :=
  C58_valid_requests_succeed (by decide +kernel) (by decide +kernel) (demo_valid (1 / 50) demo.dT) (by simp [standing])
    (by intro w h; have hc : demo.controller = .direct := by decide +kernel
        rw [hc] at h; cases h) (by decide +kernel)

/-- C31 fails for an empty interval when both footprints are empty: the call returns false and yet a step is added to each
footprint. -/
theorem C31_empty_interval_violated : ∃ (p : Planner ℚ) (integ : Integrator ℚ) (left right : FootPrint ℚ) (t0 t1 : ℚ),
    t1 < t0 ∧ left.steps = [] ∧
    summary (p.computeNewSteps integ 10 left right t0 t1) = some (false, [(0, t0)], [(0, t0)]) :=
  ⟨demo, straight 0, FootPrint.empty, FootPrint.empty, 5, 3, by decide, rfl, by decide +kernel⟩

/-- Non-vacuity of C31: a request before the last step, one with inconsistent bounds. -/
example : summary (demo.computeNewSteps (straight 0) 10 ⟨[⟨0, 0, 3, ""⟩], ""⟩ FootPrint.empty 2 8) =
    some (false, [(0, 3)], []) := by decide +kernel
example : ¬ Accepted { demo with nominalWidth := 1 } := by
  rintro ⟨h, -⟩; revert h; decide +kernel

/-- The hypothesis of C58 on the footprints is needed: if only one foot has a step, the terminal step is disabled and the interval
is too short for a step, the call reads an uninitialised variable. -/
theorem C58_one_empty_foot_undefined : ∃ (p : Planner ℚ) (integ : Integrator ℚ) (left right : FootPrint ℚ) (t0 t1 : ℚ),
    0 ≤ t0 ∧ t0 < t1 ∧ Accepted p ∧
    undefinedBehaviour (p.computeNewSteps integ 10 left right t0 t1) = some .uninitialised :=
  ⟨demo.runAll [.addTerminalStep false], straight 0, standing (7 / 100), FootPrint.empty, 0, 1, by decide, by decide,
    ⟨by decide +kernel, by decide +kernel, by decide +kernel⟩, by decide +kernel⟩

end

/-- The default planner under direct control, over the reals. -/
noncomputable def realDemo : Planner ℝ := { Planner.new with controller := .direct }

theorem realDemo_timed : Timed realDemo := by
  refine ⟨?_, ?_, ?_⟩
  · simp [realDemo, Planner.new]
  · simp [realDemo, Planner.new]
  · simp [realDemo, Planner.new]; norm_num

/-- The default planner under direct control, feet side by side, any integrator that does not fail. -/
theorem realDemo_plans (sol : Planner ℝ → UState ℝ → ℝ → ℝ → ℝ → UState ℝ) (nl nr : String) : ∃ p' l' r',
    realDemo.computeNewSteps (fun p u a b => (p.ctrl, some (sol p u a b)))
      ((⌈((20 : ℝ) - 0) / (Planner.new (K := ℝ)).dT⌉₊ + 1) * (⌈((20 : ℝ) - 0) / (Planner.new (K := ℝ)).dT⌉₊ + 3) + 1)
      ⟨[⟨⟨0, 7 / 100⟩, 0, 0, nl⟩], nl⟩ ⟨[⟨⟨0, -7 / 100⟩, 0, 0, nr⟩], nr⟩ 0 20 = .done true p' l' r' := by
  have h : ¬ Refused realDemo
      (fun p u a b => (p.ctrl, some (sol p u a b))) ⟨[⟨⟨0, 7 / 100⟩, 0, 0, nl⟩], nl⟩ ⟨[⟨⟨0, -7 / 100⟩, 0, 0, nr⟩], nr⟩ 0 20 := by
    have hpi := Real.pi_pos
    rintro (h | h | h | h | h | ⟨s, h, h'⟩ | h | ⟨h, -⟩ | ⟨q, u, h⟩)
    · apply h
      refine ⟨?_, ?_, ?_⟩ <;> simp only [realDemo, Planner.new, deg2rad, pi_real]
      · norm_num
      · norm_num
      · linarith
    · apply h
      refine ⟨?_, ?_, fun h => by cases h⟩
      · simp only [speedLimit, realDemo, Planner.new, sqrt_real]
        positivity
      · simp only [turnLimit, realDemo, Planner.new, deg2rad, pi_real]
        positivity
    · simp only [realDemo, Planner.new, deg2rad, pi_real] at h
      rcases h with h | h
      · norm_num at h
      · linarith
    · norm_num at h
    · norm_num at h
    · simp only [List.getLast?_singleton, Option.some.injEq] at h
      rcases h with h | h <;> (rw [← h] at h'; exact absurd h' (lt_irrefl _))
    · simp only [realDemo, Planner.new] at h
      norm_num at h
    · cases h
    · cases h
  exact C58_valid_requests_succeed (by simp [realDemo, Planner.new]) (by simp [realDemo, Planner.new]) h (by simp)
    (by intro w h; cases h) (Nat.lt_succ_self _)

/-- Non-vacuity of C25 (over the reals). -/
example (sol : Planner ℝ → UState ℝ → ℝ → ℝ → ℝ → UState ℝ) : ∃ (p p' : Planner ℝ) (fuel : Nat) (l r l' r' : FootPrint ℝ),
    Timed p ∧ NonNeg l ∧ NonNeg r ∧
    p.computeNewSteps (fun p u a b => (p.ctrl, some (sol p u a b))) fuel l r 0 20 = .done true p' l' r' := by
  obtain ⟨p', l', r', h⟩ := realDemo_plans sol "" ""
  refine ⟨_, p', _, _, _, l', r', realDemo_timed, ?_, ?_, h⟩
  · intro s hs; simp only [List.mem_singleton] at hs; rw [hs]
  · intro s hs; simp only [List.mem_singleton] at hs; rw [hs]

end Uni.Planner
