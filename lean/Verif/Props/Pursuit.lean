import Verif.Spec.Pursuit
import Verif.Props.GoTo
import Verif.Lemmas.PlannerKeep

/-! # C120: from plan to plan, a person is pursued until their time comes and then forgotten -/

set_option autoImplicit false
set_option linter.unusedSectionVars false

namespace Uni
open Spec
namespace Planner

section
variable {K : Type*} [Field K] [LinearOrder K] [IsStrictOrderedRing K] [Trig K]

theorem plan_ctrl (p : Planner K) (sol : K → UState K) (fuel : Nat) (left right : Foot K) :
    ∀ q ∈ (p.plan sol fuel left right).planner, q.ctrl = p.ctrl := by
  unfold plan
  intro q hq
  split at hq
  · cases hq; rfl
  · split at hq
    · cases hq
    · cases hq; rfl
    · rename_i s _
      unfold finish at hq
      simp only at hq
      generalize hr : (if p.addTerminal = true then
        addTerminalStep { p with swingLeft := s.swingLeft, firstStep := s.firstStep } s.swingLeft s.left s.right (sol p.endTime)
        else (true, s.left, s.right)) = r at hq
      obtain ⟨ok, l, r⟩ := r
      cases ok with
      | false => cases hq; rfl
      | true =>
        simp only at hq
        split_ifs at hq
        · unfold alignLastSteps at hq
          split at hq
          · split_ifs at hq <;> (cases hq; rfl)
          · cases hq
        · cases hq; rfl

variable {p p' : Planner K} {integ : Integrator K} {fuel : Nat} {left right left' right' : FootPrint K} {t0 t1 : K}

/-- The controller that follows the person after a successful request. -/
theorem person_after (hi : OnlyFeeds integ) (h : p.computeNewSteps integ fuel left right t0 t1 = .done true p' left' right') :
    SameConfig p p' ∧ 0 ≤ t0 ∧ ∃ traj here t x θ y, ∃ together : Bool,
      traj.Perm (p.ctrl.person.traj ++ (if left.steps = [] ∧ right.steps = [] then [] else
        ⟨t0, here, 0⟩ :: (if together then [⟨t0 + p.nominalTime - p.minTime, here, 0⟩] else []))) ∧
      (if left.steps = [] ∧ right.steps = [] then traj = p.ctrl.person.traj else InTimeOrder traj) ∧
      p'.ctrl.person = { p.ctrl.person with
        base := limited p p.ctrl.person.base, traj := traj, time := t, unicyclePosition := x, theta := θ, y := y } := by
  have hsame := computeNewSteps_keep p integ fuel left right t0 t1 p' (by rw [h]; rfl)
  rcases computeNewSteps_cases p integ left right t0 t1 with
    ⟨-, q, hq⟩ | ⟨-, -, -, -, hw⟩ | ⟨-, -, -, -, -, q, l0, r0, -, hq⟩ | ⟨-, q, sol, l0, r0, prev, hs, hq⟩
  · rw [hq] at h; cases h
  · rw [hw] at h; cases h
  · rw [hq] at h; cases h
  · rw [hq] at h
    have hc := plan_ctrl q sol fuel (leftFoot p l0) (rightFoot p r0) p' (by rw [h]; rfl)
    obtain ⟨c0, u, -, ⟨traj, tp, ts, hc0⟩, hint⟩ := hs.integrated
    obtain ⟨t, x, θ, y, hf⟩ := hi { q with ctrl := c0 } u t0 t1
    rw [hint] at hf
    refine ⟨hsame, hs.nonneg, traj, p.ctrl.person.getPersonPosition u.position u.angle, t, x, θ, y, q.firstStep, ?_, ?_, ?_⟩
    · by_cases hne : left.steps = [] ∧ right.steps = []
      · rw [if_pos hne]
        rw [if_neg (by simpa using hne)] at tp
        exact tp
      · rw [if_neg hne]
        rw [if_pos (decide_eq_true hne)] at tp
        exact tp
    · by_cases hne : left.steps = [] ∧ right.steps = []
      · rw [if_pos hne]
        rw [if_neg (by simpa using hne)] at ts
        exact ts
      · rw [if_neg hne]
        rw [if_pos (decide_eq_true hne)] at ts
        exact ts
    · rw [hc]
      change q.ctrl.person = _ at hf
      rw [hf, hc0]

/-- C120: a planning request with steps in the footprints stores one or two more desired points, with whatever controller, and
drops none. -/
theorem C120_stored (hi : OnlyFeeds integ) (hn : ¬ (left.steps = [] ∧ right.steps = []))
    (h : p.computeNewSteps integ fuel left right t0 t1 = .done true p' left' right') :
    p.ctrl.person.traj.length + 1 ≤ p'.ctrl.person.traj.length ∧
      p'.ctrl.person.traj.length ≤ p.ctrl.person.traj.length + 2 ∧ ∀ x ∈ p.ctrl.person.traj, x ∈ p'.ctrl.person.traj := by
  obtain ⟨-, -, traj, here, t, x, θ, y, together, tp, -, hc⟩ := person_after hi h
  rw [if_neg hn] at tp
  have hl := tp.length_eq
  have e : p'.ctrl.person.traj = traj := by rw [hc]
  rw [e]
  refine ⟨?_, ?_, fun z hz => tp.symm.subset (List.mem_append_left _ hz)⟩
  · rw [hl]; simp
  · rw [hl]; split <;> simp

/-- C120: unless the user clears the desired trajectory it grows forever: `n` plans store at least `n` points. -/
theorem C120_grows (hi : OnlyFeeds integ) {n : Nat} (h : PlansInARow integ p n p') :
    p.ctrl.person.traj.length + n ≤ p'.ctrl.person.traj.length := by
  induction h with
  | none => exact le_rfl
  | next _ _ _ hn h ih => have := (C120_stored hi hn h).1; omega

end

variable {p p' p'' : Planner ℝ} {integ : Integrator ℝ} {fuel fuel' : Nat} {durations : ℝ → ℝ → List ℝ} {garbage : ℝ}
variable {left right left' right' left'' right'' : FootPrint ℝ} {t0 t1 t0' t1' T : ℝ} {target : Vec2 ℝ}

theorem limits_same (h : SameConfig p p') : speedLimit p' = speedLimit p ∧ turnLimit p' = turnLimit p := by
  unfold SameConfig at h
  rw [h]
  exact ⟨rfl, rfl⟩

/-- C120: a plan does not spoil the request to meet a person: the planner still goes to the same place by the same time in any plan
that follows, as long as it begins early enough. -/
theorem C120_pursued (hi : OnlyFeeds integ) (hg : GoesTo p target T t0)
    (h : p.computeNewSteps integ fuel left right t0 t1 = .done true p' left' right')
    (h1 : t0' < T) (h2 : t0' + p.nominalTime - p.minTime < T) : GoesTo p' target T t0' := by
  obtain ⟨hsame, -, traj, here, t, x, θ, y, together, tp, ts, hc⟩ := person_after hi h
  obtain ⟨l1, l2⟩ := limits_same hsame
  have e1 : p'.controller = p.controller ∧ p'.nominalTime = p.nominalTime ∧ p'.minTime = p.minTime := by
    unfold SameConfig at hsame; rw [hsame]; exact ⟨rfl, rfl, rfl⟩
  have hmem : ∀ z ∈ traj, z ∈ p.ctrl.person.traj ∨ z.initTime < T := by
    intro z hz
    rcases List.mem_append.mp (tp.subset hz) with hz | hz
    · exact .inl hz
    · have g1 := hg.later
      have g2 := hg.afterHold
      refine .inr ?_
      split_ifs at hz
      · cases hz
      · simp only [List.mem_cons, List.not_mem_nil, or_false] at hz
        rcases hz with rfl | rfl
        · exact g1
        · exact g2
      · simp only [List.mem_singleton] at hz
        subst hz
        exact g1
  constructor
  · rw [e1.1]; exact hg.controller
  · rw [hc]; exact hg.ahead
  · rw [hc]; exact hg.straight
  · rw [hc]; exact hg.gain
  · rw [l1]; exact hg.linear
  · rw [l2]; exact hg.angular
  · rw [hc]; exact hg.turn
  · rw [hc]; exact hg.back
  · have := hg.free
    rw [hc]
    exact this
  · rw [hc]
    show InTimeOrder traj
    split_ifs at ts
    · rw [ts]; exact hg.ordered
    · exact ts
  · obtain ⟨z, hz, hT⟩ := hg.wanted
    rw [hc]
    exact ⟨z, tp.symm.subset (List.mem_append_left _ hz), hT⟩
  · intro z hz hT
    rw [hc] at hz
    rcases hmem z hz with hz | hz
    · exact hg.fixed z hz hT
    · exact absurd hT (not_le.mpr hz)
  · exact h1
  · rw [e1.2.1, e1.2.2]; exact h2

/-- C120: once the time to meet the person is over, a plan that begins later knows only of the past, even though the plan before was
still on its way. -/
theorem C120_past (hi : OnlyFeeds integ) (hg : GoesTo p target T t0) (hside : 0 ≤ p.ctrl.person.base.sideFactor)
    (hlast : ∀ x ∈ p.ctrl.person.traj, x.initTime ≤ T)
    (h : p.computeNewSteps integ fuel left right t0 t1 = .done true p' left' right') (h1 : T < t0') : OnlyPast p' t0' := by
  obtain ⟨hsame, -, traj, here, t, x, θ, y, together, tp, ts, hc⟩ := person_after hi h
  obtain ⟨l1, l2⟩ := limits_same hsame
  have e1 : p'.controller = p.controller := by
    unfold SameConfig at hsame; rw [hsame]
  constructor
  · rw [e1]; exact hg.controller
  · rw [l1]; exact hg.linear.le
  · rw [l2]; exact hg.angular.le
  · rw [hc]; exact hg.turn
  · rw [hc]; exact hg.back.le
  · rw [hc]; exact hside
  · intro z hz
    rw [hc] at hz
    change z ∈ traj at hz
    rcases List.mem_append.mp (tp.subset hz) with hz | hz
    · exact (hlast z hz).trans_lt h1
    · have g1 := hg.later
      have g2 := hg.afterHold
      split_ifs at hz
      · cases hz
      · simp only [List.mem_cons, List.not_mem_nil, or_false] at hz
        rcases hz with rfl | rfl
        · exact g1.trans h1
        · exact g2.trans h1
      · simp only [List.mem_singleton] at hz
        subst hz
        exact g1.trans h1

/-- C120: so the robot stops at the first plan that begins after the time at which the person was to be met, wherever it is: the
unicycle does not move any more, and at most one foot is brought beside the other. -/
theorem C120_abandoned (hp : Timed p) (hf : OnlyFeeds integ) (hg : GoesTo p target T t0)
    (hside : 0 ≤ p.ctrl.person.base.sideFactor) (hlast : ∀ x ∈ p.ctrl.person.traj, x.initTime ≤ T)
    (hm : 0 < p.minLength) (ha : 0 < p.minAngle) (hs : FixedStep durations) (hh : 0 < p.integratorStep)
    (hi : ∀ q u a b, q.controller = .personFollowing → (∃ f, (euler durations garbage q u a b).2 = some f) →
      integ q u a b = euler durations garbage q u a b)
    (hopen : p.ctrl.person.inner.isSet = false ∧ p.ctrl.person.outer.isSet = false)
    (h : p.computeNewSteps integ fuel left right t0 t1 = .done true p' left' right')
    {l r : FootPrint ℝ} (hL : NonNeg l) (hR : NonNeg r) (hn : ¬ (l.steps = [] ∧ r.steps = [])) (h1 : T < t0')
    (h' : p'.computeNewSteps integ fuel' l r t0' t1' = .done true p'' left'' right'') :
    ∃ d u, PlanOf p' integ l r t0' t1' left'' right'' d ∧
      InitialState p' (leftFoot p' l) (rightFoot p' r) t0' l.steps.getLast? r.steps.getLast? u ∧
      (∀ τ, t0' ≤ τ → τ ≤ t1' → d.sol τ = u) ∧ d.log.length ≤ 1 := by
  obtain ⟨hsame, -, traj, here, t, x, θ, y, together, tp, ts, hc⟩ := person_after hf h
  have hpast := C120_past hf hg hside hlast h h1
  have e : Timed p' ∧ 0 < p'.minLength ∧ 0 < p'.minAngle ∧ 0 < p'.integratorStep := by
    unfold SameConfig at hsame
    rw [hsame]
    exact ⟨⟨hp.1, hp.2, hp.3⟩, hm, ha, hh⟩
  obtain ⟨d, u, a1, a2, a3, a4, -, -⟩ := C118_forgotten e.1 hL hR hpast hn e.2.1 e.2.2.1
    (fun u _ => .inl (by rw [hc]; exact hopen)) hs e.2.2.2 hi h'
  exact ⟨d, u, a1, a2, a3, a4⟩

/-! ## Examples -/

theorem drivenInteg_feeds : OnlyFeeds drivenInteg := fun q _ _ _ =>
  ⟨q.ctrl.person.time, q.ctrl.person.unicyclePosition, q.ctrl.person.theta, q.ctrl.person.y, rfl⟩

private theorem demo_replans {traj : List (TrajPoint ℝ)} {q : Planner ℝ} (hq : SameConfig (personDemo traj) q) {a : ℝ} (h0 : 0 ≤ a)
    (h1 : a < 20) : ∃ fuel p' l' r', q.computeNewSteps drivenInteg fuel ⟨[⟨⟨0, 7 / 100⟩, 0, 0, "left"⟩], "left"⟩
      ⟨[⟨⟨0, -7 / 100⟩, 0, 0, "right"⟩], "right"⟩ a 20 = .done true p' l' r' := by
  unfold SameConfig at hq
  have h : ¬ Refused q drivenInteg ⟨[⟨⟨0, 7 / 100⟩, 0, 0, "left"⟩], "left"⟩ ⟨[⟨⟨0, -7 / 100⟩, 0, 0, "right"⟩], "right"⟩ a 20 := by
    have hpi := Real.pi_pos
    have hlim := limits_same (p := personDemo traj) (p' := q) hq
    have hctrl : q.controller = .personFollowing := by rw [hq]; rfl
    rintro (h | h | h | h | h | ⟨s, h, h'⟩ | h | ⟨h, -⟩ | ⟨q', u, h⟩)
    · apply h
      rw [hq]
      refine ⟨?_, ?_, ?_⟩ <;> simp only [personDemo, realDemo, Planner.new, deg2rad, pi_real]
      · norm_num
      · norm_num
      · linarith
    · refine h ⟨?_, ?_, fun h => by rw [hctrl] at h; cases h⟩
      · rw [hlim.1]; exact (personDemo_speed _).1.le
      · rw [hlim.2]; exact (personDemo_turn _).le
    · rw [hq] at h
      simp only [personDemo, realDemo, Planner.new, deg2rad, pi_real] at h
      rcases h with h | h
      · norm_num at h
      · linarith
    · linarith
    · linarith
    · simp only [List.getLast?_singleton, Option.some.injEq] at h
      rcases h with h | h <;> (rw [← h] at h'; exact absurd h' (not_lt.mpr h0))
    · rw [hq] at h
      simp only [personDemo, realDemo, Planner.new] at h
      linarith
    · cases h
    · cases h
  exact ⟨_, C58_valid_requests_succeed (by rw [hq]; simp [personDemo, realDemo, Planner.new])
    (by rw [hq]; simp [personDemo, realDemo, Planner.new]) h (by simp) (by intro w _ h; cases h) (Nat.lt_succ_self _)⟩

/-- C120, witness: the default planner following a person (or any other number of desired points to begin with) can be asked for any
number of plans, and then stores at least that many points. -/
theorem C120_unbounded (traj : List (TrajPoint ℝ)) (n : Nat) :
    ∃ q, PlansInARow drivenInteg (personDemo traj) n q ∧ n ≤ q.ctrl.person.traj.length := by
  have key : ∃ q, PlansInARow drivenInteg (personDemo traj) n q ∧ SameConfig (personDemo traj) q := by
    induction n with
    | zero => exact ⟨_, .none _, SameConfig.refl _⟩
    | succ n ih =>
      obtain ⟨q, h1, h2⟩ := ih
      obtain ⟨fuel, p', l', r', h⟩ := demo_replans h2 (a := 0) le_rfl (by norm_num)
      refine ⟨p', .next h1 (nonneg_one rfl) (nonneg_one rfl) (by simp) h, SameConfig.trans h2 ?_⟩
      exact computeNewSteps_keep _ _ _ _ _ _ _ p' (by rw [h]; rfl)
  obtain ⟨q, h1, -⟩ := key
  exact ⟨q, h1, (Nat.le_add_left _ _).trans (C120_grows drivenInteg_feeds h1)⟩

/-- Non-vacuity of C120: the default planner, the person at `(1, 0)` from the time 1.1 on: after a plan at time 0, a plan at 0.05 still
goes to the person, and one at time 2 does not move the unicycle. -/
example : ∃ p' d u l r, GoesTo p' ⟨1, 0⟩ (11 / 10) (1 / 20) ∧ PlanOf p' drivenInteg
      ⟨[⟨⟨0, 7 / 100⟩, 0, 0, "left"⟩], "left"⟩ ⟨[⟨⟨0, -7 / 100⟩, 0, 0, "right"⟩], "right"⟩ 2 20 l r d ∧
      ∀ τ, 2 ≤ τ → τ ≤ 20 → d.sol τ = u := by
  obtain ⟨fuel, p', l', r', h⟩ := personDemo_plans [⟨0, 0, 0⟩, ⟨11 / 10, ⟨1, 0⟩, 0⟩] (t0 := 0) le_rfl (by norm_num)
  obtain ⟨fuel', p'', l, r, h'⟩ := demo_replans (traj := [⟨0, 0, 0⟩, ⟨11 / 10, ⟨1, 0⟩, 0⟩]) (q := p') (a := 2)
    (computeNewSteps_keep _ _ _ _ _ _ _ p' (by rw [h]; rfl)) (by norm_num) (by norm_num)
  have hpi := Real.pi_pos
  obtain ⟨d, u, a1, -, a3, -⟩ := C120_abandoned (personDemo_timed _) drivenInteg_feeds personDemo_goes
    (by simp [personDemo, realDemo, Planner.new, PersonCtrl.new, BaseCtrl.new])
    (by
      intro x hx
      simp only [personDemo, List.mem_cons, List.not_mem_nil, or_false] at hx
      rcases hx with rfl | rfl <;> norm_num)
    (by simp [personDemo, realDemo, Planner.new]) (by simp only [personDemo, realDemo, Planner.new, deg2rad, pi_real]; positivity)
    uniformSteps_fixed (by simp [personDemo, realDemo, Planner.new]) (fun q u a b _ h => drivenInteg_person q u a b h) ⟨rfl, rfl⟩ h
    (nonneg_one rfl) (nonneg_one rfl) (by simp) (by norm_num) h'
  refine ⟨p', d, u, l, r, C120_pursued drivenInteg_feeds personDemo_goes h (by norm_num) ?_, a1, a3⟩
  simp only [personDemo, realDemo, Planner.new]
  norm_num

end Planner
end Uni
