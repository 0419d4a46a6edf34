import Verif.Spec.RoundedPlan
import Verif.Spec.Rounded
import Mathlib.Tactic.Linarith
import Mathlib.Tactic.Ring

/-! # The loop of the planner with rounded arithmetic -/

set_option autoImplicit false
set_option linter.unusedSectionVars false

namespace Uni.RoundedPlan
open Spec
variable {K : Type} [Field K] [LinearOrder K] {fl : K → K} {p : Planner K} {g : Geometry K}

theorem sampleTime_succ (n : Nat) : sampleTime fl p (n + 1) = nextTime fl p (sampleTime fl p n) := rfl

/-- Loop state: the present time is sample number `k`, the optimum (if any) is a sample not before number `b`. -/
structure At (fl : K → K) (p : Planner K) (b k : Nat) (s : Loop K) : Prop where
  le : b ≤ k
  now : s.t = sampleTime fl p k
  opt : 0 < s.tOptim → ∃ j, b ≤ j ∧ j ≤ k ∧ s.tOptim = sampleTime fl p j

theorem refresh_ok {s s' : Loop K} (h : refresh fl p s = (true, s')) :
    ∃ prev, s.stance.getLastStep = some prev ∧ s' = advance fl p { s with prevStep := prev } := by
  unfold refresh at h
  cases hl : s.stance.getLastStep with
  | none => rw [hl] at h; cases h
  | some prev => rw [hl] at h; cases h; exact ⟨prev, rfl, rfl⟩

/-- What one iteration does. -/
inductive Iter (fl : K → K) (p : Planner K) (g : Geometry K) (s s' : Loop K) : Prop
  /-- no landing, no new optimum -/
  | stay (pause : K) (prev : Step K) (ht : s'.t = nextTime fl p s.t) (ho : s'.tOptim = s.tOptim)
      (hs : s' = { s with t := nextTime fl p s.t, pauseTime := pause, prevStep := prev })
      (hp : prev = s.prevStep ∨ s.stance.getLastStep = some prev)
  /-- a new optimum -/
  | note (cost : K) (hm : p.minTime ≤ fl (s.t - s.prevStep.impactTime))
      (hs : s' = { s with t := nextTime fl p s.t, tOptim := s.t, minCost := cost })
  /-- a landing at the optimum -/
  | land (f : Foot K) (prev : Step K) (ho : 0 < s.tOptim) (hf : g.land s s.tOptim = (true, f)) (hp : f.getLastStep = some prev)
      (hs : s' = { s.setSwing f with
        t := nextTime fl p s.tOptim, pauseTime := 0, tOptim := -1, firstStep := false, timeOffset := 0,
        swingLeft := !s.swingLeft, prevStep := prev })
  /-- a landing beside the other foot, now -/
  | parallel (f : Foot K) (prev : Step K) (ho : ¬ 0 < s.tOptim) (hm : p.minTime ≤ fl (s.t - s.prevStep.impactTime))
      (hf : g.parallel s s.t = (true, f)) (hp : f.getLastStep = some prev)
      (hs : s' = { s.setSwing f with
        t := nextTime fl p s.t, pauseTime := 0, firstStep := false, timeOffset := 0,
        swingLeft := !s.swingLeft, prevStep := prev })

theorem stance_after (s : Loop K) (f : Foot K) (t a b o : K) (c : Bool) :
    Loop.stance { s.setSwing f with
      t := t, pauseTime := a, tOptim := b, firstStep := c, timeOffset := o, swingLeft := !s.swingLeft } = f := by
  unfold Loop.stance Loop.setSwing
  cases h : s.swingLeft <;> simp

theorem body_iter {s s' : Loop K} (h : body fl p g s = (true, s')) : Iter fl p g s s' := by
  unfold body at h
  simp only at h
  by_cases h1 : p.minTime ≤ fl (s.t - s.prevStep.impactTime) ∧ fl (p.initTime + s.timeOffset) < s.t
  · rw [if_pos h1] at h
    by_cases h2 : g.tiny s = true
    · rw [if_pos h2] at h
      cases h
      exact .stay _ s.prevStep rfl rfl rfl (Or.inl rfl)
    · rw [if_neg h2] at h
      by_cases h3 : p.maxTime < fl (fl (s.t - s.prevStep.impactTime) - s.pauseTime) ∨ s.t = p.endTime
      · rw [if_pos h3] at h
        by_cases h4 : 0 < s.tOptim
        · rw [if_pos h4] at h
          cases hl : g.land s s.tOptim with
          | mk b f =>
            cases b with
            | false => rw [hl] at h; cases h
            | true =>
              rw [hl] at h
              simp only at h
              obtain ⟨prev, e1, e2⟩ := refresh_ok h
              rw [stance_after] at e1
              exact .land f prev h4 hl e1 e2
        · rw [if_neg h4] at h
          cases hb : g.tinyBack s with
          | none => rw [hb] at h; cases h
          | some b =>
            cases b with
            | true =>
              rw [hb] at h
              simp only at h
              obtain ⟨prev, e1, e2⟩ := refresh_ok h
              subst e2
              exact .stay _ prev rfl rfl rfl (Or.inr e1)
            | false =>
              rw [hb] at h
              simp only at h
              cases hl : g.parallel s s.t with
              | mk b f =>
                cases b with
                | false => rw [hl] at h; cases h
                | true =>
                  rw [hl] at h
                  simp only at h
                  obtain ⟨prev, e1, e2⟩ := refresh_ok h
                  refine .parallel f prev h4 h1.1 hl ?_ ?_
                  · rw [← e1]
                    congr 1
                    unfold Loop.stance Loop.setSwing
                    cases hs : s.swingLeft <;> simp
                  · rw [e2]
                    unfold advance Loop.setSwing
                    cases hs : s.swingLeft <;> simp
      · rw [if_neg h3] at h
        cases hw : g.weigh s (fl (fl (s.t - s.prevStep.impactTime) - s.pauseTime)) with
        | none => rw [hw] at h; cases h
        | some c =>
          rw [hw] at h
          cases c with
          | none =>
            cases h
            exact .stay s.pauseTime s.prevStep rfl rfl rfl (Or.inl rfl)
          | some cost =>
            simp only at h
            split_ifs at h
            · cases h
              exact .note cost h1.1 rfl
            · cases h
              exact .stay s.pauseTime s.prevStep rfl rfl rfl (Or.inl rfl)
  · rw [if_neg h1] at h
    cases h
    exact .stay s.pauseTime s.prevStep rfl rfl rfl (Or.inl rfl)

/-- Where an iteration leads. -/
theorem Iter.at [IsStrictOrderedRing K] {s s' : Loop K} (h : Iter fl p g s s') {b k : Nat} (ha : At fl p b k s) :
    At fl p b (k + 1) s' ∨ ∃ j, b ≤ j ∧ j ≤ k ∧ At fl p (j + 1) (j + 1) s' := by
  cases h with
  | stay pause prev ht ho hs hp =>
    left
    refine ⟨Nat.le_succ_of_le ha.le, by rw [ht, ha.now, sampleTime_succ], fun h0 => ?_⟩
    rw [ho] at h0 ⊢
    obtain ⟨j, h1, h2, h3⟩ := ha.opt h0
    exact ⟨j, h1, Nat.le_succ_of_le h2, h3⟩
  | note cost hm hs =>
    left
    subst hs
    exact ⟨Nat.le_succ_of_le ha.le, by simp only; rw [ha.now, sampleTime_succ], fun _ => ⟨k, ha.le, Nat.le_succ k, ha.now⟩⟩
  | land f prev ho hf hp hs =>
    right
    obtain ⟨j, h1, h2, h3⟩ := ha.opt ho
    refine ⟨j, h1, h2, ?_⟩
    subst hs
    refine ⟨le_rfl, by simp only; rw [h3, sampleTime_succ], fun h0 => ?_⟩
    simp only at h0
    linarith
  | parallel f prev ho hm hf hp hs =>
    left
    subst hs
    refine ⟨Nat.le_succ_of_le ha.le, by simp only; rw [ha.now, sampleTime_succ], fun h0 => ?_⟩
    have : ¬ 0 < s.tOptim := ho
    exfalso
    apply this
    revert h0
    unfold Loop.setSwing
    cases s.swingLeft <;> simp

theorem loop_ends [IsStrictOrderedRing K] {N : Nat} (hN : p.endTime < sampleTime fl p N) :
    ∀ (m : Nat) (b k : Nat) (s : Loop K), At fl p b k s → k ≤ N → (N - b) * (N + 2) + (N - k) < m →
      loop fl p g m s ≠ .outOfFuel
  | 0, _, _, _, _, _, hm => absurd hm (Nat.not_lt_zero _)
  | m + 1, b, k, s, ha, hk, hm => by
    unfold loop
    by_cases h1 : s.t ≤ p.endTime
    · rw [if_pos h1]
      have hkN : k < N := by
        rcases Nat.lt_or_ge k N with h | h
        · exact h
        · have : k = N := le_antisymm hk h
          subst this
          rw [ha.now] at h1
          exact absurd hN (not_lt.mpr h1)
      cases hb : body fl p g s with
      | mk b' s' =>
        cases b' with
        | false => simp
        | true =>
          simp only
          rcases (body_iter hb).at ha with h | ⟨j, j1, j2, h⟩
          · refine loop_ends hN m b (k + 1) s' h hkN ?_
            omega
          · refine loop_ends hN m (j + 1) (j + 1) s' h (by omega) ?_
            obtain ⟨d, hd⟩ : ∃ d, N - b = N - (j + 1) + 1 + d := ⟨j - b, by omega⟩
            have : (N - b) * (N + 2) = (N - (j + 1)) * (N + 2) + (N + 2) + d * (N + 2) := by rw [hd]; ring
            have h0 : 0 ≤ d * (N + 2) := Nat.zero_le _
            omega
    · rw [if_neg h1]; simp

theorem loop_never [IsStrictOrderedRing K] (hN : ∀ n, sampleTime fl p n ≤ p.endTime) :
    ∀ (m : Nat) (b k : Nat) (s : Loop K), At fl p b k s →
      loop fl p g m s = .outOfFuel ∨ ∃ s', loop fl p g m s = .failed s'
  | 0, _, _, _, _ => Or.inl rfl
  | m + 1, b, k, s, ha => by
    unfold loop
    rw [if_pos (by rw [ha.now]; exact hN k)]
    cases hb : body fl p g s with
    | mk b' s' =>
      cases b' with
      | false => exact Or.inr ⟨s', rfl⟩
      | true =>
        simp only
        rcases (body_iter hb).at ha with h | ⟨j, -, -, h⟩
        · exact loop_never hN m b (k + 1) s' h
        · exact loop_never hN m (j + 1) (j + 1) s' h

theorem initial_at [IsStrictOrderedRing K] (left right : Foot K) (prev : Step K) : At fl p 0 0 (initialLoop fl p left right prev) :=
  ⟨le_rfl, rfl, fun h => by
    have : (0 : K) < -1 := h
    linarith⟩

/-! ## Without rounding -/

theorem body_exact [Trig K] (sol : K → UState K) (s : Loop K) : body id p (exact p sol) s = p.body sol s := by
  have ha : ∀ s : Loop K, advance id p s = p.advance s := fun _ => rfl
  have hr : ∀ s : Loop K, refresh id p s = p.refresh s := fun _ => rfl
  unfold body Planner.body
  simp only [id, ha, hr, exact]
  by_cases h1 : p.minTime ≤ s.t - s.prevStep.impactTime ∧ p.initTime + s.timeOffset < s.t
  · rw [if_pos h1, if_pos h1]
    by_cases h2 : s.swing.isTinyStep (sol s.t) = true
    · rw [if_pos h2, if_pos h2]
    · rw [if_neg h2, if_neg h2]
      by_cases h3 : p.maxTime < s.t - s.prevStep.impactTime - s.pauseTime ∨ s.t = p.endTime
      · rw [if_pos h3, if_pos h3]
        by_cases h4 : 0 < s.tOptim
        · rw [if_pos h4, if_pos h4]
          rfl
        · rw [if_neg h4, if_neg h4]
          cases hu : s.stance.getUnicycleStateFromStep s.prevStep with
          | none => rfl
          | some u =>
            simp only [Option.map_some]
            cases ht : s.swing.isTinyStep u with
            | true => rfl
            | false => rfl
      · rw [if_neg h3, if_neg h3]
        cases hc : Planner.candidate s (sol s.t) (s.t - s.prevStep.impactTime - s.pauseTime) with
        | none => rfl
        | some d =>
          simp only [Option.map_some]
          by_cases h5 : p.problem.areConstraintsSatisfied d = true
          · rw [if_pos h5]
            simp only
            by_cases h6 : 0 < s.t - s.prevStep.impactTime - s.pauseTime
            · rw [if_pos (show _ ∧ p.problem.areConstraintsSatisfied d = true from ⟨h6, h5⟩)]
              by_cases h7 : s.tOptim < 0 ∨ p.problem.cost d ≤ s.minCost
              · rw [if_pos ⟨h6, h7⟩, if_pos h7]
              · rw [if_neg (fun h => h7 h.2), if_neg h7]
            · rw [if_neg (fun h => h6 h.1), if_neg (fun h => h6 h.1)]
          · rw [if_neg h5, if_neg (fun h => h5 h.2)]
  · rw [if_neg h1, if_neg h1]

theorem loop_exact [Trig K] (sol : K → UState K) : ∀ (n : Nat) (s : Loop K), loop id p (exact p sol) n s = p.loop sol n s
  | 0, _ => rfl
  | n + 1, s => by
    unfold loop Planner.loop
    rw [body_exact]
    by_cases h : s.t ≤ p.endTime
    · rw [if_pos h, if_pos h]
      cases hb : p.body sol s with
      | mk b s' =>
        cases b with
        | false => rfl
        | true => exact loop_exact sol n s'
    · rw [if_neg h, if_neg h]

/-! ## Landings -/

/-- Side of the next landing and time of the last one. -/
def after : Bool → K → List (Bool × K) → Bool × K
  | b, t, [] => (b, t)
  | b, _, (_, t) :: l => after (!b) t l

theorem landings_snoc {b0 : Bool} {b : Bool} {t : K} : ∀ (l : List (Bool × K)) (left : Bool) (prev : K), Landings fl p left prev l →
    b = (after left prev l).1 → p.minTime ≤ fl (t - (after left prev l).2) → (∃ k, t = sampleTime fl p k) → t ≤ p.endTime →
    Landings fl p left prev (l ++ [(b, t)]) ∧ after left prev (l ++ [(b, t)]) = (!b, t)
  | [], left, prev, _, hb, hm, hk, ht => by
    simp only [after] at hb hm
    subst hb
    exact ⟨⟨rfl, hm, hk, ht, trivial⟩, rfl⟩
  | (b', t') :: l, left, prev, hl, hb, hm, hk, ht => by
    obtain ⟨h1, h2, h3, h4, h5⟩ := hl
    obtain ⟨e1, e2⟩ := landings_snoc (b0 := b0) l (!left) t' h5 hb hm hk ht
    exact ⟨⟨h1, h2, h3, h4, e1⟩, e2⟩

/-- The landings made so far. -/
structure Made (fl : K → K) (p : Planner K) (left right : Foot K) (prev : Step K) (s : Loop K) (log : List (Bool × K)) : Prop where
  ok : Landings fl p p.swingLeft prev.impactTime log
  side : s.swingLeft = (after p.swingLeft prev.impactTime log).1
  time : s.prevStep.impactTime = (after p.swingLeft prev.impactTime log).2
  stands : s.stance.getLastStep = some s.prevStep
  lefts : impacts s.left = impacts left ++ (log.filter (·.1)).map (·.2)
  rights : impacts s.right = impacts right ++ (log.filter (!·.1)).map (·.2)
  opt : 0 < s.tOptim → p.minTime ≤ fl (s.tOptim - s.prevStep.impactTime) ∧ s.tOptim ≤ p.endTime

theorem added_last {f f' : Foot K} {t : K} {prev : Step K} (h : AddedAt f f' t) (hp : f'.getLastStep = some prev) :
    prev.impactTime = t ∧ impacts f' = impacts f ++ [t] := by
  obtain ⟨s, h1, h2⟩ := h
  have : f'.fp.steps.getLast? = some prev := hp
  rw [h1, List.getLast?_concat] at this
  cases this
  refine ⟨h2, ?_⟩
  unfold impacts
  rw [h1, List.map_append, ← h2]
  rfl

theorem Made.landed {left right : Foot K} {prev0 : Step K} {s s' : Loop K} {log : List (Bool × K)}
    (hm : Made fl p left right prev0 s log) {f : Foot K} {prev : Step K} {t : K} (hf : AddedAt s.swing f t)
    (hp : f.getLastStep = some prev) (h1 : p.minTime ≤ fl (t - s.prevStep.impactTime)) (h2 : ∃ k, t = sampleTime fl p k)
    (h3 : t ≤ p.endTime) (hprev : s'.prevStep = prev) (hside : s'.swingLeft = !s.swingLeft)
    (hleft : s'.left = if s.swingLeft then f else s.left) (hright : s'.right = if s.swingLeft then s.right else f)
    (hopt : ¬ 0 < s'.tOptim) :
    Made fl p left right prev0 s' (log ++ [(s.swingLeft, t)]) := by
  obtain ⟨e1, e2⟩ := added_last hf hp
  obtain ⟨l1, l2⟩ := landings_snoc (b0 := true) (b := s.swingLeft) (t := t) log p.swingLeft prev0.impactTime hm.ok hm.side
    (by rw [← hm.time]; exact h1) h2 h3
  refine ⟨l1, by rw [l2, hside], by rw [l2, hprev, e1], ?_, ?_, ?_, fun h => absurd h hopt⟩
  · unfold Loop.stance
    rw [hside, hleft, hright, hprev]
    cases s.swingLeft <;> simpa using hp
  · rw [hleft, List.filter_append, List.map_append, ← List.append_assoc, ← hm.lefts]
    cases hs : s.swingLeft with
    | true =>
      have : s.swing = s.left := by unfold Loop.swing; rw [hs]; rfl
      rw [this] at e2
      simpa using e2
    | false => simp
  · rw [hright, List.filter_append, List.map_append, ← List.append_assoc, ← hm.rights]
    cases hs : s.swingLeft with
    | false =>
      have : s.swing = s.right := by unfold Loop.swing; rw [hs]; rfl
      rw [this] at e2
      simpa using e2
    | true => simp

theorem Iter.made [IsStrictOrderedRing K] (hg : Faithful g) {left right : Foot K} {prev0 : Step K} {s s' : Loop K}
    {log : List (Bool × K)} (h : Iter fl p g s s') {b k : Nat} (ha : At fl p b k s) (ht : s.t ≤ p.endTime)
    (hm : Made fl p left right prev0 s log) : ∃ log', Made fl p left right prev0 s' log' := by
  cases h with
  | stay pause prev _ _ hs hp =>
    have : prev = s.prevStep := by
      rcases hp with h | h
      · exact h
      · rw [hm.stands] at h; cases h; rfl
    subst this
    subst hs
    exact ⟨log, hm.ok, hm.side, hm.time, hm.stands, hm.lefts, hm.rights, hm.opt⟩
  | note cost h1 hs =>
    subst hs
    exact ⟨log, hm.ok, hm.side, hm.time, hm.stands, hm.lefts, hm.rights, fun _ => ⟨h1, ht⟩⟩
  | land f prev ho hf hp hs =>
    obtain ⟨j, -, -, hj⟩ := ha.opt ho
    refine ⟨_, hm.landed (hg.1 _ _ _ hf) hp (hm.opt ho).1 ⟨j, hj⟩ (hm.opt ho).2 (by subst hs; rfl) (by subst hs; rfl) ?_ ?_ ?_⟩
    · subst hs; unfold Loop.setSwing; cases s.swingLeft <;> rfl
    · subst hs; unfold Loop.setSwing; cases s.swingLeft <;> rfl
    · subst hs
      simp only
      intro h
      linarith
  | parallel f prev ho h1 hf hp hs =>
    refine ⟨_, hm.landed (hg.2 _ _ _ hf) hp h1 ⟨k, ha.now⟩ ht (by subst hs; rfl) (by subst hs; rfl) ?_ ?_ ?_⟩
    · subst hs; unfold Loop.setSwing; cases s.swingLeft <;> rfl
    · subst hs; unfold Loop.setSwing; cases s.swingLeft <;> rfl
    · subst hs; unfold Loop.setSwing; cases s.swingLeft <;> exact ho

theorem loop_made [IsStrictOrderedRing K] (hg : Faithful g) {left right : Foot K} {prev0 : Step K} :
    ∀ (m b k : Nat) (s e : Loop K) (log : List (Bool × K)), At fl p b k s → Made fl p left right prev0 s log →
      loop fl p g m s = .exit e → ∃ log', Made fl p left right prev0 e log'
  | 0, _, _, _, _, _, _, _, h => by cases h
  | m + 1, b, k, s, e, log, ha, hm, h => by
    unfold loop at h
    by_cases h1 : s.t ≤ p.endTime
    · rw [if_pos h1] at h
      cases hb : body fl p g s with
      | mk b' s' =>
        rw [hb] at h
        cases b' with
        | false => cases h
        | true =>
          simp only at h
          have hi := body_iter hb
          obtain ⟨log', hm'⟩ := hi.made hg ha h1 hm
          rcases hi.at ha with h2 | ⟨j, -, -, h2⟩
          · exact loop_made hg m _ _ s' e log' h2 hm' h
          · exact loop_made hg m _ _ s' e log' h2 hm' h
    · rw [if_neg h1] at h
      cases h
      exact ⟨log, hm⟩

theorem initial_made [IsStrictOrderedRing K] {left right : Foot K} {prev : Step K}
    (h : (if p.swingLeft then right else left).getLastStep = some prev) :
    Made fl p left right prev (initialLoop fl p left right prev) [] := by
  refine ⟨trivial, rfl, rfl, ?_, by simp [initialLoop], by simp [initialLoop], fun h => ?_⟩
  · exact h
  · have : (0 : K) < -1 := h
    linarith

end Uni.RoundedPlan
