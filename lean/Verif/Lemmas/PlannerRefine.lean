import Verif.Lemmas.PlannerRun
import Verif.Spec.PlanRun

/-! # Helper lemmas: the main loop of the planner refines the chain of searches -/

set_option autoImplicit false
set_option linter.unusedSectionVars false

namespace Uni.Planner
open Spec
variable {K : Type*} [Field K] [LinearOrder K] [Trig K]

theorem tinyFor_eq {f F : Foot K} (h : f.SameCfg F) (u : UState K) :
    f.isTinyStep u = tinyFor F f.getLastStep u := by
  unfold Foot.isTinyStep tinyFor Foot.footPosition Foot.unicycleAngle
  rw [h.distance, h.yaw, h.minStep, h.minAngle]
  cases f.getLastStep <;> rfl

theorem dataOf_eq (L R : Foot K) (left : Bool) (prev : Step K) (u : UState K) (d : K) :
    stepData L R left prev u d = dataOf L R left prev u d := by
  cases left <;> rfl

/-- The loop state `s` is at sample `k` of the search started in situation `c`. -/
structure At (p : Planner K) (sol : K → UState K) (L R : Foot K) (c : Stance K) (k : Nat) (s : Loop K) : Prop
    extends Ok p s where
  leftCfg : s.left.SameCfg L
  rightCfg : s.right.SameCfg R
  t : s.t = (searchFrom p sol L R c).time k
  pause : s.pauseTime = (searchFrom p sol L R c).pause k
  prevStep : s.prevStep = c.prev
  swingLeft : s.swingLeft = c.left
  offset : s.timeOffset = c.offset
  last : s.swing.getLastStep = c.last
  reaches : (searchFrom p sol L R c).Reaches k
  best : (s.tOptim = -1 ∧ ∀ j < k, ¬ (searchFrom p sol L R c).Candidate j) ∨
    ∃ m < k, (searchFrom p sol L R c).Candidate m ∧ s.tOptim = (searchFrom p sol L R c).time m ∧
      s.minCost = (searchFrom p sol L R c).cost m ((searchFrom p sol L R c).net m) ∧
      ∀ j < k, (searchFrom p sol L R c).Candidate j →
        (searchFrom p sol L R c).cost m ((searchFrom p sol L R c).net m) ≤
          (searchFrom p sol L R c).cost j ((searchFrom p sol L R c).net j) ∧
        ((searchFrom p sol L R c).cost j ((searchFrom p sol L R c).net j) =
          (searchFrom p sol L R c).cost m ((searchFrom p sol L R c).net m) → j ≤ m)

section
variable {p : Planner K} {sol : K → UState K} {L R : Foot K} {c : Stance K} {k : Nat} {s : Loop K}

theorem At.gate (h : At p sol L R c k s) : p.Gate s ↔ (searchFrom p sol L R c).Gate k := by
  unfold Planner.Gate Search.Gate
  rw [h.t, h.prevStep, h.offset]; rfl

theorem At.tiny (h : At p sol L R c k s) : s.swing.isTinyStep (sol s.t) = (searchFrom p sol L R c).tiny k := by
  have hc := swing_cfg h.leftCfg h.rightCfg
  rw [tinyFor_eq hc, h.last, h.swingLeft, h.t]; rfl

theorem At.closeTiny (h : At p sol L R c k s) :
    s.swing.isTinyStep (s.stance.stateOf s.prevStep) = (searchFrom p sol L R c).closeTiny := by
  have hc := swing_cfg h.leftCfg h.rightCfg
  rw [tinyFor_eq hc, h.last, stateOf_cfg (stance_cfg h.leftCfg h.rightCfg), h.swingLeft, h.prevStep]; rfl

theorem At.net (h : At p sol L R c k s) : Planner.net s = (searchFrom p sol L R c).net k := by
  unfold Planner.net Search.net
  rw [h.t, h.prevStep, h.pause]; rfl

theorem At.due (h : At p sol L R c k s) : p.Due s ↔
    ((searchFrom p sol L R c).maxTime < (searchFrom p sol L R c).net k ∨
      (searchFrom p sol L R c).time k = (searchFrom p sol L R c).endTime) := by
  unfold Planner.Due
  rw [h.net, h.t]; rfl

theorem At.data (h : At p sol L R c k s) (d : K) :
    Planner.data s (sol s.t) d = dataOf L R c.left c.prev (sol ((searchFrom p sol L R c).time k)) d := by
  rw [data_cfg h.leftCfg h.rightCfg, dataOf_eq, h.swingLeft, h.prevStep, h.t]

theorem At.feasible (h : At p sol L R c k s) : p.Feasible sol s ↔
    (0 < (searchFrom p sol L R c).net k ∧ (searchFrom p sol L R c).ok k ((searchFrom p sol L R c).net k)) := by
  unfold Planner.Feasible
  rw [h.net, h.data]; rfl

theorem At.cost (h : At p sol L R c k s) : p.problem.cost (Planner.data s (sol s.t) (Planner.net s)) =
    (searchFrom p sol L R c).cost k ((searchFrom p sol L R c).net k) := by
  rw [h.net, h.data]; rfl

/-- The next sample. -/
theorem searchFrom_time_succ (c : Stance K) (k : Nat) :
    (searchFrom p sol L R c).time (k + 1) = p.nextTime ((searchFrom p sol L R c).time k) :=
  Function.iterate_succ_apply' _ _ _

theorem At.reaches_succ (h : At p sol L R c k s) (hle : s.t ≤ p.endTime)
    (hd : (searchFrom p sol L R c).Due k → (∀ i < k, ¬ (searchFrom p sol L R c).Candidate i) ∧
      (searchFrom p sol L R c).closeTiny = true) : (searchFrom p sol L R c).Reaches (k + 1) := by
  intro j hj
  rcases Nat.lt_succ_iff_lt_or_eq.mp hj with hj | rfl
  · exact h.reaches j hj
  · exact ⟨h.t ▸ hle, hd⟩

/-- The best candidate is unchanged when the sample is not a candidate. -/
theorem At.best_succ (h : At p sol L R c k s) (hc : ¬ (searchFrom p sol L R c).Candidate k) :
    (s.tOptim = -1 ∧ ∀ j < k + 1, ¬ (searchFrom p sol L R c).Candidate j) ∨
    ∃ m < k + 1, (searchFrom p sol L R c).Candidate m ∧ s.tOptim = (searchFrom p sol L R c).time m ∧
      s.minCost = (searchFrom p sol L R c).cost m ((searchFrom p sol L R c).net m) ∧
      ∀ j < k + 1, (searchFrom p sol L R c).Candidate j →
        (searchFrom p sol L R c).cost m ((searchFrom p sol L R c).net m) ≤
          (searchFrom p sol L R c).cost j ((searchFrom p sol L R c).net j) ∧
        ((searchFrom p sol L R c).cost j ((searchFrom p sol L R c).net j) =
          (searchFrom p sol L R c).cost m ((searchFrom p sol L R c).net m) → j ≤ m) := by
  rcases h.best with ⟨h1, h2⟩ | ⟨m, hm, h1, h2, h3, h4⟩
  · refine .inl ⟨h1, fun j hj => ?_⟩
    rcases Nat.lt_succ_iff_lt_or_eq.mp hj with hj | rfl
    exacts [h2 j hj, hc]
  · refine .inr ⟨m, hm.trans (Nat.lt_succ_self k), h1, h2, h3, fun j hj hjc => ?_⟩
    rcases Nat.lt_succ_iff_lt_or_eq.mp hj with hj | rfl
    exacts [h4 j hj hjc, absurd hjc hc]

variable [IsStrictOrderedRing K]

/-- The state that starts a new search. -/
theorem At.landed (h : At p sol L R c k s) (h0 : 0 ≤ p.dT) {st : Step K} {t' o : K} (ht : 0 ≤ t') (ho : o = -1)
    (hst : st.impactTime = t') : At p sol L R (c.next p st) 0 (p.landed s st t' o) := by
  subst hst ho
  refine ⟨⟨?_, ?_, by simp, ht.trans (le_nextTime h0 _)⟩, ?_, ?_, rfl, rfl, rfl, ?_, rfl, ?_, ?_, .inl ⟨rfl, ?_⟩⟩
  · rw [landed_left]; split_ifs; exacts [h.left, h.left]
  · rw [landed_right]; split_ifs; exacts [h.right, h.right]
  · rw [landed_left]; split_ifs; exacts [h.leftCfg.push _, h.leftCfg]
  · rw [landed_right]; split_ifs; exacts [h.rightCfg, h.rightCfg.push _]
  · rw [landed_swingLeft, h.swingLeft]; rfl
  · rw [landed_swing, h.prev, h.prevStep]; rfl
  · intro j hj; simp at hj
  · intro j hj; simp at hj

theorem loop_run (hd : 0 ≤ p.dT) (h0 : 0 ≤ p.initTime) (fuel : Nat) :
    ∀ (s s' : Loop K) (c : Stance K) (k : Nat), At p sol L R c k s → 0 ≤ c.offset →
      p.loop sol fuel s = .exit s' → ∃ log c' k', Run p sol L R c log c' ∧ At p sol L R c' k' s' ∧
        s'.left.fp.steps = s.left.fp.steps ++ stepsOf true log ∧
        s'.right.fp.steps = s.right.fp.steps ++ stepsOf false log ∧
        (log = [] → s'.left = s.left ∧ s'.right = s.right) := by
  induction fuel with
  | zero => intro s s' c k _ _ h; simp [loop] at h
  | succ n ih =>
    intro s s' c k hat hoff h
    unfold loop at h
    by_cases hle : s.t ≤ p.endTime
    · rw [if_pos hle] at h
      obtain ⟨q, hq, htr⟩ := body_trans sol hat.toOk
      rw [hq] at h
      simp only at h
      have hnn : ∀ {x : K}, 0 ≤ x → 0 ≤ p.nextTime x := fun hx => hx.trans (le_nextTime hd _)
      -- samples without landing
      have quiet : ∀ (a : K) (o m : K), q = p.advance { s with pauseTime := a, tOptim := o, minCost := m } →
          a = (searchFrom p sol L R c).pause (k + 1) →
          ((searchFrom p sol L R c).Due k → (∀ i < k, ¬ (searchFrom p sol L R c).Candidate i) ∧
            (searchFrom p sol L R c).closeTiny = true) →
          ((o = -1 ∧ ∀ j < k + 1, ¬ (searchFrom p sol L R c).Candidate j) ∨
            ∃ i < k + 1, (searchFrom p sol L R c).Candidate i ∧ o = (searchFrom p sol L R c).time i ∧
              m = (searchFrom p sol L R c).cost i ((searchFrom p sol L R c).net i) ∧
              ∀ j < k + 1, (searchFrom p sol L R c).Candidate j →
                (searchFrom p sol L R c).cost i ((searchFrom p sol L R c).net i) ≤
                  (searchFrom p sol L R c).cost j ((searchFrom p sol L R c).net j) ∧
                ((searchFrom p sol L R c).cost j ((searchFrom p sol L R c).net j) =
                  (searchFrom p sol L R c).cost i ((searchFrom p sol L R c).net i) → j ≤ i)) →
          ∃ log c' k', Run p sol L R c log c' ∧ At p sol L R c' k' s' ∧
            s'.left.fp.steps = s.left.fp.steps ++ stepsOf true log ∧
            s'.right.fp.steps = s.right.fp.steps ++ stepsOf false log ∧
            (log = [] → s'.left = s.left ∧ s'.right = s.right) := by
        intro a o m hqe ha hdue hb
        subst hqe
        refine ih (p.advance { s with pauseTime := a, tOptim := o, minCost := m }) s' c (k + 1) ⟨⟨hat.left, hat.right, hat.prev, hnn hat.nonneg⟩, hat.leftCfg, hat.rightCfg, ?_, ha,
          hat.prevStep, hat.swingLeft, hat.offset, hat.last, hat.reaches_succ hle hdue, hb⟩ hoff h
        rw [searchFrom_time_succ, ← hat.t]; rfl
      have hg := hat.gate
      have htn := hat.tiny
      have hdu := hat.due
      have hfe := hat.feasible
      cases htr with
      | wait h1 =>
        have h1' := hg.not.mp h1
        refine quiet _ _ _ rfl ?_ (fun hh => absurd hh.1 h1') (hat.best_succ fun hh => h1' hh.1)
        simp only [Search.pause, if_neg h1', hat.pause]
      | tiny h1 h2 =>
        have h1' := hg.mp h1
        rw [htn] at h2
        refine quiet _ _ _ rfl ?_ (fun hh => absurd hh.2.1 (by rw [h2]; simp))
          (hat.best_succ fun hh => absurd hh.2.1 (by rw [h2]; simp))
        simp only [Search.pause, if_pos h1', h2, if_true, hat.pause]; rfl
      | timeout h1 h2 h3 h4 h5 =>
        have h1' := hg.mp h1
        rw [htn] at h2
        have h3' := hdu.mp h3
        rw [hat.closeTiny] at h5
        have hnc : ∀ j < k, ¬ (searchFrom p sol L R c).Candidate j := by
          rcases hat.best with hb | ⟨m, hm, hb1, hb2, -⟩
          · exact hb.2
          · refine absurd ?_ h4
            rw [hb2]
            refine lt_of_le_of_lt ?_ hb1.1.2
            exact add_nonneg h0 hoff
        refine quiet _ _ _ rfl ?_ (fun _ => ⟨hnc, h5⟩) (hat.best_succ fun hh => hh.2.2.1 h3')
        have h3'' := h3'
        unfold Search.net at h3''
        simp only [Search.pause, if_pos h1', h2, if_pos h3'']
        rw [hat.t, hat.prevStep]; rfl
      | infeasible h1 h2 h3 h4 =>
        have h1' := hg.mp h1
        rw [htn] at h2
        have h3' := hdu.not.mp h3
        refine quiet _ _ _ rfl ?_ (fun hh => absurd hh.2.2 h3') (hat.best_succ fun hh => h4 (hfe.mpr hh.2.2.2))
        have h3'' := h3'
        unfold Search.net at h3''
        simp only [Search.pause, if_pos h1', h2, if_neg h3'', hat.pause]; rfl
      | worse h1 h2 h3 h4 h5 =>
        have h1' := hg.mp h1
        rw [htn] at h2
        have h3' := hdu.not.mp h3
        rw [hat.cost] at h5
        push Not at h5
        refine quiet _ _ _ rfl ?_ (fun hh => absurd hh.2.2 h3') ?_
        · have h3'' := h3'
          unfold Search.net at h3''
          simp only [Search.pause, if_pos h1', h2, if_neg h3'', hat.pause]; rfl
        · rcases hat.best with ⟨hb1, -⟩ | ⟨m, hm, hb1, hb2, hb3, hb4⟩
          · rw [hb1] at h5; exact absurd h5.1 (by simp)
          · refine .inr ⟨m, hm.trans (Nat.lt_succ_self k), hb1, hb2, hb3, fun j hj hjc => ?_⟩
            rcases Nat.lt_succ_iff_lt_or_eq.mp hj with hj | rfl
            · exact hb4 j hj hjc
            · rw [hb3] at h5
              exact ⟨h5.2.le, fun he => absurd he h5.2.ne'⟩
      | record h1 h2 h3 h4 h5 =>
        have h1' := hg.mp h1
        rw [htn] at h2
        have h3' := hdu.not.mp h3
        rw [hat.cost] at h5
        have hcand : (searchFrom p sol L R c).Candidate k := ⟨h1', h2, h3', hfe.mp h4⟩
        refine quiet _ _ _ rfl ?_ (fun hh => absurd hh.2.2 h3') ?_
        · have h3'' := h3'
          unfold Search.net at h3''
          simp only [Search.pause, if_pos h1', h2, if_neg h3'', hat.pause]; rfl
        · refine .inr ⟨k, Nat.lt_succ_self k, hcand, hat.t, hat.cost, fun j hj hjc => ?_⟩
          rcases Nat.lt_succ_iff_lt_or_eq.mp hj with hj | rfl
          · rcases hat.best with ⟨-, hb⟩ | ⟨m, hm, hb1, hb2, hb3, hb4⟩
            · exact absurd hjc (hb j hj)
            · rcases h5 with h5 | h5
              · refine absurd h5 (not_lt.mpr ?_)
                rw [hb2]
                exact ((add_nonneg h0 hoff).trans_lt hb1.1.2).le
              · rw [hb3] at h5
                exact ⟨h5.trans (hb4 j hj hjc).1, fun _ => hj.le⟩
          · exact ⟨le_refl _, fun _ => le_refl _⟩
      | optimised h1 h2 h3 h4 =>
        have h1' := hg.mp h1
        rw [htn] at h2
        have h3' := hdu.mp h3
        rcases hat.best with ⟨hb, -⟩ | ⟨m, hm, hb1, hb2, hb3, hb4⟩
        · rw [hb] at h4; exact absurd h4 (by simp)
        · have hdec : Decided p sol L R c _ := .optimised k m
            ⟨hat.reaches, hat.t ▸ hle, ⟨h1', h2, h3'⟩, hm, hb1, hb4⟩
          have e : s.swing.stepAt (sol s.tOptim) s.tOptim =
              stepOf (if c.left then L else R) (sol ((searchFrom p sol L R c).time m)) ((searchFrom p sol L R c).time m) := by
            rw [stepAt_cfg (swing_cfg hat.leftCfg hat.rightCfg), hat.swingLeft, hb2]; rfl
          rw [e] at h
          obtain ⟨log, c', k', g1, g2, g3, g4, g5⟩ := ih _ s' (c.next p _) 0
            (hat.landed hd h4.le rfl (by rw [hb2]; rfl)) (le_refl _) h
          refine ⟨_ :: log, c', k', .land c _ log c' hdec g1, g2, ?_, ?_, by simp⟩
          · rw [g3, landed_left, hat.swingLeft]
            cases c.left <;> simp [stepsOf]
          · rw [g4, landed_right, hat.swingLeft]
            cases c.left <;> simp [stepsOf]
      | parallel h1 h2 h3 h4 h5 =>
        have h1' := hg.mp h1
        rw [htn] at h2
        have h3' := hdu.mp h3
        rw [hat.closeTiny] at h5
        rcases hat.best with ⟨hb, hnc⟩ | ⟨m, hm, hb1, hb2, -⟩
        · have hdec : Decided p sol L R c _ := .parallel k
            ⟨hat.reaches, hat.t ▸ hle, ⟨h1', h2, h3'⟩, hnc, h5⟩
          have e : s.swing.stepAt (s.stance.stateOf s.prevStep) s.t =
              stepOf (if c.left then L else R) (stateFor (if c.left then R else L) c.prev) ((searchFrom p sol L R c).time k) := by
            rw [stepAt_cfg (swing_cfg hat.leftCfg hat.rightCfg), stateOf_cfg (stance_cfg hat.leftCfg hat.rightCfg),
              hat.swingLeft, hat.t, hat.prevStep]; rfl
          rw [e] at h
          obtain ⟨log, c', k', g1, g2, g3, g4, g5⟩ := ih _ s' (c.next p _) 0
            (hat.landed hd hat.nonneg hb hat.t.symm) (le_refl _) h
          refine ⟨_ :: log, c', k', .land c _ log c' hdec g1, g2, ?_, ?_, by simp⟩
          · rw [g3, landed_left, hat.swingLeft]
            cases c.left <;> simp [stepsOf]
          · rw [g4, landed_right, hat.swingLeft]
            cases c.left <;> simp [stepsOf]
        · refine absurd ?_ h4
          rw [hb2]
          exact (add_nonneg h0 hoff).trans_lt hb1.1.2
    · rw [if_neg hle] at h
      cases h
      refine ⟨[], c, k, .stop c ⟨k, hat.reaches, ?_⟩, hat, by simp [stepsOf], by simp [stepsOf], by simp⟩
      rw [← hat.t]; exact not_le.mp hle

end
end Uni.Planner
