import Verif.Lemmas.MovedPlanner

/-! # Displacements: a call of the planner -/

set_option autoImplicit false
set_option linter.unusedSectionVars false

namespace Uni.Planner
variable {K : Type*} [Field K] [LinearOrder K] [Trig K]

/-- `addTerminalStep` once the feet are chosen. -/
def terminalWith (p : Planner K) (swingLeft : Bool) (left right : Foot K) (u : UState K) (stance swing : Foot K)
    (both : Foot K → Foot K → Foot K × Foot K) : Bool × Foot K × Foot K :=
  match stance.getLastStep with
  | none => (false, left, right)
  | some prev =>
    match get_rPl swingLeft left right u, get_newStepRelativePosition swingLeft left right u with
    | some rPl, some rel =>
      let stepTime := max (p.initTime + p.nominalTime) (prev.impactTime + p.nominalTime)
      let d : StepData K :=
        ⟨rPl, |u.angle - stance.unicycleAngle prev|, stepTime - prev.impactTime, swing.footPosition u, rel⟩
      if p.problem.areConstraintsSatisfied d && !stance.isTinyStep u && !swing.isTinyStep u then
        match swing.addStepFromUnicycle u stepTime with
        | (false, sw) => (false, both sw stance)
        | (true, sw) =>
          match stance.addStepFromUnicycle u (stepTime + p.nominalTime) with
          | (ok, st) => (ok, both sw st)
      else
        match stance.getUnicycleStateFromStep prev with
        | none => (false, left, right)
        | some u' =>
          if swing.isTinyStep u' then (true, left, right)
          else
            match swing.addParallelStep stance stepTime with
            | (ok, sw) => (ok, both sw stance)
    | _, _ => (false, left, right)

theorem addTerminalStep_eq (p : Planner K) (b : Bool) (l r : Foot K) (u : UState K) :
    p.addTerminalStep b l r u = p.terminalWith b l r u (if b then r else l) (if b then l else r)
      (fun sw st => if b then (sw, st) else (st, sw)) := rfl

end Uni.Planner

namespace Uni.Spec.Move
variable (g : Move)

/-- The outcome of the loop displaced. -/
noncomputable def loopResult : Planner.LoopResult ℝ → Planner.LoopResult ℝ
  | .exit s => .exit (g.loop s)
  | .failed s => .failed (g.loop s)
  | .outOfFuel => .outOfFuel

theorem run_loop (hd : 0 ≤ g.delay) {p : Planner ℝ} (h0 : 0 ≤ p.initTime) (c : Controllers ℝ) {sol sol' : ℝ → UState ℝ}
    (hsol : ∀ t, sol' (t + g.delay) = g.pose (sol t)) (n : Nat) : ∀ {s : Loop ℝ}, Sound s →
    (g.planner p c).loop sol' n (g.loop s) = g.loopResult (p.loop sol n s) := by
  induction n with
  | zero => intro s h; rfl
  | succ n ih =>
    intro s h
    simp only [Planner.loop]
    have e1 : (g.loop s).t = s.t + g.delay := rfl
    have e2 : (g.planner p c).endTime = p.endTime + g.delay := rfl
    rw [e1, e2, g.body hd h0 c hsol h]
    simp only [add_le_add_iff_right]
    have hs := sound_body h0 sol h
    split_ifs
    · rcases hb : p.body sol s with ⟨_ | _, s'⟩
      · rfl
      · rw [hb] at hs
        exact ih hs
    · rfl

theorem sound_loop {p : Planner ℝ} (h0 : 0 ≤ p.initTime) (sol : ℝ → UState ℝ) (n : Nat) : ∀ {s s' : Loop ℝ}, Sound s →
    (p.loop sol n s = .exit s' ∨ p.loop sol n s = .failed s') → Sound s' := by
  induction n with
  | zero => intro s s' _ h; simp [Planner.loop] at h
  | succ n ih =>
    intro s s' hs h
    simp only [Planner.loop] at h
    have hb := sound_body h0 sol hs
    split_ifs at h
    · rcases hx : p.body sol s with ⟨_ | _, s1⟩ <;> rw [hx] at h hb
      · simp only [reduceCtorEq, Planner.LoopResult.failed.injEq, false_or] at h
        subst h; exact hb
      · exact ih hb h
    · simp only [reduceCtorEq, Planner.LoopResult.exit.injEq, or_false] at h
      subst h; exact hs

theorem terminal (hd : 0 ≤ g.delay) {p : Planner ℝ} (h0 : 0 ≤ p.initTime) (hn : 0 ≤ p.nominalTime) (c : Controllers ℝ)
    (b : Bool) (l r : Foot ℝ) (u : UState ℝ) :
    (g.planner p c).addTerminalStep b (g.ufoot l) (g.ufoot r) (g.pose u) =
      ((p.addTerminalStep b l r u).1, g.ufoot (p.addTerminalStep b l r u).2.1, g.ufoot (p.addTerminalStep b l r u).2.2) := by
  have e1 : (g.planner p c).initTime = p.initTime + g.delay := rfl
  have e2 : (g.planner p c).nominalTime = p.nominalTime := rfl
  have e3 : (g.planner p c).problem = g.problem p.problem := rfl
  have key : ∀ (stance swing : Foot ℝ) (both : Foot ℝ → Foot ℝ → Foot ℝ × Foot ℝ)
      (_ : ∀ a b, both (g.ufoot a) (g.ufoot b) = (g.ufoot (both a b).1, g.ufoot (both a b).2)),
      (g.planner p c).terminalWith b (g.ufoot l) (g.ufoot r) (g.pose u) (g.ufoot stance) (g.ufoot swing) both =
      (fun q : Bool × Foot ℝ × Foot ℝ => (q.1, g.ufoot q.2.1, g.ufoot q.2.2)) (p.terminalWith b l r u stance swing both) := by
    intro stance swing both hboth
    unfold Planner.terminalWith
    rw [ufoot_last, rPl, relative]
    cases hl : stance.getLastStep with
    | none => rfl
    | some prev =>
      simp only [Option.map_some]
      cases Planner.get_rPl b l r u with
      | none => rfl
      | some q =>
        cases Planner.get_newStepRelativePosition b l r u with
        | none => rfl
        | some rel =>
          simp only [e1, e2, e3, step_impactTime, ufoot_angle, ufoot_position, pose_angle, ufoot_tiny]
          have hmax : max (p.initTime + g.delay + p.nominalTime) (prev.impactTime + g.delay + p.nominalTime) =
              max (p.initTime + p.nominalTime) (prev.impactTime + p.nominalTime) + g.delay := by
            rw [← max_add_add_right]; congr 1 <;> ring
          rw [hmax]
          generalize hT : max (p.initTime + p.nominalTime) (prev.impactTime + p.nominalTime) = T
          have hTpos : 0 ≤ T := by rw [← hT]; exact le_trans (by linarith) (le_max_left _ _)
          have hdata : (⟨q, |u.angle + g.turn - (stance.unicycleAngle prev + g.turn)|, T + g.delay - (prev.impactTime + g.delay),
              g.point (swing.footPosition u), rel⟩ : StepData ℝ) =
              g.data ⟨q, |u.angle - stance.unicycleAngle prev|, T - prev.impactTime, swing.footPosition u, rel⟩ := by
            simp only [data, StepData.mk.injEq, true_and, and_true]
            exact ⟨by congr 1; ring, by ring⟩
          rw [hdata, constraints]
          split_ifs
          · rw [g.ufoot_addStep hd _ _ _ hTpos]
            rcases swing.addStepFromUnicycle u T with ⟨_ | _, sw⟩
            · simp only [hboth]
            · simp only
              rw [show T + g.delay + p.nominalTime = T + p.nominalTime + g.delay by ring,
                g.ufoot_addStep hd _ _ _ (by linarith)]
              simp only [hboth]
          · rw [ufoot_state]
            cases stance.getUnicycleStateFromStep prev with
            | none => rfl
            | some u' =>
              simp only [Option.map_some, ufoot_tiny]
              split_ifs
              · rfl
              · rw [g.ufoot_addParallel hd _ _ _ hTpos]
                simp only [hboth]
  rw [Planner.addTerminalStep_eq, Planner.addTerminalStep_eq]
  cases b
  · exact key l r (fun sw st => (st, sw)) fun _ _ => rfl
  · exact key r l (fun sw st => (sw, st)) fun _ _ => rfl

theorem timed_terminal {p : Planner ℝ} {b : Bool} {l r : Foot ℝ} (hl : l.fp.Timed) (hr : r.fp.Timed) (u : UState ℝ) :
    (p.addTerminalStep b l r u).2.1.fp.Timed ∧ (p.addTerminalStep b l r u).2.2.fp.Timed := by
  rw [Planner.addTerminalStep_eq]
  unfold Planner.terminalWith
  have hst : (if b = true then r else l).fp.Timed := by split_ifs <;> assumption
  have hsw : (if b = true then l else r).fp.Timed := by split_ifs <;> assumption
  have hboth : ∀ a c : Foot ℝ, a.fp.Timed → c.fp.Timed →
      (if b = true then (a, c) else (c, a)).1.fp.Timed ∧ (if b = true then (a, c) else (c, a)).2.fp.Timed := by
    intro a c ha hc
    split_ifs
    · exact ⟨ha, hc⟩
    · exact ⟨hc, ha⟩
  generalize (if b = true then r else l) = st at hst ⊢
  generalize (if b = true then l else r) = sw at hsw ⊢
  cases st.getLastStep with
  | none => exact ⟨hl, hr⟩
  | some prev =>
    simp only
    cases Planner.get_rPl b l r u with
    | none => exact ⟨hl, hr⟩
    | some q =>
      cases Planner.get_newStepRelativePosition b l r u with
      | none => exact ⟨hl, hr⟩
      | some rel =>
        simp only
        split
        · have h1 := timed_foot_addStep hsw u (max (p.initTime + p.nominalTime) (prev.impactTime + p.nominalTime))
          rcases hx : sw.addStepFromUnicycle u (max (p.initTime + p.nominalTime) (prev.impactTime + p.nominalTime)) with
            ⟨_ | _, f⟩ <;> rw [hx] at h1
          · exact hboth _ _ h1 hst
          · exact hboth _ _ h1 (timed_foot_addStep hst u _)
        · cases st.getUnicycleStateFromStep prev with
          | none => exact ⟨hl, hr⟩
          | some u' =>
            simp only
            split
            · exact ⟨hl, hr⟩
            · exact hboth _ _ (timed_foot_parallel hsw st _) hst

end Uni.Spec.Move
