import Verif.Lemmas.MovedFrom

/-! # Displacements: the planner -/

set_option autoImplicit false
set_option linter.unusedSectionVars false

namespace Uni.Spec.Move
variable (g : Move)

/-! ## Free space -/

theorem ellipse_isSet (e : Ellipse ℝ) : (g.ellipse e).isSet = e.isSet := by
  unfold ellipse
  split_ifs with h
  · exact h.symm
  · rfl

theorem generators {e : Ellipse ℝ} (he : e.isSet = true) (p : Vec2 ℝ) :
    (g.ellipse e).computeGenerators (g.point p) = e.computeGenerators p := by
  have h := Real.sin_sq_add_cos_sq g.turn
  unfold ellipse
  rw [if_pos he]
  ext <;> simp only [Ellipse.computeGenerators, Mat2.mulVec, point, vector, Vec2.sub_x, Vec2.sub_y]
  · linear_combination (e.Cinv.m00 * (p.x - e.d.x) + e.Cinv.m01 * (p.y - e.d.y)) * h
  · linear_combination (e.Cinv.m10 * (p.x - e.d.x) + e.Cinv.m11 * (p.y - e.d.y)) * h

theorem isPointInside (e : Ellipse ℝ) (p : Vec2 ℝ) : (g.ellipse e).isPointInside (g.point p) = e.isPointInside p := by
  unfold Ellipse.isPointInside
  rw [ellipse_isSet]
  cases he : e.isSet
  · rfl
  · rw [g.generators he]

/-- The optimisation problem with the free space displaced. -/
noncomputable def problem (p : Problem ℝ) : Problem ℝ := { p with freeSpace := g.ellipse p.freeSpace }

/-- A candidate displaced. -/
noncomputable def data (d : StepData ℝ) : StepData ℝ := { d with newPosition := g.point d.newPosition }

theorem constraints (p : Problem ℝ) (d : StepData ℝ) :
    (g.problem p).areConstraintsSatisfied (g.data d) = p.areConstraintsSatisfied d := by
  unfold Problem.areConstraintsSatisfied
  have : (g.problem p).ellipseOk (g.data d) = p.ellipseOk d := by
    simp only [Problem.ellipseOk, problem, data, isPointInside]
  rw [this]
  rfl

/-! ## The loop -/

/-- The planner displaced (the controllers are given). -/
noncomputable def planner (p : Planner ℝ) (c : Controllers ℝ) : Planner ℝ :=
  { p with ctrl := c, problem := g.problem p.problem, initTime := p.initTime + g.delay, endTime := p.endTime + g.delay }

/-- The variables of the loop displaced. -/
noncomputable def loop (s : Loop ℝ) : Loop ℝ where
  t := s.t + g.delay
  tOptim := if s.tOptim < 0 then s.tOptim else s.tOptim + g.delay
  minCost := s.minCost
  pauseTime := s.pauseTime
  timeOffset := s.timeOffset
  prevStep := g.step s.prevStep
  swingLeft := s.swingLeft
  firstStep := s.firstStep
  left := g.ufoot s.left
  right := g.ufoot s.right

theorem loop_swing (s : Loop ℝ) : (g.loop s).swing = g.ufoot s.swing := by
  unfold Loop.swing
  show (if s.swingLeft = true then g.ufoot s.left else g.ufoot s.right) = _
  split_ifs <;> rfl

theorem loop_stance (s : Loop ℝ) : (g.loop s).stance = g.ufoot s.stance := by
  unfold Loop.stance
  show (if s.swingLeft = true then g.ufoot s.right else g.ufoot s.left) = _
  split_ifs <;> rfl

theorem loop_setSwing (s : Loop ℝ) (f : Foot ℝ) : (g.loop s).setSwing (g.ufoot f) = g.loop (s.setSwing f) := by
  unfold Loop.setSwing
  have e : (g.loop s).swingLeft = s.swingLeft := rfl
  rw [e]
  split_ifs <;> rfl

theorem rPl (b : Bool) (l r : Foot ℝ) (u : UState ℝ) :
    Planner.get_rPl b (g.ufoot l) (g.ufoot r) (g.pose u) = Planner.get_rPl b l r u := by
  unfold Planner.get_rPl
  simp only [ufoot_last, ufoot_from]
  split_ifs
  · cases r.getLastStep <;> cases l.getFootPositionFromUnicycle u <;> try rfl
    simp only [Option.map_some, step_angle, step_position, point_sub, rotT_vector]
  · cases l.getLastStep <;> cases r.getFootPositionFromUnicycle u <;> try rfl
    simp only [Option.map_some, pose_angle, step_position, point_sub, rotT_vector]

theorem relative (b : Bool) (l r : Foot ℝ) (u : UState ℝ) :
    Planner.get_newStepRelativePosition b (g.ufoot l) (g.ufoot r) (g.pose u) = Planner.get_newStepRelativePosition b l r u := by
  unfold Planner.get_newStepRelativePosition
  cases b
  · simp only [Bool.false_eq_true, if_false, ufoot_last, ufoot_from]
    cases l.getLastStep <;> cases r.getFootPositionFromUnicycle u <;> try rfl
    simp only [Option.map_some, step_angle, step_position, point_sub, rotT_vector]
  · simp only [if_true, ufoot_last, ufoot_from]
    cases r.getLastStep <;> cases l.getFootPositionFromUnicycle u <;> try rfl
    simp only [Option.map_some, step_angle, step_position, point_sub, rotT_vector]

theorem candidate (s : Loop ℝ) (u : UState ℝ) (t : ℝ) :
    Planner.candidate (g.loop s) (g.pose u) t = (Planner.candidate s u t).map g.data := by
  unfold Planner.candidate
  have e1 : Planner.get_rPl (g.loop s).swingLeft (g.loop s).left (g.loop s).right (g.pose u) =
    Planner.get_rPl s.swingLeft s.left s.right u := g.rPl _ _ _ _
  have e2 : Planner.get_newStepRelativePosition (g.loop s).swingLeft (g.loop s).left (g.loop s).right (g.pose u) =
    Planner.get_newStepRelativePosition s.swingLeft s.left s.right u := g.relative _ _ _ _
  have e3 : (g.loop s).prevStep = g.step s.prevStep := rfl
  rw [e1, e2, e3, loop_stance, loop_swing, ufoot_angle, ufoot_position, pose_angle,
    show s.stance.unicycleAngle s.prevStep + g.turn - (u.angle + g.turn) = s.stance.unicycleAngle s.prevStep - u.angle by ring]
  cases Planner.get_rPl s.swingLeft s.left s.right u <;>
    cases Planner.get_newStepRelativePosition s.swingLeft s.left s.right u <;> rfl

theorem nextTime (p : Planner ℝ) (c : Controllers ℝ) (t : ℝ) :
    (g.planner p c).nextTime (t + g.delay) = p.nextTime t + g.delay := by
  unfold Planner.nextTime
  have e1 : (g.planner p c).endTime = p.endTime + g.delay := rfl
  have e2 : (g.planner p c).dT = p.dT := rfl
  rw [e1, e2, show t + g.delay + p.dT = t + p.dT + g.delay by ring]
  simp only [add_lt_add_iff_right]
  split_ifs <;> rfl

theorem advance (p : Planner ℝ) (c : Controllers ℝ) (s : Loop ℝ) :
    (g.planner p c).advance (g.loop s) = g.loop (p.advance s) := by
  unfold Planner.advance
  have e : (g.loop s).t = s.t + g.delay := rfl
  rw [e, nextTime]
  rfl

theorem refresh (p : Planner ℝ) (c : Controllers ℝ) (s : Loop ℝ) :
    (g.planner p c).refresh (g.loop s) = ((p.refresh s).1, g.loop (p.refresh s).2) := by
  unfold Planner.refresh
  rw [loop_stance, ufoot_last]
  cases s.stance.getLastStep with
  | none => rfl
  | some q =>
    simp only [Option.map_some]
    have : ({ g.loop s with prevStep := g.step q } : Loop ℝ) = g.loop { s with prevStep := q } := rfl
    rw [this, advance]

/-- What holds in the loop: the chosen instant is either none or positive, the offset is not negative, no step has landed at a
negative time. -/
structure Sound (s : Loop ℝ) : Prop where
  optim : s.tOptim < 0 ∨ 0 < s.tOptim
  offset : 0 ≤ s.timeOffset
  left : s.left.fp.Timed
  right : s.right.fp.Timed

theorem timed_foot_addStep {f : Foot ℝ} (h : f.fp.Timed) (u : UState ℝ) (t : ℝ) : (f.addStepFromUnicycle u t).2.fp.Timed := by
  unfold Foot.addStepFromUnicycle
  split
  · exact h
  · exact timed_addStep h _

theorem timed_foot_parallel {f : Foot ℝ} (h : f.fp.Timed) (o : Foot ℝ) (t : ℝ) : (f.addParallelStep o t).2.fp.Timed := by
  unfold Foot.addParallelStep
  split
  · exact h
  · split
    · exact h
    · exact timed_addStep h _

theorem sound_refresh {p : Planner ℝ} {s : Loop ℝ} (h : Sound s) : Sound (p.refresh s).2 := by
  unfold Planner.refresh
  split
  · exact h
  · exact ⟨h.optim, h.offset, h.left, h.right⟩

theorem Sound.swing {s : Loop ℝ} (h : Sound s) : s.swing.fp.Timed := by
  unfold Loop.swing; split_ifs
  · exact h.left
  · exact h.right

theorem sound_setSwing {s : Loop ℝ} (h : Sound s) {f : Foot ℝ} (hf : f.fp.Timed) : Sound (s.setSwing f) := by
  unfold Loop.setSwing; split_ifs
  · exact ⟨h.optim, h.offset, hf, h.right⟩
  · exact ⟨h.optim, h.offset, h.left, hf⟩

theorem sound_body {p : Planner ℝ} (h0 : 0 ≤ p.initTime) (sol : ℝ → UState ℝ) {s : Loop ℝ} (h : Sound s) :
    Sound (p.body sol s).2 := by
  unfold Planner.body
  simp only
  split_ifs with h1 h2 h3 h4
  · exact ⟨h.optim, h.offset, h.left, h.right⟩
  · have hf := timed_foot_addStep h.swing (sol s.tOptim) s.tOptim
    rcases hx : s.swing.addStepFromUnicycle (sol s.tOptim) s.tOptim with ⟨_ | _, f⟩ <;> rw [hx] at hf
    · exact sound_setSwing h hf
    · have := sound_setSwing h hf
      exact sound_refresh ⟨Or.inl (by norm_num), le_refl _, this.left, this.right⟩
  · rcases s.stance.getUnicycleStateFromStep s.prevStep with _ | u
    · exact h
    simp only
    split_ifs
    · exact sound_refresh ⟨h.optim, h.offset, h.left, h.right⟩
    · have hf := timed_foot_parallel h.swing s.stance s.t
      rcases hx : s.swing.addParallelStep s.stance s.t with ⟨_ | _, f⟩ <;> rw [hx] at hf
      · exact sound_setSwing h hf
      · have := sound_setSwing h hf
        exact sound_refresh ⟨this.optim, le_refl _, this.left, this.right⟩
  · rcases Planner.candidate s (sol s.t) (s.t - s.prevStep.impactTime - s.pauseTime) with _ | d
    · exact h
    simp only
    split_ifs
    · refine ⟨Or.inr ?_, h.offset, h.left, h.right⟩
      have := h1.2; have := h.offset
      show 0 < s.t
      linarith
    · exact ⟨h.optim, h.offset, h.left, h.right⟩
    · exact ⟨h.optim, h.offset, h.left, h.right⟩
  · exact ⟨h.optim, h.offset, h.left, h.right⟩

theorem body (hd : 0 ≤ g.delay) {p : Planner ℝ} (h0 : 0 ≤ p.initTime) (c : Controllers ℝ) {sol sol' : ℝ → UState ℝ}
    (hsol : ∀ t, sol' (t + g.delay) = g.pose (sol t)) {s : Loop ℝ} (h : Sound s) :
    (g.planner p c).body sol' (g.loop s) = ((p.body sol s).1, g.loop (p.body sol s).2) := by
  have e1 : (g.loop s).t = s.t + g.delay := rfl
  have e2 : (g.planner p c).minTime = p.minTime := rfl
  have e3 : (g.planner p c).initTime = p.initTime + g.delay := rfl
  have e4 : (g.loop s).prevStep = g.step s.prevStep := rfl
  have e5 : (g.loop s).timeOffset = s.timeOffset := rfl
  have e6 : (g.loop s).pauseTime = s.pauseTime := rfl
  have e7 : (g.planner p c).dT = p.dT := rfl
  have e8 : (g.planner p c).maxTime = p.maxTime := rfl
  have e9 : (g.planner p c).endTime = p.endTime + g.delay := rfl
  have e10 : (g.loop s).minCost = s.minCost := rfl
  have e11 : (g.planner p c).problem = g.problem p.problem := rfl
  have e12 : (g.loop s).swingLeft = s.swingLeft := rfl
  have d1 : s.t + g.delay - (g.step s.prevStep).impactTime = s.t - s.prevStep.impactTime := by
    rw [step_impactTime]; ring
  have d2 : p.initTime + g.delay + s.timeOffset = p.initTime + s.timeOffset + g.delay := by ring
  unfold Planner.body
  simp only [e1, e2, e3, e4, e5, e6, e7, e8, e9, e10, e11, e12, d1, d2, hsol, loop_swing, loop_stance, ufoot_tiny,
    add_lt_add_iff_right, add_left_inj]
  by_cases h1 : p.minTime ≤ s.t - s.prevStep.impactTime ∧ p.initTime + s.timeOffset < s.t
  swap
  · simp only [if_neg h1, advance]
  have htpos : 0 < s.t := by have := h1.2; have := h.offset; linarith
  simp only [if_pos h1]
  by_cases h2 : s.swing.isTinyStep (sol s.t) = true
  · simp only [if_pos h2]
    have : ({ g.loop s with pauseTime := s.pauseTime + p.dT } : Loop ℝ) = g.loop { s with pauseTime := s.pauseTime + p.dT } := rfl
    simp only [e1, e4, e5, e10, e12] at this ⊢
    rw [this, advance]
  simp only [if_neg h2]
  by_cases h3 : p.maxTime < s.t - s.prevStep.impactTime - s.pauseTime ∨ s.t = p.endTime
  · simp only [if_pos h3]
    by_cases h4 : 0 < s.tOptim
    · have ho : (g.loop s).tOptim = s.tOptim + g.delay := by
        simp only [loop]; rw [if_neg (by linarith)]
      rw [ho]
      have h4' : 0 < s.tOptim + g.delay := by linarith
      simp only [if_pos h4, if_pos h4', hsol, g.ufoot_addStep hd _ _ _ h4.le]
      rcases s.swing.addStepFromUnicycle (sol s.tOptim) s.tOptim with ⟨_ | _, f⟩
      · simp only [loop_setSwing]
      · simp only [loop_setSwing]
        rw [← refresh]
        congr 1
        ext <;> simp [loop]
    · have h5 : s.tOptim < 0 := h.optim.resolve_right h4
      have ho : (g.loop s).tOptim = s.tOptim := by
        simp only [loop]; rw [if_pos h5]
      rw [ho]
      simp only [if_neg h4, ufoot_state]
      rcases s.stance.getUnicycleStateFromStep s.prevStep with _ | u
      · rfl
      simp only [Option.map_some, ufoot_tiny]
      by_cases h6 : s.swing.isTinyStep u = true
      · simp only [if_pos h6]
        rw [← refresh]
        congr 1
        ext <;> simp [loop, h5]
      · simp only [if_neg h6, g.ufoot_addParallel hd _ _ _ htpos.le]
        rcases s.swing.addParallelStep s.stance s.t with ⟨_ | _, f⟩
        · simp only [loop_setSwing]
        · simp only [loop_setSwing]
          rw [← refresh]
          congr 1
  · simp only [if_neg h3, candidate]
    rcases Planner.candidate s (sol s.t) (s.t - s.prevStep.impactTime - s.pauseTime) with _ | d
    · rfl
    simp only [Option.map_some, constraints]
    have hc : (g.problem p.problem).cost (g.data d) = p.problem.cost d := rfl
    have ho : (g.loop s).tOptim < 0 ↔ s.tOptim < 0 := by
      simp only [loop]
      split_ifs with h5
      · exact ⟨fun _ => h5, fun _ => h5⟩
      · refine ⟨fun h6 => ?_, fun h6 => absurd h6 h5⟩
        exfalso; linarith [h.optim.resolve_left h5]
    simp only [hc, ho]
    split_ifs
    · rw [← advance]
      congr 2
      ext <;> simp [loop, not_lt.mpr htpos.le]
    · rw [advance]
    · rw [advance]

end Uni.Spec.Move
