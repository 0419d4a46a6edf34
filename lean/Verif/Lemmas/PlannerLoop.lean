import Verif.Model.Planner
import Mathlib.Tactic.Linarith
import Mathlib.Tactic.Ring

/-! # Helper lemmas: the main loop of the planner -/

set_option autoImplicit false
set_option linter.unusedSectionVars false

namespace Uni
variable {K : Type*}

namespace Foot

/-- Append a step. -/
def push (f : Foot K) (s : Step K) : Foot K := { f with fp := { f.fp with steps := f.fp.steps ++ [s] } }

section
variable [Ring K] [LinearOrder K] [Trig K]

/-- The step of this foot for a unicycle state and a landing time. -/
def stepAt (f : Foot K) (u : UState K) (t : K) : Step K :=
  ⟨f.footPosition u, u.angle + f.yawOffset, t, f.fp.footName⟩

theorem addStepFromUnicycle_eq (f : Foot K) (u : UState K) (t : K) (hd : f.distanceSet = true) (ht : 0 ≤ t) :
    f.addStepFromUnicycle u t = (true, f.push (f.stepAt u t)) := by
  simp [addStepFromUnicycle, hd, FootPrint.addStep, FootPrint.addStepRaw, not_lt.mpr ht, push, stepAt]

theorem addStepFromUnicycle_neg (f : Foot K) (u : UState K) (t : K) (hd : f.distanceSet = true) (ht : t < 0) :
    f.addStepFromUnicycle u t = (false, f) := by
  simp [addStepFromUnicycle, hd, FootPrint.addStep, FootPrint.addStepRaw, ht]
  rw [← hd]

end

section
variable [CommRing K] [LinearOrder K] [Trig K]
/-- The unicycle state of a step. -/
def stateOf (f : Foot K) (s : Step K) : UState K :=
  ⟨s.position - rot (f.unicycleAngle s) f.distance, f.unicycleAngle s⟩

theorem getUnicycleStateFromStep_eq (f : Foot K) (s : Step K) (hd : f.distanceSet = true) :
    f.getUnicycleStateFromStep s = some (f.stateOf s) := by
  simp [getUnicycleStateFromStep, hd, stateOf]

theorem addParallelStep_eq (f other : Foot K) (o : Step K) (t : K) (ht : 0 ≤ t)
    (ho : other.getLastStep = some o) :
    f.addParallelStep other t = (true, f.push (f.stepAt (other.stateOf o) t)) := by
  simp only [addParallelStep, not_lt.mpr ht, if_false, ho, FootPrint.addStep, FootPrint.addStepRaw, push,
    stepAt, stateOf, footPosition]
  congr 6
  ext <;> simp [rot] <;> ring

end

@[simp] theorem push_steps (f : Foot K) (s : Step K) : (f.push s).fp.steps = f.fp.steps ++ [s] := rfl
@[simp] theorem push_name (f : Foot K) (s : Step K) : (f.push s).fp.footName = f.fp.footName := rfl
@[simp] theorem push_distance (f : Foot K) (s : Step K) : (f.push s).distance = f.distance := rfl
@[simp] theorem push_distanceSet (f : Foot K) (s : Step K) : (f.push s).distanceSet = f.distanceSet := rfl
@[simp] theorem push_yaw (f : Foot K) (s : Step K) : (f.push s).yawOffset = f.yawOffset := rfl
@[simp] theorem push_minStep (f : Foot K) (s : Step K) : (f.push s).minimumStep = f.minimumStep := rfl
@[simp] theorem push_minAngle (f : Foot K) (s : Step K) : (f.push s).minimumAngle = f.minimumAngle := rfl
@[simp] theorem push_last (f : Foot K) (s : Step K) : (f.push s).getLastStep = some s := by
  simp [getLastStep, FootPrint.getLastStep]

/-- Same configuration (everything but the steps). -/
structure SameCfg (f g : Foot K) : Prop where
  name : f.fp.footName = g.fp.footName
  distance : f.distance = g.distance
  distanceSet : f.distanceSet = g.distanceSet
  yaw : f.yawOffset = g.yawOffset
  minStep : f.minimumStep = g.minimumStep
  minAngle : f.minimumAngle = g.minimumAngle

theorem SameCfg.refl (f : Foot K) : f.SameCfg f := ⟨rfl, rfl, rfl, rfl, rfl, rfl⟩
theorem SameCfg.push {f g : Foot K} (h : f.SameCfg g) (s : Step K) : (f.push s).SameCfg g :=
  ⟨h.name, h.distance, h.distanceSet, h.yaw, h.minStep, h.minAngle⟩

end Foot

namespace Planner
variable [Field K] [LinearOrder K] [Trig K]

/-- The loop state after a landing of the swing foot with step `st`, with the cursor at `t'`. -/
def landed (p : Planner K) (s : Loop K) (st : Step K) (t' tOptim : K) : Loop K :=
  p.advance { (s.setSwing (s.swing.push st)) with
    t := t', pauseTime := 0, tOptim := tOptim, firstStep := false, timeOffset := 0,
    swingLeft := !s.swingLeft, prevStep := st }

/-- The gate of the loop: the step would not be too fast. -/
def Gate (p : Planner K) (s : Loop K) : Prop :=
  p.minTime ≤ s.t - s.prevStep.impactTime ∧ p.initTime + s.timeOffset < s.t

/-- The time since the last landing, net of the pause. -/
def net (s : Loop K) : K := s.t - s.prevStep.impactTime - s.pauseTime

/-- The step is due: maximum duration exceeded, or end of the horizon. -/
def Due (p : Planner K) (s : Loop K) : Prop := p.maxTime < net s ∨ s.t = p.endTime

/-- The data of the candidate step, with the stance step known. -/
def data (s : Loop K) (u : UState K) (deltaTime : K) : StepData K :=
  ⟨if s.swingLeft then rotT s.prevStep.angle (s.left.footPosition u - s.prevStep.position)
     else rotT u.angle (s.prevStep.position - s.right.footPosition u),
   |s.stance.unicycleAngle s.prevStep - u.angle|, deltaTime, s.swing.footPosition u,
   rotT s.prevStep.angle (s.swing.footPosition u - s.prevStep.position)⟩

/-- The current sample is a feasible candidate. -/
def Feasible (p : Planner K) (sol : K → UState K) (s : Loop K) : Prop :=
  0 < net s ∧ p.problem.areConstraintsSatisfied (data s (sol s.t) (net s)) = true

/-- One iteration of the loop, as a relation. -/
inductive Trans (p : Planner K) (sol : K → UState K) (s : Loop K) : Loop K → Prop
  | wait : ¬ p.Gate s → Trans p sol s (p.advance s)
  | tiny : p.Gate s → s.swing.isTinyStep (sol s.t) = true →
      Trans p sol s (p.advance { s with pauseTime := s.pauseTime + p.dT })
  | optimised : p.Gate s → s.swing.isTinyStep (sol s.t) = false → p.Due s → 0 < s.tOptim →
      Trans p sol s (p.landed s (s.swing.stepAt (sol s.tOptim) s.tOptim) s.tOptim (-1))
  | timeout : p.Gate s → s.swing.isTinyStep (sol s.t) = false → p.Due s → ¬ 0 < s.tOptim →
      s.swing.isTinyStep (s.stance.stateOf s.prevStep) = true →
      Trans p sol s (p.advance { s with pauseTime := s.t - s.prevStep.impactTime })
  | parallel : p.Gate s → s.swing.isTinyStep (sol s.t) = false → p.Due s → ¬ 0 < s.tOptim →
      s.swing.isTinyStep (s.stance.stateOf s.prevStep) = false →
      Trans p sol s (p.landed s (s.swing.stepAt (s.stance.stateOf s.prevStep) s.t) s.t s.tOptim)
  | record : p.Gate s → s.swing.isTinyStep (sol s.t) = false → ¬ p.Due s → p.Feasible sol s →
      (s.tOptim < 0 ∨ p.problem.cost (data s (sol s.t) (net s)) ≤ s.minCost) →
      Trans p sol s (p.advance { s with tOptim := s.t, minCost := p.problem.cost (data s (sol s.t) (net s)) })
  | worse : p.Gate s → s.swing.isTinyStep (sol s.t) = false → ¬ p.Due s → p.Feasible sol s →
      ¬ (s.tOptim < 0 ∨ p.problem.cost (data s (sol s.t) (net s)) ≤ s.minCost) → Trans p sol s (p.advance s)
  | infeasible : p.Gate s → s.swing.isTinyStep (sol s.t) = false → ¬ p.Due s → ¬ p.Feasible sol s →
      Trans p sol s (p.advance s)

/-- What the body needs to succeed. -/
structure Ok (p : Planner K) (s : Loop K) : Prop where
  left : s.left.distanceSet = true
  right : s.right.distanceSet = true
  prev : s.stance.getLastStep = some s.prevStep
  nonneg : 0 ≤ s.t

theorem Ok.swing {p : Planner K} {s : Loop K} (h : Ok p s) : s.swing.distanceSet = true := by
  unfold Loop.swing; split_ifs; exacts [h.left, h.right]
theorem Ok.stance {p : Planner K} {s : Loop K} (h : Ok p s) : s.stance.distanceSet = true := by
  unfold Loop.stance; split_ifs; exacts [h.right, h.left]

theorem Ok.candidate {p : Planner K} {s : Loop K} (h : Ok p s) (u : UState K) (d : K) :
    candidate s u d = some (data s u d) := by
  have hp := h.prev
  have hl := h.left
  have hr := h.right
  unfold Planner.candidate data get_rPl get_newStepRelativePosition Foot.getFootPositionFromUnicycle
  cases hs : s.swingLeft <;> simp [Loop.stance, Loop.swing, hs] at hp ⊢ <;> simp [hl, hr, hp]

theorem stance_setSwing (s : Loop K) (f : Foot K) (t a b c : K) (fs : Bool) :
    Loop.stance { (s.setSwing f) with
      t := t, pauseTime := a, tOptim := b, firstStep := fs, timeOffset := c, swingLeft := !s.swingLeft } = f := by
  unfold Loop.stance Loop.setSwing
  cases s.swingLeft <;> simp

theorem body_trans {p : Planner K} (sol : K → UState K) {s : Loop K} (h : Ok p s) :
    ∃ s', p.body sol s = (true, s') ∧ Trans p sol s s' := by
  have hsw := h.swing
  have hst := h.stance
  unfold body
  by_cases hg : p.minTime ≤ s.t - s.prevStep.impactTime ∧ p.initTime + s.timeOffset < s.t
  · rw [if_pos hg]
    by_cases ht : s.swing.isTinyStep (sol s.t) = true
    · rw [if_pos ht]
      exact ⟨_, rfl, .tiny hg ht⟩
    · rw [if_neg ht]
      have ht' : s.swing.isTinyStep (sol s.t) = false := by simpa using ht
      by_cases hd : p.maxTime < s.t - s.prevStep.impactTime - s.pauseTime ∨ s.t = p.endTime
      · simp only [if_pos hd]
        by_cases ho : 0 < s.tOptim
        · rw [if_pos ho]
          rw [Foot.addStepFromUnicycle_eq _ _ _ hsw ho.le]
          refine ⟨_, ?_, .optimised hg ht' hd ho⟩
          simp only [refresh]
          rw [stance_setSwing, Foot.push_last]
          rfl
        · rw [if_neg ho, Foot.getUnicycleStateFromStep_eq _ _ hst]
          simp only
          by_cases ht2 : s.swing.isTinyStep (s.stance.stateOf s.prevStep) = true
          · rw [if_pos ht2]
            refine ⟨_, ?_, .timeout hg ht' hd ho ht2⟩
            have : Loop.stance { s with pauseTime := s.t - s.prevStep.impactTime } = s.stance := rfl
            simp only [refresh]
            rw [this, h.prev]
          · rw [if_neg ht2, Foot.addParallelStep_eq _ _ _ _ h.nonneg h.prev]
            refine ⟨_, ?_, .parallel hg ht' hd ho (by simpa using ht2)⟩
            simp only [refresh]
            have e : Loop.stance { s.setSwing (s.swing.push (s.swing.stepAt (s.stance.stateOf s.prevStep) s.t)) with
                pauseTime := 0, firstStep := false, timeOffset := 0, swingLeft := !s.swingLeft } =
                s.swing.push (s.swing.stepAt (s.stance.stateOf s.prevStep) s.t) := by
              unfold Loop.stance Loop.setSwing
              cases s.swingLeft <;> simp
            rw [e, Foot.push_last]
            simp only [landed, Prod.mk.injEq, true_and]
            unfold Loop.setSwing
            cases s.swingLeft <;> rfl
      · simp only [if_neg hd, h.candidate]
        by_cases hf : 0 < s.t - s.prevStep.impactTime - s.pauseTime ∧ p.problem.areConstraintsSatisfied
            (data s (sol s.t) (s.t - s.prevStep.impactTime - s.pauseTime)) = true
        · rw [if_pos hf]
          split_ifs with hc
          · exact ⟨_, rfl, .record hg ht' hd hf hc⟩
          · exact ⟨_, rfl, .worse hg ht' hd hf hc⟩
        · rw [if_neg hf]
          exact ⟨_, rfl, .infeasible hg ht' hd hf⟩
  · rw [if_neg hg]
    exact ⟨_, rfl, .wait hg⟩

end Planner
end Uni
