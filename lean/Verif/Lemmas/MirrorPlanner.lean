import Verif.Spec.MirrorPlan
import Verif.Lemmas.Mirror
import Verif.Lemmas.MovedPlan

/-! # Plans in the mirror: the search -/

set_option autoImplicit false
set_option linter.unusedSectionVars false

namespace Uni.Spec.Mirror
variable {K : Type} [Field K] [LinearOrder K] [IsStrictOrderedRing K] [FloorRing K] [Trig K]

/-! ## Feet -/

@[simp] theorem pose_position (u : UState K) : (pose u).position = vector u.position := rfl
@[simp] theorem pose_angle (u : UState K) : (pose u).angle = -u.angle := rfl

theorem rotT_vector (hp : TrigParity K) (a : K) (v : Vec2 K) : rotT (-a) (vector v) = vector (rotT a v) := by
  ext <;> simp only [rotT, vector, hp.cos, hp.sin] <;> ring

theorem norm_vector (v : Vec2 K) : (vector v).norm = v.norm := by
  simp [Vec2.norm, Vec2.normSq, vector]

/-- A foot of the unicycle: it becomes the other foot. -/
def ufoot (f : Foot K) : Foot K :=
  ⟨footPrint f.fp, vector f.distance, f.distanceSet, -f.yawOffset, f.minimumStep, f.minimumAngle⟩

theorem footPrint_last (f : FootPrint K) : (footPrint f).getLastStep = f.getLastStep.map step := by
  simp [FootPrint.getLastStep, footPrint, List.getLast?_map]

theorem footPrint_addStep (f : FootPrint K) (v : Vec2 K) (a t : K) (n n' : String) :
    (footPrint f).addStep ⟨vector v, -a, t, n'⟩ = ((f.addStep ⟨v, a, t, n⟩).1, footPrint (f.addStep ⟨v, a, t, n⟩).2) := by
  unfold FootPrint.addStep FootPrint.addStepRaw
  simp only
  split_ifs
  · rfl
  · simp [footPrint, step]

theorem footPrint_clearLast (f : FootPrint K) : (footPrint f).clearLastStep = footPrint f.clearLastStep := by
  unfold FootPrint.clearLastStep FootPrint.numberOfSteps
  simp only [footPrint_steps, List.length_map]
  split_ifs
  · simp [footPrint, List.map_dropLast]
  · rfl

theorem footPrint_count (f : FootPrint K) : (footPrint f).numberOfSteps = f.numberOfSteps := by
  simp [FootPrint.numberOfSteps, footPrint]

theorem ufoot_last (f : Foot K) : (ufoot f).getLastStep = f.getLastStep.map step := footPrint_last _

theorem ufoot_angle (f : Foot K) (s : Step K) : (ufoot f).unicycleAngle (step s) = -f.unicycleAngle s := by
  simp only [Foot.unicycleAngle, ufoot, step]; ring

theorem ufoot_position (hp : TrigParity K) (f : Foot K) (u : UState K) : (ufoot f).footPosition (pose u) = vector (f.footPosition u) := by
  simp only [Foot.footPosition, ufoot, pose, rot_vector hp, vector_add]

theorem ufoot_from (hp : TrigParity K) (f : Foot K) (u : UState K) :
    (ufoot f).getFootPositionFromUnicycle (pose u) = (f.getFootPositionFromUnicycle u).map vector := by
  unfold Foot.getFootPositionFromUnicycle
  rw [ufoot_position hp]
  have : (ufoot f).distanceSet = f.distanceSet := rfl
  rw [this]
  split_ifs <;> rfl

theorem ufoot_state (hp : TrigParity K) (f : Foot K) (s : Step K) :
    (ufoot f).getUnicycleStateFromStep (step s) = (f.getUnicycleStateFromStep s).map pose := by
  unfold Foot.getUnicycleStateFromStep
  rw [ufoot_angle]
  have e1 : (ufoot f).distanceSet = f.distanceSet := rfl
  have e2 : (ufoot f).distance = vector f.distance := rfl
  rw [e1, e2, rot_vector hp]
  split_ifs
  · simp only [step_position, ← vector_sub]; rfl
  · rfl

theorem ufoot_addStep (hp : TrigParity K) (f : Foot K) (u : UState K) (t : K) :
    (ufoot f).addStepFromUnicycle (pose u) t = ((f.addStepFromUnicycle u t).1, ufoot (f.addStepFromUnicycle u t).2) := by
  unfold Foot.addStepFromUnicycle
  have e1 : (ufoot f).distanceSet = f.distanceSet := rfl
  have e2 : (pose u).angle + (ufoot f).yawOffset = -(u.angle + f.yawOffset) := by
    simp only [ufoot, pose]; ring
  have e3 : (ufoot f).fp = footPrint f.fp := rfl
  rw [e1, e2, e3, ufoot_position hp, footPrint_addStep _ _ _ _ "" ""]
  split_ifs <;> rfl

theorem ufoot_addParallel (hp : TrigParity K) (f o : Foot K) (t : K) :
    (ufoot f).addParallelStep (ufoot o) t = ((f.addParallelStep o t).1, ufoot (f.addParallelStep o t).2) := by
  unfold Foot.addParallelStep
  rw [ufoot_last]
  split_ifs
  · rfl
  · cases o.getLastStep with
    | none => rfl
    | some s =>
      simp only [Option.map_some, ufoot_angle]
      have e1 : (ufoot f).distance - (ufoot o).distance = vector (f.distance - o.distance) := (vector_sub _ _).symm
      have e2 : -o.unicycleAngle s + (ufoot f).yawOffset = -(o.unicycleAngle s + f.yawOffset) := by
        simp only [ufoot]; ring
      have e3 : (ufoot f).fp = footPrint f.fp := rfl
      rw [e1, e2, e3, rot_vector hp, step_position, ← vector_add, footPrint_addStep _ _ _ _ "" ""]
      rfl

theorem ufoot_tiny (hp : TrigParity K) (f : Foot K) (u : UState K) : (ufoot f).isTinyStep (pose u) = f.isTinyStep u := by
  unfold Foot.isTinyStep
  rw [ufoot_last]
  cases f.getLastStep with
  | none => rfl
  | some s =>
    simp only [Option.map_some, ufoot_position hp, step_position, ← vector_sub, norm_vector, ufoot_angle, pose_angle]
    have e1 : (ufoot f).minimumStep = f.minimumStep := rfl
    have e2 : (ufoot f).minimumAngle = f.minimumAngle := rfl
    have e3 : |-f.unicycleAngle s - -u.angle| = |f.unicycleAngle s - u.angle| := by
      rw [← abs_neg]; congr 1; ring
    rw [e1, e2, e3]

/-! ## Free space and candidates -/

theorem generators (e : Ellipse K) (p : Vec2 K) : (ellipse e).computeGenerators (vector p) = vector (e.computeGenerators p) := by
  ext <;> simp only [Ellipse.computeGenerators, Mat2.mulVec, ellipse, vector, Vec2.sub_x, Vec2.sub_y] <;> ring

theorem isPointInside (e : Ellipse K) (p : Vec2 K) : (ellipse e).isPointInside (vector p) = e.isPointInside p := by
  unfold Ellipse.isPointInside
  have : (ellipse e).isSet = e.isSet := rfl
  rw [this, generators, norm_vector]

/-- A candidate. -/
def data (d : StepData K) : StepData K := ⟨⟨-d.rPl.x, d.rPl.y⟩, d.deltaAngle, d.deltaTime, vector d.newPosition, vector d.newRelative⟩

/-- The optimisation problem. -/
def problem (p : Problem K) : Problem K := { p with freeSpace := ellipse p.freeSpace }

theorem constraints (p : Problem K) (d : StepData K) :
    (problem p).areConstraintsSatisfied (data d) = p.areConstraintsSatisfied d := by
  unfold Problem.areConstraintsSatisfied
  have h1 : (problem p).lengthOk (data d) = p.lengthOk d := by
    simp only [Problem.lengthOk, problem, data, neg_sq]
  have h2 : (problem p).widthOk (data d) = p.widthOk d := rfl
  have h3 : (problem p).angleOk (data d) = p.angleOk d := rfl
  have h4 : (problem p).ellipseOk (data d) = p.ellipseOk d := by
    simp only [Problem.ellipseOk, problem, data, isPointInside]
  have h5 : (problem p).backwardOk (data d) = p.backwardOk d := by
    simp only [Problem.backwardOk, problem, data, vector, neg_sq]
  rw [h1, h2, h3, h4, h5]

theorem costs (p : Problem K) (d : StepData K) : (problem p).cost (data d) = p.cost d := by
  simp only [Problem.cost, problem, data, neg_sq]

/-! ## The loop -/

/-- The variables of the loop. -/
def loop (s : Loop K) : Loop K :=
  ⟨s.t, s.tOptim, s.minCost, s.pauseTime, s.timeOffset, step s.prevStep, !s.swingLeft, s.firstStep, ufoot s.right, ufoot s.left⟩

theorem loop_swing (s : Loop K) : (loop s).swing = ufoot s.swing := by
  unfold Loop.swing loop
  cases s.swingLeft <;> rfl

theorem loop_stance (s : Loop K) : (loop s).stance = ufoot s.stance := by
  unfold Loop.stance loop
  cases s.swingLeft <;> rfl

theorem loop_setSwing (s : Loop K) (f : Foot K) : (loop s).setSwing (ufoot f) = loop (s.setSwing f) := by
  unfold Loop.setSwing loop
  cases s.swingLeft <;> rfl

/-- Both feet point in direction `a`. -/
structure Ahead (a : K) (l r : Foot K) : Prop where
  left : ∀ s, l.getLastStep = some s → s.angle = a
  right : ∀ s, r.getLastStep = some s → s.angle = a
  leftYaw : l.yawOffset = 0
  rightYaw : r.yawOffset = 0

theorem rPl (hp : TrigParity K) {a : K} {l r : Foot K} (h : Ahead a l r) (b : Bool) (u : UState K) (hu : u.angle = a) :
    Planner.get_rPl (!b) (ufoot r) (ufoot l) (pose u) = (Planner.get_rPl b l r u).map fun v => ⟨-v.x, v.y⟩ := by
  unfold Planner.get_rPl
  cases b
  · simp only [Bool.not_false, if_true, Bool.false_eq_true, if_false, ufoot_last, ufoot_from hp]
    cases hl : l.getLastStep with
    | none => rfl
    | some s =>
      cases hr : r.getFootPositionFromUnicycle u with
      | none => rfl
      | some v =>
        simp only [Option.map_some, step_angle, step_position, ← vector_sub, rotT_vector hp, h.left s hl, hu]
        congr 1
        ext <;> simp [vector, rotT] <;> ring
  · simp only [Bool.not_true, if_true, Bool.false_eq_true, if_false, ufoot_last, ufoot_from hp]
    cases hr : r.getLastStep with
    | none => rfl
    | some s =>
      cases hl : l.getFootPositionFromUnicycle u with
      | none => rfl
      | some v =>
        simp only [Option.map_some, pose_angle, step_position, ← vector_sub, rotT_vector hp, h.right s hr, hu]
        congr 1
        ext <;> simp [vector, rotT] <;> ring

theorem relative (hp : TrigParity K) (b : Bool) (l r : Foot K) (u : UState K) :
    Planner.get_newStepRelativePosition (!b) (ufoot r) (ufoot l) (pose u) =
      (Planner.get_newStepRelativePosition b l r u).map vector := by
  unfold Planner.get_newStepRelativePosition
  cases b
  · simp only [Bool.not_false, if_true, Bool.false_eq_true, if_false, ufoot_last, ufoot_from hp]
    cases l.getLastStep <;> cases r.getFootPositionFromUnicycle u <;> try rfl
    simp only [Option.map_some, step_angle, step_position, ← vector_sub, rotT_vector hp]
  · simp only [Bool.not_true, if_true, Bool.false_eq_true, if_false, ufoot_last, ufoot_from hp]
    cases r.getLastStep <;> cases l.getFootPositionFromUnicycle u <;> try rfl
    simp only [Option.map_some, step_angle, step_position, ← vector_sub, rotT_vector hp]

theorem candidate (hp : TrigParity K) {a : K} {s : Loop K} (h : Ahead a s.left s.right) (u : UState K) (hu : u.angle = a) (t : K) :
    Planner.candidate (loop s) (pose u) t = (Planner.candidate s u t).map data := by
  unfold Planner.candidate
  have e1 : Planner.get_rPl (loop s).swingLeft (loop s).left (loop s).right (pose u) =
    (Planner.get_rPl s.swingLeft s.left s.right u).map fun v => ⟨-v.x, v.y⟩ := rPl hp h _ _ hu
  have e2 : Planner.get_newStepRelativePosition (loop s).swingLeft (loop s).left (loop s).right (pose u) =
    (Planner.get_newStepRelativePosition s.swingLeft s.left s.right u).map vector := relative hp _ _ _ _
  have e3 : (loop s).prevStep = step s.prevStep := rfl
  have e4 : |(-s.stance.unicycleAngle s.prevStep) - -u.angle| = |s.stance.unicycleAngle s.prevStep - u.angle| := by
    rw [← abs_neg]; congr 1; ring
  rw [e1, e2, e3, loop_stance, loop_swing, ufoot_angle, ufoot_position hp, pose_angle, e4]
  cases Planner.get_rPl s.swingLeft s.left s.right u <;>
    cases Planner.get_newStepRelativePosition s.swingLeft s.left s.right u <;> rfl

theorem advance (p : Planner K) (s : Loop K) : (planner p).advance (loop s) = loop (p.advance s) := rfl

theorem refresh (p : Planner K) (s : Loop K) : (planner p).refresh (loop s) = ((p.refresh s).1, loop (p.refresh s).2) := by
  unfold Planner.refresh
  rw [loop_stance, ufoot_last]
  cases s.stance.getLastStep with
  | none => rfl
  | some q => rfl

/-! ## The feet remain ahead -/

theorem last_addStep {f : Foot K} {u : UState K} {t a : K} (h : ∀ s, f.getLastStep = some s → s.angle = a) (hy : f.yawOffset = 0)
    (hu : u.angle = a) : (∀ s, (f.addStepFromUnicycle u t).2.getLastStep = some s → s.angle = a) ∧
      (f.addStepFromUnicycle u t).2.yawOffset = 0 := by
  unfold Foot.addStepFromUnicycle FootPrint.addStep FootPrint.addStepRaw
  by_cases hd : (!f.distanceSet) = true
  · rw [if_pos hd]; exact ⟨h, hy⟩
  · rw [if_neg hd]
    split_ifs
    · exact ⟨h, hy⟩
    · refine ⟨fun s hs => ?_, hy⟩
      simp only [Foot.getLastStep, FootPrint.getLastStep, List.getLast?_append, List.getLast?_singleton, Option.some_or,
        Option.some.injEq] at hs
      rw [← hs]
      show u.angle + f.yawOffset = a
      rw [hy, hu, add_zero]

theorem last_parallel {f o : Foot K} {t a : K} (h : ∀ s, f.getLastStep = some s → s.angle = a) (hy : f.yawOffset = 0)
    (ho : ∀ s, o.getLastStep = some s → s.angle = a) (hoy : o.yawOffset = 0) :
    (∀ s, (f.addParallelStep o t).2.getLastStep = some s → s.angle = a) ∧ (f.addParallelStep o t).2.yawOffset = 0 := by
  unfold Foot.addParallelStep FootPrint.addStep FootPrint.addStepRaw
  split_ifs with ht
  · exact ⟨h, hy⟩
  · cases hl : o.getLastStep with
    | none => exact ⟨h, hy⟩
    | some q =>
      simp only
      refine ⟨fun s hs => ?_, hy⟩
      simp only [Foot.getLastStep, FootPrint.getLastStep, List.getLast?_append, List.getLast?_singleton, Option.some_or,
        Option.some.injEq] at hs
      rw [← hs]
      simp only [Foot.unicycleAngle]
      rw [hy, hoy, ho q hl]; ring

theorem ahead_setSwing {a : K} {s : Loop K} (h : Ahead a s.left s.right) {f : Foot K}
    (hf : ∀ q, f.getLastStep = some q → q.angle = a) (hy : f.yawOffset = 0) : Ahead a (s.setSwing f).left (s.setSwing f).right := by
  unfold Loop.setSwing
  split_ifs
  · exact ⟨hf, h.right, hy, h.rightYaw⟩
  · exact ⟨h.left, hf, h.leftYaw, hy⟩

theorem Ahead.swing {a : K} {s : Loop K} (h : Ahead a s.left s.right) :
    (∀ q, s.swing.getLastStep = some q → q.angle = a) ∧ s.swing.yawOffset = 0 := by
  unfold Loop.swing
  split_ifs
  · exact ⟨h.left, h.leftYaw⟩
  · exact ⟨h.right, h.rightYaw⟩

theorem Ahead.stance {a : K} {s : Loop K} (h : Ahead a s.left s.right) :
    (∀ q, s.stance.getLastStep = some q → q.angle = a) ∧ s.stance.yawOffset = 0 := by
  unfold Loop.stance
  split_ifs
  · exact ⟨h.right, h.rightYaw⟩
  · exact ⟨h.left, h.leftYaw⟩

theorem refresh_feet (p : Planner K) (s : Loop K) : (p.refresh s).2.left = s.left ∧ (p.refresh s).2.right = s.right := by
  unfold Planner.refresh
  split <;> exact ⟨rfl, rfl⟩

theorem ahead_body {p : Planner K} {a : K} {sol : K → UState K} (hsol : ∀ t, (sol t).angle = a) {s : Loop K}
    (h : Ahead a s.left s.right) : Ahead a (p.body sol s).2.left (p.body sol s).2.right := by
  unfold Planner.body
  simp only
  split_ifs with h1 h2 h3 h4
  · exact h
  · obtain ⟨k1, k2⟩ := last_addStep (t := s.tOptim) h.swing.1 h.swing.2 (hsol s.tOptim)
    rcases hx : s.swing.addStepFromUnicycle (sol s.tOptim) s.tOptim with ⟨_ | _, f⟩ <;> rw [hx] at k1 k2
    · exact ahead_setSwing h k1 k2
    · simp only
      rw [(refresh_feet _ _).1, (refresh_feet _ _).2]
      exact ahead_setSwing h k1 k2
  · rcases s.stance.getUnicycleStateFromStep s.prevStep with _ | u
    · exact h
    simp only
    split_ifs
    · rw [(refresh_feet _ _).1, (refresh_feet _ _).2]; exact h
    · obtain ⟨k1, k2⟩ := last_parallel (t := s.t) h.swing.1 h.swing.2 h.stance.1 h.stance.2
      rcases hx : s.swing.addParallelStep s.stance s.t with ⟨_ | _, f⟩ <;> rw [hx] at k1 k2
      · exact ahead_setSwing h k1 k2
      · simp only
        rw [(refresh_feet _ _).1, (refresh_feet _ _).2]
        exact ahead_setSwing h k1 k2
  · rcases Planner.candidate s (sol s.t) (s.t - s.prevStep.impactTime - s.pauseTime) with _ | d
    · exact h
    simp only
    split_ifs <;> exact h
  · exact h

/-- One iteration. -/
theorem body (hp : TrigParity K) {p : Planner K} {a : K} {sol : K → UState K} (hsol : ∀ t, (sol t).angle = a) {s : Loop K}
    (h : Ahead a s.left s.right) :
    (planner p).body (fun t => pose (sol t)) (loop s) = ((p.body sol s).1, loop (p.body sol s).2) := by
  have e1 : (loop s).t = s.t := rfl
  have e2 : (planner p).minTime = p.minTime := rfl
  have e3 : (planner p).initTime = p.initTime := rfl
  have e4 : (loop s).prevStep = step s.prevStep := rfl
  have e5 : (loop s).timeOffset = s.timeOffset := rfl
  have e6 : (loop s).pauseTime = s.pauseTime := rfl
  have e7 : (planner p).dT = p.dT := rfl
  have e8 : (planner p).maxTime = p.maxTime := rfl
  have e9 : (planner p).endTime = p.endTime := rfl
  have e10 : (loop s).minCost = s.minCost := rfl
  have e11 : (planner p).problem = problem p.problem := rfl
  have e12 : (loop s).swingLeft = !s.swingLeft := rfl
  have e13 : (loop s).tOptim = s.tOptim := rfl
  unfold Planner.body
  simp only [e1, e2, e3, e4, e5, e6, e7, e8, e9, e10, e11, e12, e13, loop_swing, loop_stance, ufoot_tiny hp, step_impactTime]
  by_cases h1 : p.minTime ≤ s.t - s.prevStep.impactTime ∧ p.initTime + s.timeOffset < s.t
  swap
  · simp only [if_neg h1]; rfl
  simp only [if_pos h1]
  by_cases h2 : s.swing.isTinyStep (sol s.t) = true
  · simp only [if_pos h2]; rfl
  simp only [if_neg h2]
  by_cases h3 : p.maxTime < s.t - s.prevStep.impactTime - s.pauseTime ∨ s.t = p.endTime
  · simp only [if_pos h3]
    by_cases h4 : 0 < s.tOptim
    · simp only [if_pos h4, ufoot_addStep hp]
      rcases s.swing.addStepFromUnicycle (sol s.tOptim) s.tOptim with ⟨_ | _, f⟩
      · simp only [loop_setSwing]
      · simp only [loop_setSwing]
        rw [← refresh]
        rfl
    · simp only [if_neg h4, ufoot_state hp]
      rcases s.stance.getUnicycleStateFromStep s.prevStep with _ | u
      · rfl
      simp only [Option.map_some, ufoot_tiny hp]
      by_cases h6 : s.swing.isTinyStep u = true
      · simp only [if_pos h6]
        rw [← refresh]
        rfl
      · simp only [if_neg h6, ufoot_addParallel hp]
        rcases s.swing.addParallelStep s.stance s.t with ⟨_ | _, f⟩
        · simp only [loop_setSwing]
        · simp only [loop_setSwing]
          rw [← refresh]
          rfl
  · simp only [if_neg h3, candidate hp h _ (hsol _)]
    rcases Planner.candidate s (sol s.t) (s.t - s.prevStep.impactTime - s.pauseTime) with _ | d
    · rfl
    simp only [Option.map_some, constraints, costs]
    split_ifs <;> rfl

/-- The outcome of the loop. -/
def loopResult : Planner.LoopResult K → Planner.LoopResult K
  | .exit s => .exit (loop s)
  | .failed s => .failed (loop s)
  | .outOfFuel => .outOfFuel

theorem run_loop (hp : TrigParity K) {p : Planner K} {a : K} {sol : K → UState K} (hsol : ∀ t, (sol t).angle = a) (n : Nat) :
    ∀ {s : Loop K}, Ahead a s.left s.right →
      (planner p).loop (fun t => pose (sol t)) n (loop s) = loopResult (p.loop sol n s) := by
  induction n with
  | zero => intro s h; rfl
  | succ n ih =>
    intro s h
    simp only [Planner.loop]
    have e1 : (loop s).t = s.t := rfl
    have e2 : (planner p).endTime = p.endTime := rfl
    rw [e1, e2, body hp hsol h]
    have hs := ahead_body (p := p) hsol h
    split_ifs
    · rcases hb : p.body sol s with ⟨_ | _, s'⟩
      · rfl
      · rw [hb] at hs
        exact ih hs
    · rfl

theorem ahead_loop {p : Planner K} {a : K} {sol : K → UState K} (hsol : ∀ t, (sol t).angle = a) (n : Nat) : ∀ {s s' : Loop K},
    Ahead a s.left s.right → p.loop sol n s = .exit s' → Ahead a s'.left s'.right := by
  induction n with
  | zero => intro s s' _ h; simp [Planner.loop] at h
  | succ n ih =>
    intro s s' hs h
    simp only [Planner.loop] at h
    have hb := ahead_body (p := p) hsol hs
    split_ifs at h
    · rcases hx : p.body sol s with ⟨_ | _, s1⟩ <;> rw [hx] at h hb
      · simp at h
      · exact ih hb h
    · simp only [Planner.LoopResult.exit.injEq] at h
      subst h; exact hs

theorem terminal (hp : TrigParity K) {p : Planner K} {a : K} {l r : Foot K} (h : Ahead a l r) (b : Bool) (u : UState K) (hu : u.angle = a) :
    (planner p).addTerminalStep (!b) (ufoot r) (ufoot l) (pose u) =
      ((p.addTerminalStep b l r u).1, ufoot (p.addTerminalStep b l r u).2.2, ufoot (p.addTerminalStep b l r u).2.1) := by
  have e1 : (planner p).initTime = p.initTime := rfl
  have e2 : (planner p).nominalTime = p.nominalTime := rfl
  have e3 : (planner p).problem = problem p.problem := rfl
  have key : ∀ (stance swing : Foot K) (both both' : Foot K → Foot K → Foot K × Foot K)
      (_ : ∀ x y, both' (ufoot x) (ufoot y) = (ufoot (both x y).2, ufoot (both x y).1)),
      (planner p).terminalWith (!b) (ufoot r) (ufoot l) (pose u) (ufoot stance) (ufoot swing) both' =
      (fun q : Bool × Foot K × Foot K => (q.1, ufoot q.2.2, ufoot q.2.1)) (p.terminalWith b l r u stance swing both) := by
    intro stance swing both both' hboth
    unfold Planner.terminalWith
    rw [ufoot_last, rPl hp h b u hu, relative hp]
    cases hl : stance.getLastStep with
    | none => rfl
    | some prev =>
      simp only [Option.map_some]
      cases Planner.get_rPl b l r u with
      | none => rfl
      | some q =>
        cases Planner.get_newStepRelativePosition b l r u with
        | none => rfl
        | some rel =>
          simp only [Option.map_some, e1, e2, e3, step_impactTime, ufoot_angle, ufoot_position hp, pose_angle, ufoot_tiny hp]
          generalize max (p.initTime + p.nominalTime) (prev.impactTime + p.nominalTime) = T
          have e4 : |-u.angle - -stance.unicycleAngle prev| = |u.angle - stance.unicycleAngle prev| := by
            rw [← abs_neg]; congr 1; ring
          have hdata : (⟨⟨-q.x, q.y⟩, |-u.angle - -stance.unicycleAngle prev|, T - prev.impactTime,
              vector (swing.footPosition u), vector rel⟩ : StepData K) =
              data ⟨q, |u.angle - stance.unicycleAngle prev|, T - prev.impactTime, swing.footPosition u, rel⟩ := by
            rw [e4]; rfl
          rw [hdata, constraints]
          split_ifs
          · rw [ufoot_addStep hp]
            rcases swing.addStepFromUnicycle u T with ⟨_ | _, sw⟩
            · simp only [hboth]
            · simp only [ufoot_addStep hp, hboth]
          · rw [ufoot_state hp]
            cases stance.getUnicycleStateFromStep prev with
            | none => rfl
            | some u' =>
              simp only [Option.map_some, ufoot_tiny hp]
              split_ifs
              · rfl
              · rw [ufoot_addParallel hp]
                simp only [hboth]
  rw [Planner.addTerminalStep_eq, Planner.addTerminalStep_eq]
  cases b
  · exact key l r (fun sw st => (st, sw)) (fun sw st => (sw, st)) fun _ _ => rfl
  · exact key r l (fun sw st => (sw, st)) (fun sw st => (st, sw)) fun _ _ => rfl

end Uni.Spec.Mirror
