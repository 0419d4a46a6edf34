import Verif.Lemmas.MirrorSettings

/-! # C100: a plan in the mirror -/

set_option autoImplicit false
set_option linter.unusedSectionVars false

namespace Uni.Spec
open Uni

section
variable {K : Type} [Field K] [LinearOrder K] [IsStrictOrderedRing K] [FloorRing K] [Trig K]
variable {p p' : Planner K} {integ : Integrator K} {left right : FootPrint K}

/-- C100 (partial).  Full statement: if left and right are exchanged in the footprints and in the settings of the planner, the planned
steps are those of the mirror.  Missing: motions that turn, for which this is false of the code (`C100_turning_violated`). -/
theorem C100_straight_partial (hp : TrigParity K) (hm : PlannerMirrored p p') (hi : IntegratorMirrored p integ)
    (hn : NeverTurns p integ) (hf : FeetAhead p left right) (fuel : Nat) (t0 t1 : K) :
    PlanMirrored (p.computeNewSteps integ fuel left right t0 t1)
      (p'.computeNewSteps integ fuel (Mirror.footPrint right) (Mirror.footPrint left) t0 t1) :=
  Mirror.planMirrored hp hm hi hn fuel hf t0 t1

private theorem run_swing (q : Planner K) (b : Bool) (o : Planner.Op K) :
    ({ q with swingLeft := b } : Planner K).run o = ((q.run o).1, { (q.run o).2 with swingLeft := b }) := by
  cases o <;> simp only [Planner.run, Planner.setPerson, Planner.setSaturationsConservativeFactors, Planner.setStepTimings,
    Planner.setPlannerPeriod, Planner.setMinimumAngleForNewSteps, Planner.setMinimumStepLength, Planner.setFreeSpaceEllipseMethod,
    Planner.onAllControllers, Planner.setCostWeights]
  case setMaximumIntegratorStepSize d =>
    simp only [Planner.setMaximumIntegratorStepSize]
    rcases q.ctrl.nav.setTimeStep d with ⟨_ | _, n⟩
    · rfl
    · simp only; split_ifs <;> rfl
  case setMaxStepLength x =>
    simp only [Planner.setMaxStepLength]
    rcases q.problem.setMaxLength x with ⟨_ | _, n⟩
    · rfl
    · simp only; rcases n.setMaxLengthBackward x with ⟨_ | _, m⟩ <;> rfl
  case setMaxStepLengthBackward x y =>
    simp only [Planner.setMaxStepLengthBackward]
    split_ifs
    · rfl
    rcases q.problem.setMaxLength x with ⟨_ | _, n⟩
    · rfl
    · simp only; rcases n.setMaxLengthBackward (x * y) with ⟨_ | _, m⟩ <;> rfl
  case setMaxAngleVariation x =>
    simp only [Planner.setMaxAngleVariation]
    rcases q.problem.setMaxAngleVariation x with ⟨_ | _, n⟩ <;> rfl
  case setWidthSetting x y =>
    simp only [Planner.setWidthSetting]
    split_ifs
    · rfl
    · rfl
    rcases q.problem.setMinWidth x with ⟨_ | _, n⟩ <;> rfl
  case setFreeSpaceEllipse e =>
    simp only [Planner.setFreeSpaceEllipse, Planner.setPerson]
    by_cases h1 : q.method = .referenceOnly ∨ q.method = .referenceAndFootsteps
    · simp only [h1, if_true]
      by_cases h2 : (q.ctrl.person.setFreeSpaceEllipse e).1 = true
      · simp only [h2, if_true]
        split_ifs <;> rfl
      · simp only [h2, Bool.false_eq_true, if_false]
    · simp only [h1, if_false, if_true]
      split_ifs <;> rfl
  all_goals (try split_ifs) <;> rfl

/-- C100: settings with left and right exchanged are accepted or refused as the original ones are, and the planner remains the one of
the mirror. -/
theorem C100_settings (hp : TrigParity K) (hm : PlannerMirrored p p') (o : Planner.Op K) :
    (p'.run (Mirror.plannerOp o)).1 = (p.run o).1 ∧ PlannerMirrored (p.run o).2 (p'.run (Mirror.plannerOp o)).2 := by
  have hm' : p' = { Mirror.planner p with swingLeft := p'.swingLeft } := hm
  rw [hm', run_swing, Mirror.settings hp]
  exact ⟨rfl, rfl⟩

/-- C100: a new planner starts with the left foot; the one of the mirror is the one told to start with the right foot. -/
theorem C100_new : PlannerMirrored (Planner.new : Planner K) (Planner.new.run (.startWithLeft false)).2 := by
  show _ = _
  simp [Planner.new, Planner.run, Mirror.planner, Mirror.controllers, Mirror.person, Mirror.control, PersonCtrl.new, DirectCtrl.new,
    NavCtrl.new, Mirror.desired, Mirror.ellipse_clear, Problem.new, Mirror.vector]
  rfl

/-- C100: planners with the same history, up to the mirror. -/
theorem C100_history (hp : TrigParity K) (ops : List (Planner.Op K)) : PlannerMirrored (Planner.new.runAll ops)
    ((Planner.new.run (.startWithLeft false)).2.runAll (ops.map Mirror.plannerOp)) := by
  have key : ∀ (ops : List (Planner.Op K)) (p p' : Planner K), PlannerMirrored p p' →
      PlannerMirrored (p.runAll ops) (p'.runAll (ops.map Mirror.plannerOp)) := by
    intro ops
    induction ops with
    | nil => intro p p' h; exact h
    | cons o ops ih => intro p p' h; exact ih _ _ (C100_settings hp h o).2
  exact key ops _ _ C100_new

/-- C100: with the direct control, and when following a person in an unlimited space, the motion in the mirror is the reflected
motion, whether it turns or not. -/
theorem C100_motion (hp : TrigParity K) (h : p.controller = .direct ∨
    p.controller = .personFollowing ∧ p.ctrl.person.outer.isSet = false ∧ p.ctrl.person.inner.isSet = false)
    (durations : K → K → List K) (garbage : K) : IntegratorMirrored p (Planner.euler durations garbage) :=
  Mirror.euler_mirrored hp h durations garbage

/-- C100: commands without rotation, executed by the direct control. -/
theorem C100_direct_partial (hp : TrigParity K) (hm : PlannerMirrored p p') (h : p.controller = .direct)
    (hw : p.ctrl.direct.desired.angular = 0) (hf : FeetAhead p left right) (durations : K → K → List K) (garbage : K) (fuel : Nat)
    (t0 t1 : K) :
    PlanMirrored (p.computeNewSteps (Planner.euler durations garbage) fuel left right t0 t1)
      (p'.computeNewSteps (Planner.euler durations garbage) fuel (Mirror.footPrint right) (Mirror.footPrint left) t0 t1) :=
  C100_straight_partial hp hm (C100_motion hp (Or.inl h) durations garbage) (Mirror.euler_straight h hw durations garbage) hf fuel t0 t1

end

/-! ## The code is not symmetric -/

/-- The distance between the feet that the code compares with the minimum width is not the same in the mirror: it is measured in the
frame of the foot on the ground if the left foot swings, and in the frame of the unicycle after the step if the right one does. -/
theorem C100_width_violated : ∃ (l r : Foot ℝ) (u : UState ℝ) (a b : Vec2 ℝ),
    Planner.get_rPl true l r u = some a ∧ Planner.get_rPl false (Mirror.ufoot r) (Mirror.ufoot l) (Mirror.pose u) = some b ∧
      a.y = 1 / 2 ∧ b.y = -3 / 2 := by
  refine ⟨⟨⟨[], ""⟩, ⟨0, 1 / 2⟩, true, 0, 0, 0⟩, ⟨⟨[⟨⟨0, -1 / 2⟩, 0, 0, ""⟩], ""⟩, ⟨0, -1 / 2⟩, true, 0, 0, 0⟩, ⟨⟨2, 0⟩, Real.pi / 2⟩,
    ⟨3 / 2, 1 / 2⟩, ⟨-1 / 2, -3 / 2⟩, ?_, ?_, rfl, rfl⟩
  · simp [Planner.get_rPl, Foot.getLastStep, FootPrint.getLastStep, Foot.getFootPositionFromUnicycle, Foot.footPosition, rot, rotT,
      Trig.cos, Trig.sin, Vec2.ext_iff]
    norm_num
  · simp [Planner.get_rPl, Foot.getLastStep, FootPrint.getLastStep, Foot.getFootPositionFromUnicycle, Foot.footPosition, rot, rotT,
      Trig.cos, Trig.sin, Vec2.ext_iff, Mirror.ufoot, Mirror.pose, Mirror.footPrint, Mirror.step, Mirror.vector]
    norm_num

/-! ## Concrete plans -/

/-- Rational points of the circle instead of the trigonometric functions. -/
private local instance mirrorTrig : Trig ℚ :=
  ⟨fun x => (1 - x ^ 2) / (1 + x ^ 2), fun x => 2 * x / (1 + x ^ 2), fun q => Nat.sqrt (⌊q * 10 ^ 8⌋₊) / 10 ^ 4, fun _ => 0, fun _ => 0,
    fun _ _ => 0, 22 / 7⟩

private theorem mirrorTrig_parity : TrigParity ℚ :=
  ⟨fun x => by simp [Trig.cos], fun x => by simp only [Trig.sin, neg_sq]; ring⟩

/-- Integration steps of one second. -/
private def seconds : Integrator ℚ := Planner.euler (fun T h => List.replicate ⌈T / h⌉₊ h) 0

/-- Settings for a walk with the given command. -/
private def commanded (v : Control ℚ) : List (Planner.Op ℚ) :=
  [.setPlannerPeriod 1, .setMaximumIntegratorStepSize 1, .setUnicycleController .direct, .setDesiredDirectControl v,
    .setWidthSetting (13 / 100) (14 / 100)]

/-- The value returned and the landing times of both feet. -/
private def landingTimes : PlanResult ℚ → Option (Bool × List ℚ × List ℚ)
  | .done ok _ l r => some (ok, l.steps.map Step.impactTime, r.steps.map Step.impactTime)
  | _ => none

private theorem landingTimes_mirrored {x y : PlanResult ℚ} (h : PlanMirrored x y) :
    landingTimes y = (landingTimes x).map fun q => (q.1, q.2.2, q.2.1) := by
  cases x with
  | done ok p l r =>
    obtain ⟨p', -, rfl⟩ := h
    simp [landingTimes, Mirror.footPrint, Function.comp_def, Mirror.step]
  | ub w => rw [show y = _ from h]; rfl
  | outOfFuel => rw [show y = _ from h]; rfl

/-- Commanded to turn to the left and to start with the left foot the robot walks; commanded to turn to the right and to start with the
right foot it does not lift a foot. -/
theorem C100_turning_violated : ∃ (ops : List (Planner.Op ℚ)) (integ : Integrator ℚ) (t : ℚ),
    TrigParity ℚ ∧ IntegratorMirrored (Planner.new.runAll ops) integ ∧
    FeetAhead (Planner.new.runAll ops) FootPrint.empty FootPrint.empty ∧
    landingTimes ((Planner.new.runAll ops).computeNewSteps integ 100 .empty .empty 0 t) = some (true, [0, 7, 15], [0, 11]) ∧
    landingTimes (((Planner.new.run (.startWithLeft false)).2.runAll (ops.map Mirror.plannerOp)).computeNewSteps integ 100
      .empty .empty 0 t) = some (true, [0], [0]) ∧
    ¬ PlanMirrored ((Planner.new.runAll ops).computeNewSteps integ 100 .empty .empty 0 t)
      (((Planner.new.run (.startWithLeft false)).2.runAll (ops.map Mirror.plannerOp)).computeNewSteps integ 100 .empty .empty 0 t) := by
  have h1 : landingTimes ((Planner.new.runAll (commanded ⟨1 / 50, 1 / 50, 0⟩)).computeNewSteps seconds 100 .empty .empty 0 12) =
      some (true, [0, 7, 15], [0, 11]) := by decide +kernel
  have h2 : landingTimes (((Planner.new.run (.startWithLeft false)).2.runAll ((commanded ⟨1 / 50, 1 / 50, 0⟩).map
      Mirror.plannerOp)).computeNewSteps seconds 100 .empty .empty 0 12) = some (true, [0], [0]) := by decide +kernel
  refine ⟨commanded ⟨1 / 50, 1 / 50, 0⟩, seconds, 12, mirrorTrig_parity,
    C100_motion mirrorTrig_parity (Or.inl (by decide +kernel)) _ _, ⟨by decide +kernel, by decide +kernel, ?_⟩, h1, h2, ?_⟩
  · intro l r hl; simp [FootPrint.empty] at hl
  · intro h
    have := landingTimes_mirrored h
    rw [h1, h2] at this
    simp at this

/-- Non-vacuity: a walk straight on, and the one of the mirror, which starts with the other foot. -/
example : landingTimes ((Planner.new.runAll (commanded ⟨1 / 50, 0, 0⟩)).computeNewSteps seconds 100 .empty .empty 0 12) =
      some (true, [0, 7, 15], [0, 11]) ∧
    PlanMirrored ((Planner.new.runAll (commanded ⟨1 / 50, 0, 0⟩)).computeNewSteps seconds 100 .empty .empty 0 12)
      (((Planner.new.run (.startWithLeft false)).2.runAll ((commanded ⟨1 / 50, 0, 0⟩).map Mirror.plannerOp)).computeNewSteps seconds 100
        (Mirror.footPrint .empty) (Mirror.footPrint .empty) 0 12) := by
  refine ⟨by decide +kernel, C100_direct_partial mirrorTrig_parity (C100_history mirrorTrig_parity _) (by decide +kernel)
    (by decide +kernel) ⟨by decide +kernel, by decide +kernel, ?_⟩ _ _ _ _ _⟩
  intro l r hl; simp [FootPrint.empty] at hl

end Uni.Spec
