import Verif.Lemmas.MirrorPlan
import Verif.Model.PlannerSettings
import Mathlib.Data.List.GetD

/-! # Plans in the mirror: settings and motion -/

set_option autoImplicit false
set_option linter.unusedSectionVars false

namespace Uni.Spec.Mirror
variable {K : Type} [Field K] [LinearOrder K] [IsStrictOrderedRing K] [FloorRing K] [Trig K]

/-! ## Settings -/

theorem ellipse_clear : ellipse (Ellipse.clear : Ellipse K) = Ellipse.clear := by
  simp [ellipse, Ellipse.clear, Mat2.one, vector_nil]

theorem ellipse_set (hp : TrigParity K) (e : Ellipse K) (a b c x y : K) :
    (ellipse e).setEllipse a b (-c) x (-y) = ((e.setEllipse a b c x y).1, ellipse (e.setEllipse a b c x y).2) := by
  unfold Ellipse.setEllipse
  split_ifs
  · rfl
  · simp only [ellipse, Ellipse.axesMatrix, hp.cos, hp.sin, vector, Mat2.inv, Mat2.det]
    congr 2
    · congr 1 <;> ring
    · have : Trig.cos c * a * (Trig.cos c * b) - - -Trig.sin c * b * (-Trig.sin c * a) =
        Trig.cos c * a * (Trig.cos c * b) - -Trig.sin c * b * (Trig.sin c * a) := by ring
      rw [this]
      congr 1 <;> ring

theorem person_space (hp : TrigParity K) (c : PersonCtrl K) (e : Ellipse K) :
    (person c).setFreeSpaceEllipse (ellipse e) = ((c.setFreeSpaceEllipse e).1, person (c.setFreeSpaceEllipse e).2) := by
  unfold PersonCtrl.setFreeSpaceEllipse
  have e1 : (ellipse e).isSet = e.isSet := rfl
  have e2 : (ellipse e).semiMajor = e.semiMajor := rfl
  have e3 : (ellipse e).semiMinor = e.semiMinor := rfl
  have e4 : (person c).offsetMajor = c.offsetMajor := rfl
  have e5 : (person c).offsetMinor = c.offsetMinor := rfl
  have e6 : (ellipse e).angle = -e.angle := rfl
  have e7 : (ellipse e).d.x = e.d.x := rfl
  have e8 : (ellipse e).d.y = -e.d.y := rfl
  simp only [e1, e2, e3, e4, e5, e6, e7, e8, ellipse_set hp]
  split_ifs <;> rfl

theorem settings (hp : TrigParity K) (p : Planner K) (o : Planner.Op K) :
    (planner p).run (plannerOp o) = ((p.run o).1, planner (p.run o).2) := by
  have all : ∀ f : BaseCtrl K → Bool × BaseCtrl K,
      (planner p).onAllControllers f = ((p.onAllControllers f).1, planner (p.onAllControllers f).2) := by
    intro f
    unfold Planner.onAllControllers
    have e1 : (planner p).ctrl.person.base = p.ctrl.person.base := rfl
    have e2 : (planner p).ctrl.directBase = p.ctrl.directBase := rfl
    have e3 : (planner p).ctrl.nav.base = p.ctrl.nav.base := rfl
    simp only [e1, e2, e3]
    split_ifs <;> rfl
  cases o <;> simp only [plannerOp, Planner.run]
  case setDesiredPersonDistance x y =>
    simp only [Planner.setPerson, PersonCtrl.setPersonDistance]; split_ifs <;> rfl
  case setPersonFollowingControllerGain g => simp only [Planner.setPerson, PersonCtrl.setGain]; split_ifs <;> rfl
  case setSlowWhenTurnGain g => exact all _
  case setSlowWhenBackwardFactor g => exact all _
  case setSlowWhenSidewaysFactor g => exact all _
  case addPoint t y yDot =>
    have := person_point p.ctrl.person ⟨t, y, yDot⟩
    show (planner p).setPerson ((person p.ctrl.person).setDesiredPoint (desired ⟨t, y, yDot⟩)) = _
    rw [this]; rfl
  case clearDesiredTrajectory => rfl
  case setDesiredDirectControl v => rfl
  case setSaturationsConservativeFactors l a =>
    simp only [Planner.setSaturationsConservativeFactors]; split_ifs <;> rfl
  case setMaximumIntegratorStepSize d =>
    simp only [Planner.setMaximumIntegratorStepSize, NavCtrl.setTimeStep]
    by_cases h : d = 0
    · rw [if_pos h, if_pos h]
    · rw [if_neg h, if_neg h]
      simp only
      split_ifs <;> rfl
  case setMaxStepLength x =>
    have e1 : (planner p).problem = problem p.problem := rfl
    simp only [Planner.setMaxStepLength, e1, Problem.setMaxLength, Problem.setMaxLengthBackward]
    by_cases h : x < 0
    · simp only [if_pos h]; rfl
    · simp only [if_neg h]; rfl
  case setMaxStepLengthBackward x m =>
    have e1 : (planner p).problem = problem p.problem := rfl
    simp only [Planner.setMaxStepLengthBackward, e1, Problem.setMaxLength, Problem.setMaxLengthBackward]
    by_cases h0 : m < 0
    · simp only [if_pos h0]
    simp only [if_neg h0]
    by_cases h : x < 0
    · simp only [if_pos h]; rfl
    simp only [if_neg h]
    by_cases h2 : x * m < 0
    · simp only [if_pos h2]; rfl
    · simp only [if_neg h2]; rfl
  case setMaxAngleVariation x =>
    have e1 : (planner p).problem = problem p.problem := rfl
    simp only [Planner.setMaxAngleVariation, e1, Problem.setMaxAngleVariation]
    split_ifs <;> rfl
  case setCostWeights a b =>
    have e1 : (planner p).problem = problem p.problem := rfl
    simp only [Planner.setCostWeights, e1, Problem.setCostWeights]
    split_ifs <;> rfl
  case setStepTimings a b c => simp only [Planner.setStepTimings]; split_ifs <;> rfl
  case setPlannerPeriod x => simp only [Planner.setPlannerPeriod]; split_ifs <;> rfl
  case setMinimumAngleForNewSteps x => simp only [Planner.setMinimumAngleForNewSteps]; split_ifs <;> rfl
  case setMinimumStepLength x => simp only [Planner.setMinimumStepLength]; split_ifs <;> rfl
  case setWidthSetting a b =>
    have e1 : (planner p).problem = problem p.problem := rfl
    simp only [Planner.setWidthSetting, e1, Problem.setMinWidth]
    by_cases h0 : b < 0
    · simp only [if_pos h0]
    simp only [if_neg h0]
    by_cases h1 : b < a
    · simp only [if_pos h1]
    simp only [if_neg h1]
    by_cases h2 : a < 0
    · simp only [if_pos h2]; rfl
    · simp only [if_neg h2]; rfl
  case addTerminalStep b => rfl
  case startWithLeft b => rfl
  case resetStartingFootIfStill b => rfl
  case setLeftFootYawOffset x => rfl
  case setRightFootYawOffset x => rfl
  case setFreeSpaceEllipseMethod m =>
    have h1 := person_space hp p.ctrl.person Ellipse.clear
    rw [ellipse_clear] at h1
    simp only [Planner.setFreeSpaceEllipseMethod]
    have e1 : (planner p).ctrl.person = person p.ctrl.person := rfl
    rw [e1, h1]
    simp only [planner, Problem.setFreeSpaceEllipse, ellipse_clear]
    rfl
  case setFreeSpaceEllipse e =>
    simp only [Planner.setFreeSpaceEllipse, Planner.setPerson]
    have e1 : (planner p).ctrl.person = person p.ctrl.person := rfl
    have e2 : (planner p).method = p.method := rfl
    simp only [e1, e2, person_space hp]
    by_cases hm : p.method = .referenceOnly ∨ p.method = .referenceAndFootsteps
    · simp only [hm, if_true]
      by_cases ht : (p.ctrl.person.setFreeSpaceEllipse e).1 = true
      · simp only [if_pos ht]
        by_cases hk : p.method = .footstepsOnly ∨ p.method = .referenceAndFootsteps
        · simp only [if_pos hk]; rfl
        · simp only [if_neg hk]; rfl
      · simp only [if_neg ht]; rfl
    · simp only [hm, if_false, if_true, e2]
      by_cases hk : p.method = .footstepsOnly ∨ p.method = .referenceAndFootsteps
      · simp only [if_pos hk]; rfl
      · simp only [if_neg hk]
  case setFreeSpaceEllipseConservativeFactor f => simp only [Planner.setPerson, PersonCtrl.setConservativeFactor]; split_ifs <;> rfl
  case setInnerFreeSpaceEllipseOffset o =>
    simp only [Planner.setPerson, PersonCtrl.setInnerOffsets]
    split_ifs
    · rfl
    · have := person_space hp { p.ctrl.person with offsetMajor := o, offsetMinor := o } p.ctrl.person.outer
      show (planner p).setPerson ((person { p.ctrl.person with offsetMajor := o, offsetMinor := o }).setFreeSpaceEllipse
        (ellipse p.ctrl.person.outer)) = _
      rw [this]; rfl
  case setInnerFreeSpaceEllipseOffsets a b =>
    simp only [Planner.setPerson, PersonCtrl.setInnerOffsets]
    split_ifs
    · rfl
    · rfl
    · have := person_space hp { p.ctrl.person with offsetMajor := a, offsetMinor := b } p.ctrl.person.outer
      show (planner p).setPerson ((person { p.ctrl.person with offsetMajor := a, offsetMinor := b }).setFreeSpaceEllipse
        (ellipse p.ctrl.person.outer)) = _
      rw [this]; rfl
  case setUnicycleController c => rfl
  case setNavigationPath path =>
    simp only [NavCtrl.setNavigationPath, List.length_map]
    split_ifs <;> rfl

/-! ## The motion -/

theorem saturateSym_neg (x s : K) : BaseCtrl.saturateSym (-x) s = -BaseCtrl.saturateSym x s := by
  unfold BaseCtrl.saturateSym BaseCtrl.saturate
  split_ifs with h1 h2 h3 h4 h5 h6 h7 h8 h9 <;> (try simp only [neg_neg]) <;> (try (exfalso; push Not at h1; linarith)) <;> rfl

theorem doControl (c : BaseCtrl K) (v : Option (Control K)) : c.doControl (v.map control) = (c.doControl v).map control := by
  unfold BaseCtrl.doControl
  cases v with
  | none => rfl
  | some v =>
    simp only [Option.map_some, control, saturateSym_neg, BaseCtrl.velocitySaturation, neg_mul_neg]

theorem direct_control (p : Planner K) (t : K) :
    (planner p).ctrl.direct.control (planner p).ctrl.directBase t = (p.ctrl.direct.control p.ctrl.directBase t).map control := by
  unfold DirectCtrl.control
  rw [← doControl]
  congr 1
  unfold DirectCtrl.doUnicycleControl DirectCtrl.setFeedback
  show (if t < p.ctrl.direct.deactivationEnd then _ else _) = Option.map control (if t < p.ctrl.direct.deactivationEnd then _ else _)
  split_ifs
  · simp [control]
  · rfl

theorem person_control (hp : TrigParity K) (c : PersonCtrl K) (ho : c.outer.isSet = false) (hi : c.inner.isSet = false) (g t : K)
    (s : UState K) :
    ((person c).setFeedback t (pose s).position (pose s).angle).doUnicycleControl g =
      ((c.setFeedback t s.position s.angle).doUnicycleControl g).map control := by
  have e1 : (person c).setFeedback t (pose s).position (pose s).angle = person (c.setFeedback t s.position s.angle) := by
    unfold PersonCtrl.setFeedback
    have := person_position hp c s.position s.angle
    simp only [pose_position, pose_angle]
    rw [this]
    rfl
  rw [e1]
  have o1 : (c.setFeedback t s.position s.angle).outer.isSet = false := ho
  have i1 : (c.setFeedback t s.position s.angle).inner.isSet = false := hi
  generalize c.setFeedback t s.position s.angle = d at o1 i1 ⊢
  have href : ∀ (e : PersonCtrl K), e.outer.isSet = false → e.inner.isSet = false → ∀ x a y, e.referenceInEllipse g x a y = y := by
    intro e h1 h2 x a y
    unfold PersonCtrl.referenceInEllipse
    simp only [h1, h2, Bool.false_and, Bool.false_eq_true, if_false]
    ext <;> simp <;> ring
  have hx : ∀ e : PersonCtrl K, e.outer.isSet = false → e.inner.isSet = false → e.doUnicycleControl g =
      (PersonCtrl.desiredPoint e.traj e.time).map fun r => e.controlLaw r.1 r.2 := by
    intro e h1 h2
    unfold PersonCtrl.doUnicycleControl PersonCtrl.getDesiredPointInFreeSpaceEllipse PersonCtrl.getDesiredPoint
    cases PersonCtrl.desiredPoint e.traj e.time with
    | ok r =>
      show Out.ok (e.controlLaw (e.referenceInEllipse g e.unicyclePosition e.theta r.1) r.2) = _
      rw [href e h1 h2]; rfl
    | fail => rfl
    | ub w => rfl
  rw [hx d o1 i1, hx (person d) o1 i1]
  have e2 : (person d).traj = d.traj.map desired := rfl
  have e3 : (person d).time = d.time := rfl
  rw [e2, e3, desiredPoint]
  cases PersonCtrl.desiredPoint d.traj d.time with
  | ok r =>
    simp only [Out.map, both]
    congr 1
    simp only [PersonCtrl.controlLaw, person, control, vector, hp.sin, hp.cos]
    congr 1
    · simp; ring
    · simp; ring
    · simp
  | fail => rfl
  | ub w => rfl

theorem eulerStep_pose (hp : TrigParity K) (d : K) (s : UState K) (v : Control K) :
    eulerStep d (pose s) (control v) = pose (eulerStep d s v) := by
  unfold eulerStep dynamics pose control
  ext <;> simp [vector, hp.cos, hp.sin] <;> ring

theorem trajectory_pose (hp : TrigParity K) {f f' : K → UState K → Option (Control K)}
    (hf : ∀ t s, f' t (pose s) = (f t s).map control) : ∀ (ds : List K) (t : K) (s : UState K),
    Planner.trajectory f' ds t (pose s) = (Planner.trajectory f ds t s).map (List.map pose)
  | [], t, s => rfl
  | d :: ds, t, s => by
    simp only [Planner.trajectory, hf]
    cases f t s with
    | none => rfl
    | some v =>
      simp only [Option.map_some, Option.bind_some, eulerStep_pose hp]
      rw [trajectory_pose hp hf ds]
      cases Planner.trajectory f ds (t + d) (eulerStep d s v) <;> rfl

theorem euler_mirrored (hp : TrigParity K) {p : Planner K} (h : p.controller = .direct ∨
    p.controller = .personFollowing ∧ p.ctrl.person.outer.isSet = false ∧ p.ctrl.person.inner.isSet = false)
    (durations : K → K → List K) (g : K) : IntegratorMirrored p (Planner.euler durations g) := by
  intro q u a b hq
  have hctrl : ∀ t s, (planner q).controlAt g t (pose s) = (q.controlAt g t s).map control := by
    intro t s
    unfold Planner.controlAt
    have e1 : (planner q).controller = q.controller := rfl
    rw [e1, hq.controller]
    rcases h with h | ⟨h, ho, hi⟩
    · rw [h]; exact direct_control q t
    · rw [h]
      simp only
      have e2 : (planner q).ctrl.person = person q.ctrl.person := rfl
      rw [e2, person_control hp q.ctrl.person (by rw [hq.space.1]; exact ho) (by rw [hq.space.2]; exact hi) g t s]
      cases (q.ctrl.person.setFeedback t s.position s.angle).doUnicycleControl g with
      | ok v => exact doControl q.ctrl.person.base (some v)
      | fail => rfl
      | ub w => rfl
  unfold Planner.euler
  have e3 : (planner q).integratorStep = q.integratorStep := rfl
  rw [e3, trajectory_pose hp hctrl]
  refine Prod.ext rfl ?_
  cases Planner.trajectory (q.controlAt g) (durations (b - a) q.integratorStep) a u with
  | none => rfl
  | some l =>
    simp only [Option.map_some, Option.some.injEq]
    funext t
    unfold Planner.solutionAt
    rw [List.length_map, List.getD_map]

theorem trajectory_straight {f : K → UState K → Option (Control K)} (hf : ∀ t s v, f t s = some v → v.angular = 0) :
    ∀ (ds : List K) (t : K) (s : UState K) l, Planner.trajectory f ds t s = some l → ∀ u ∈ l, u.angle = s.angle
  | [], t, s, l, h, u, hu => by
    simp only [Planner.trajectory, Option.some.injEq] at h
    subst h
    simp only [List.mem_singleton] at hu
    rw [hu]
  | d :: ds, t, s, l, h, u, hu => by
    simp only [Planner.trajectory] at h
    cases hv : f t s with
    | none => rw [hv] at h; simp at h
    | some v =>
      rw [hv] at h
      simp only [Option.bind_some, Option.map_eq_some_iff] at h
      obtain ⟨l', hl', rfl⟩ := h
      rcases List.mem_cons.mp hu with rfl | hu
      · rfl
      · rw [trajectory_straight hf ds _ _ _ hl' u hu]
        simp [eulerStep, dynamics, hf t s v hv]

theorem euler_straight {p : Planner K} (h : p.controller = .direct) (hw : p.ctrl.direct.desired.angular = 0)
    (durations : K → K → List K) (g : K) : NeverTurns p (Planner.euler durations g) := by
  intro q u a b sol hq hs t
  unfold Planner.euler at hs
  simp only [Option.map_eq_some_iff] at hs
  obtain ⟨l, hl, rfl⟩ := hs
  have hz : ∀ t s v, q.controlAt g t s = some v → v.angular = 0 := by
    intro t s v hv
    unfold Planner.controlAt at hv
    rw [hq.controller, h] at hv
    simp only [DirectCtrl.control, BaseCtrl.doControl, DirectCtrl.doUnicycleControl, DirectCtrl.setFeedback] at hv
    have hz : BaseCtrl.saturateSym (0 : K) q.ctrl.directBase.maxAngular = 0 := by
      unfold BaseCtrl.saturateSym BaseCtrl.saturate
      split_ifs with h1 h2 h3
      · rfl
      · exact absurd (Or.inl h2) h1
      · exfalso; push Not at h1; linarith
      · rfl
    by_cases ht : t < q.ctrl.direct.deactivationEnd
    · simp only [ht, if_true, Option.map_some, Option.some.injEq] at hv
      rw [← hv]; exact hz
    · simp only [ht, if_false, Option.map_some, Option.some.injEq] at hv
      rw [← hv]
      show BaseCtrl.saturateSym q.ctrl.direct.desired.angular _ = 0
      rw [hq.command, hw]; exact hz
  have hall := trajectory_straight hz _ _ _ _ hl
  unfold Planner.solutionAt
  rw [List.getD_eq_getElem?_getD]
  cases hx : l[min (stdRound ((t - a) / q.integratorStep)).toNat (l.length - 1)]? with
  | none => rfl
  | some v => exact hall v (List.mem_of_getElem? hx)

end Uni.Spec.Mirror
