import Verif.Lemmas.MovedReplan

/-! # Displacements: settings -/

set_option autoImplicit false
set_option linter.unusedSectionVars false

namespace Uni.Spec
variable {g : Move}

theorem ellipse_axes (g : Move) {a b θ cx cy : ℝ} :
    g.ellipse ⟨Ellipse.axesMatrix a b θ, (Ellipse.axesMatrix a b θ).inv, ⟨cx, cy⟩, a, b, θ, true⟩ =
      ⟨Ellipse.axesMatrix a b (θ + g.turn), (Ellipse.axesMatrix a b (θ + g.turn)).inv, g.point ⟨cx, cy⟩, a, b, θ + g.turn, true⟩ := by
  have h := Real.sin_sq_add_cos_sq g.turn
  have hdet : (Ellipse.axesMatrix a b (θ + g.turn)).det = (Ellipse.axesMatrix a b θ).det := by
    simp only [Ellipse.axesMatrix, Mat2.det, cos_real, sin_real, Real.cos_add, Real.sin_add]
    linear_combination a * b * (Real.sin θ ^ 2 + Real.cos θ ^ 2) * h
  unfold Move.ellipse
  rw [if_pos rfl]
  simp only [Ellipse.mk.injEq, Mat2.mk.injEq, Mat2.inv, hdet, and_true]
  generalize (Ellipse.axesMatrix a b θ).det = d
  simp only [Ellipse.axesMatrix, Move.vector, cos_real, sin_real, Real.cos_add, Real.sin_add]
  refine ⟨?_, ?_, ?_, ?_, ?_⟩
  · rw [Mat2.mk.injEq]
    refine ⟨?_, ?_, ?_, ?_⟩ <;> ring
  all_goals ring

/-- The free space of the person-following controller. -/
theorem person_setFreeSpaceEllipse {person : Bool} {c c' : Controllers ℝ} (h : CtrlMoved g person c c') (e : Ellipse ℝ) :
    (c'.person.setFreeSpaceEllipse (g.ellipse e)).1 = (c.person.setFreeSpaceEllipse e).1 ∧
      CtrlMoved g person { c with person := (c.person.setFreeSpaceEllipse e).2 }
        { c' with person := (c'.person.setFreeSpaceEllipse (g.ellipse e)).2 } := by
  have base : ∀ i, CtrlMoved g person { c with person := { c.person with outer := e, inner := i } }
      { c' with person := { c'.person with outer := g.ellipse e, inner := g.ellipse i } } := fun i =>
    ⟨h.base, h.distance, h.gain, h.traj, h.offsets, h.conservative, rfl, rfl, h.direct, h.directSilent, h.directBase,
      h.navBase, h.navLimits, h.navDesired, h.navSilent, h.navPeriod, h.navPath, h.navIndex⟩
  have base' : ∀ i, CtrlMoved g person { c with person := { c.person with outer := e, inner := i } }
      { c' with person := { c'.person with offsetMajor := c.person.offsetMajor, offsetMinor := c.person.offsetMinor,
                                           outer := g.ellipse e, inner := g.ellipse i } } := fun i =>
    ⟨h.base, h.distance, h.gain, h.traj, ⟨rfl, rfl⟩, h.conservative, rfl, rfl, h.direct, h.directSilent, h.directBase,
      h.navBase, h.navLimits, h.navDesired, h.navSilent, h.navPeriod, h.navPath, h.navIndex⟩
  unfold PersonCtrl.setFreeSpaceEllipse
  simp only [g.ellipse_isSet]
  by_cases he : e.isSet = true
  · have e1 : (g.ellipse e).semiMajor = e.semiMajor := by unfold Move.ellipse; rw [if_pos he]
    have e2 : (g.ellipse e).semiMinor = e.semiMinor := by unfold Move.ellipse; rw [if_pos he]
    have e3 : (g.ellipse e).angle = e.angle + g.turn := by unfold Move.ellipse; rw [if_pos he]
    have e4 : (g.ellipse e).d = g.point e.d := by unfold Move.ellipse; rw [if_pos he]
    simp only [he, if_true, e1, e2, e3, e4, h.offsets.1, h.offsets.2]
    by_cases hs : e.semiMajor - c.person.offsetMajor ≤ 0 ∨ e.semiMinor - c.person.offsetMinor ≤ 0
    · rw [if_pos hs, if_pos hs]
      exact ⟨rfl, base' e⟩
    · rw [if_neg hs, if_neg hs]
      unfold Ellipse.setEllipse
      split_ifs
      · exact ⟨rfl, base' e⟩
      · refine ⟨rfl, ?_⟩
        have := base' ⟨Ellipse.axesMatrix (e.semiMajor - c.person.offsetMajor) (e.semiMinor - c.person.offsetMinor) e.angle,
          (Ellipse.axesMatrix (e.semiMajor - c.person.offsetMajor) (e.semiMinor - c.person.offsetMinor) e.angle).inv,
          ⟨e.d.x, e.d.y⟩, e.semiMajor - c.person.offsetMajor, e.semiMinor - c.person.offsetMinor, e.angle, true⟩
        rw [ellipse_axes] at this
        exact this
  · rw [if_neg he, if_neg he]
    exact ⟨rfl, base e⟩

theorem person_setInnerOffsets {person : Bool} {c c' : Controllers ℝ} (h : CtrlMoved g person c c') (a b : ℝ) :
    CtrlMoved g person { c with person := (c.person.setInnerOffsets a b).2 }
        { c' with person := (c'.person.setInnerOffsets a b).2 } := by
  unfold PersonCtrl.setInnerOffsets
  split_ifs
  · exact h
  · exact h
  · have h1 : CtrlMoved g person { c with person := { c.person with offsetMajor := a, offsetMinor := b } }
        { c' with person := { c'.person with offsetMajor := a, offsetMinor := b } } := { h with offsets := ⟨rfl, rfl⟩ }
    have h2 := (person_setFreeSpaceEllipse h1 c.person.outer).2
    rw [← h.outer] at h2
    exact h2

theorem ellipse_clear (g : Move) : g.ellipse Ellipse.clear = Ellipse.clear := by
  unfold Move.ellipse
  rw [if_neg (by simp [Ellipse.clear])]

/-- A setter of the three controllers. -/
theorem onAllControllers {p p' : Planner ℝ} (h : PlannerMoved g p p') (f : BaseCtrl ℝ → Bool × BaseCtrl ℝ) :
    PlannerMoved g (p.onAllControllers f).2 (p'.onAllControllers f).2 := by
  obtain ⟨hc, hr⟩ := h
  generalize p'.ctrl = c' at hc hr
  generalize p'.initTime = i at hr
  generalize p'.endTime = e at hr
  subst hr
  unfold Planner.onAllControllers
  simp only [hc.base, hc.directBase, hc.navBase]
  split_ifs
  · exact ⟨⟨rfl, hc.distance, hc.gain, hc.traj, hc.offsets, hc.conservative, hc.outer, hc.inner, hc.direct, hc.directSilent, rfl,
      rfl, hc.navLimits, hc.navDesired, hc.navSilent, hc.navPeriod, hc.navPath, hc.navIndex⟩, rfl⟩
  · exact ⟨⟨rfl, hc.distance, hc.gain, hc.traj, hc.offsets, hc.conservative, hc.outer, hc.inner, hc.direct, hc.directSilent, rfl,
      hc.navBase, hc.navLimits, hc.navDesired, hc.navSilent, hc.navPeriod, hc.navPath, hc.navIndex⟩, rfl⟩
  · exact ⟨⟨rfl, hc.distance, hc.gain, hc.traj, hc.offsets, hc.conservative, hc.outer, hc.inner, hc.direct, hc.directSilent,
      rfl, hc.navBase, hc.navLimits, hc.navDesired, hc.navSilent, hc.navPeriod, hc.navPath, hc.navIndex⟩, rfl⟩

/-- The settings of the planner. -/
theorem planner_run (hd : 0 ≤ g.delay) {p p' : Planner ℝ} (h : PlannerMoved g p p') (o : Planner.Op ℝ)
    (h1 : ∀ t y v, o = .addPoint t y v → 0 ≤ t)
    (h2 : o = .setUnicycleController .personFollowing → p.controller = .personFollowing) :
    PlannerMoved g (p.run o).2 (p'.run (g.plannerOp o)).2 := by
  have h0 := h
  obtain ⟨hc, hr⟩ := h
  generalize p'.ctrl = c' at hc hr
  generalize p'.initTime = i at hr
  generalize p'.endTime = e at hr
  subst hr
  cases o with
  | setDesiredPersonDistance x y =>
    simp only [Planner.run, Move.plannerOp, Planner.setPerson, PersonCtrl.setPersonDistance]
    split_ifs
    · exact ⟨hc, rfl⟩
    · exact ⟨{ hc with distance := rfl }, rfl⟩
  | setPersonFollowingControllerGain x =>
    simp only [Planner.run, Move.plannerOp, Planner.setPerson, PersonCtrl.setGain]
    split_ifs
    · exact ⟨hc, rfl⟩
    · exact ⟨{ hc with gain := rfl }, rfl⟩
  | setSlowWhenTurnGain x => exact onAllControllers h0 _
  | setSlowWhenBackwardFactor x => exact onAllControllers h0 _
  | setSlowWhenSidewaysFactor x => exact onAllControllers h0 _
  | addPoint t y v =>
    obtain ⟨a, a', e1, e2, e3⟩ := setDesiredPoint hc hd ⟨t, y, v⟩ (h1 t y v rfl)
    have e2' : c'.person.setDesiredPoint ⟨t + g.delay, g.point y, g.vector v⟩ = (true, a') := e2
    simp only [Planner.run, Move.plannerOp, Planner.setPerson, e1, e2']
    exact ⟨e3, rfl⟩
  | clearDesiredTrajectory => exact ⟨{ hc with traj := fun _ => rfl }, rfl⟩
  | setDesiredDirectControl v => exact ⟨{ hc with direct := rfl }, rfl⟩
  | setSaturationsConservativeFactors l a =>
    simp only [Planner.run, Move.plannerOp, Planner.setSaturationsConservativeFactors]
    split_ifs <;> exact ⟨hc, rfl⟩
  | setMaximumIntegratorStepSize dT =>
    simp only [Planner.run, Move.plannerOp, Planner.setMaximumIntegratorStepSize, NavCtrl.setTimeStep]
    by_cases h0 : dT = 0
    · simp only [h0, if_true]
      exact ⟨hc, rfl⟩
    · simp only [h0, if_false]
      split_ifs <;> exact ⟨{ hc with navPeriod := rfl }, rfl⟩
  | setMaxStepLength x =>
    simp only [Planner.run, Move.plannerOp, Planner.setMaxStepLength, Problem.setMaxLength, Problem.setMaxLengthBackward]
    by_cases hx : x < 0
    · simp only [hx, if_true]; exact ⟨hc, rfl⟩
    · simp only [hx, if_false]; exact ⟨hc, rfl⟩
  | setMaxStepLengthBackward x m =>
    simp only [Planner.run, Move.plannerOp, Planner.setMaxStepLengthBackward, Problem.setMaxLength, Problem.setMaxLengthBackward]
    by_cases hm : m < 0
    · simp only [hm, if_true]; exact ⟨hc, rfl⟩
    · by_cases hx : x < 0
      · simp only [hm, hx, if_true, if_false]; exact ⟨hc, rfl⟩
      · by_cases hxm : x * m < 0
        · simp only [hm, hx, hxm, if_true, if_false]; exact ⟨hc, rfl⟩
        · simp only [hm, hx, hxm, if_false]; exact ⟨hc, rfl⟩
  | setMaxAngleVariation x =>
    simp only [Planner.run, Move.plannerOp, Planner.setMaxAngleVariation, Problem.setMaxAngleVariation]
    by_cases hx : x < 0
    · simp only [hx, if_true]; exact ⟨hc, rfl⟩
    · simp only [hx, if_false]; exact ⟨hc, rfl⟩
  | setCostWeights a b =>
    simp only [Planner.run, Move.plannerOp, Planner.setCostWeights, Problem.setCostWeights]
    split_ifs <;> exact ⟨hc, rfl⟩
  | setStepTimings a b c =>
    simp only [Planner.run, Move.plannerOp, Planner.setStepTimings]
    split_ifs <;> exact ⟨hc, rfl⟩
  | setPlannerPeriod x =>
    simp only [Planner.run, Move.plannerOp, Planner.setPlannerPeriod]
    split_ifs <;> exact ⟨hc, rfl⟩
  | setMinimumAngleForNewSteps x =>
    simp only [Planner.run, Move.plannerOp, Planner.setMinimumAngleForNewSteps]
    split_ifs <;> exact ⟨hc, rfl⟩
  | setMinimumStepLength x =>
    simp only [Planner.run, Move.plannerOp, Planner.setMinimumStepLength]
    split_ifs <;> exact ⟨hc, rfl⟩
  | setWidthSetting a b =>
    simp only [Planner.run, Move.plannerOp, Planner.setWidthSetting, Problem.setMinWidth]
    by_cases hb : b < 0
    · simp only [hb, if_true]; exact ⟨hc, rfl⟩
    · by_cases hab : b < a
      · simp only [hb, hab, if_true, if_false]; exact ⟨hc, rfl⟩
      · by_cases ha : a < 0
        · simp only [hb, hab, ha, if_true, if_false]; exact ⟨hc, rfl⟩
        · simp only [hb, hab, ha, if_false]; exact ⟨hc, rfl⟩
  | addTerminalStep b => exact ⟨hc, rfl⟩
  | startWithLeft b => exact ⟨hc, rfl⟩
  | resetStartingFootIfStill b => exact ⟨hc, rfl⟩
  | setLeftFootYawOffset x => exact ⟨hc, rfl⟩
  | setRightFootYawOffset x => exact ⟨hc, rfl⟩
  | setFreeSpaceEllipseMethod m =>
    have := (person_setFreeSpaceEllipse hc Ellipse.clear).2
    rw [ellipse_clear] at this
    refine ⟨this, ?_⟩
    simp only [Planner.run, Move.plannerOp, Planner.setFreeSpaceEllipseMethod, Problem.setFreeSpaceEllipse, ellipse_clear]
  | setFreeSpaceEllipse e =>
    obtain ⟨k1, k2⟩ := person_setFreeSpaceEllipse hc e
    simp only [Planner.run, Move.plannerOp, Planner.setFreeSpaceEllipse, Problem.setFreeSpaceEllipse, Planner.setPerson]
    by_cases hm : p.method = .referenceOnly ∨ p.method = .referenceAndFootsteps
    · simp only [hm, if_true, k1]
      split_ifs
      · exact ⟨k2, rfl⟩
      · exact ⟨k2, rfl⟩
      · exact ⟨k2, rfl⟩
    · simp only [hm, if_false, if_true]
      split_ifs
      · exact ⟨hc, rfl⟩
      · exact ⟨hc, rfl⟩
  | setFreeSpaceEllipseConservativeFactor f =>
    simp only [Planner.run, Move.plannerOp, Planner.setPerson, PersonCtrl.setConservativeFactor]
    split_ifs
    · exact ⟨hc, rfl⟩
    · exact ⟨{ hc with conservative := rfl }, rfl⟩
  | setInnerFreeSpaceEllipseOffset o => exact ⟨person_setInnerOffsets hc o o, rfl⟩
  | setInnerFreeSpaceEllipseOffsets a b => exact ⟨person_setInnerOffsets hc a b, rfl⟩
  | setUnicycleController k =>
    refine ⟨?_, rfl⟩
    refine { hc with traj := fun hk => hc.traj ?_ }
    have : k = .personFollowing := of_decide_eq_true hk
    subst this
    simpa using h2 rfl
  | setNavigationPath path =>
    simp only [Planner.run, Move.plannerOp, NavCtrl.setNavigationPath, List.length_map]
    split_ifs
    · exact ⟨hc, rfl⟩
    · exact ⟨{ hc with navPath := rfl, navIndex := ⟨rfl, hc.navIndex.2.1, rfl⟩ }, rfl⟩

/-- A plugin that was not attached. -/
theorem both_attach {S T : Type} {R : Plugin S T → Plugin S T → Prop} {p p' : Option (Plugin S T)} (h : Both R p p') {a b : S}
    (hab : R ⟨a, none⟩ ⟨b, none⟩) : Both R (Plugin.attach p a) (Plugin.attach p' b) := by
  rcases p with _ | p <;> rcases p' with _ | p' <;> try exact h.elim
  · exact hab
  · exact h

/-- The setters of a plugin. -/
theorem both_set {S T : Type} {R : Plugin S T → Plugin S T → Prop} {p p' : Option (Plugin S T)} (h : Both R p p') {f f' : S → S}
    (hf : ∀ q q', R q q' → R { q with state := f q.state } { q' with state := f' q'.state }) :
    Both R (Plugin.set p f) (Plugin.set p' f') := by
  rcases p with _ | p <;> rcases p' with _ | p' <;> try exact h.elim
  · exact trivial
  · exact hf _ _ h

/-- The settings. -/
theorem settings_moved (hd : 0 ≤ g.delay) {w w' : Walker ℝ} (h : WalkerMoved g w w') (o : Walker.Op ℝ) (ho : OpTimed w o) :
    WalkerMoved g (w.run o) (w'.run (g.op o)) := by
  cases o with
  | timing o => exact { h with cfg := (by simp only [Walker.run, Move.op, h.cfg]) }
  | planner o =>
    refine { h with planner := planner_run hd h.planner o ?_ ?_ }
    · rintro t y v rfl; exact ho
    · rintro rfl; exact ho
  | addCubic => exact { h with cubic := (both_attach h.cubic (⟨rfl, rfl⟩)) }
  | addMinJerk => exact { h with minJerk := (both_attach h.minJerk (⟨rfl, rfl⟩)) }
  | addZmp z =>
    exact { h with zmp := (both_attach h.zmp
      ⟨⟨⟨rfl, rfl, rfl, rfl⟩, ⟨rfl, fun _ => rfl⟩, ⟨rfl, fun h => (by cases h)⟩, rfl⟩, trivial⟩) }
  | addDcm => exact { h with dcm := (both_attach h.dcm (⟨rfl, rfl⟩)) }
  | addHeight => exact { h with height := (by simp only [Walker.run, Move.op, h.height]) }
  | cubic o => exact { h with cubic := both_set h.cubic (f := fun c => (c.run o).2) (f' := fun c => (c.run o).2) fun q q' hq => ⟨(by simp only [hq.settings]), hq.result⟩ }
  | minJerk o => exact { h with minJerk := both_set h.minJerk (f := fun c => (c.run o).2) (f' := fun c => (c.run o).2) fun q q' hq => ⟨(by simp only [hq.settings]), hq.result⟩ }
  | zmp o =>
    cases o with
    | setWeightInitialState m =>
      exact { h with zmp := (both_set h.zmp (f := fun z => Walker.ZmpOp.run z (.setWeightInitialState m))
        (f' := fun z => Walker.ZmpOp.run z (.setWeightInitialState m)) fun q q' hq =>
        ⟨⟨hq.settings.offsets, ⟨rfl, fun _ => rfl⟩, hq.settings.previous, hq.settings.states⟩, hq.result⟩) }
    | setPreviousSteps l r =>
      exact { h with zmp := (both_set h.zmp (f := fun z => Walker.ZmpOp.run z (.setPreviousSteps l r))
        (f' := fun z => Walker.ZmpOp.run z (.setPreviousSteps (g.step l) (g.step r))) fun q q' hq =>
        ⟨⟨hq.settings.offsets, hq.settings.initial, ⟨rfl, fun _ => ⟨rfl, rfl⟩⟩, hq.settings.states⟩, hq.result⟩) }
    | setStanceZMPDelta l r =>
      exact { h with zmp := (both_set h.zmp (f := fun z => Walker.ZmpOp.run z (.setStanceZMPDelta l r))
        (f' := fun z => Walker.ZmpOp.run z (.setStanceZMPDelta l r)) fun q q' hq =>
        ⟨⟨⟨rfl, hq.settings.offsets.2.1, rfl, hq.settings.offsets.2.2.2⟩, hq.settings.initial, hq.settings.previous,
          hq.settings.states⟩, hq.result⟩) }
    | setInitialSwitchZMPDelta l r =>
      exact { h with zmp := (both_set h.zmp (f := fun z => Walker.ZmpOp.run z (.setInitialSwitchZMPDelta l r))
        (f' := fun z => Walker.ZmpOp.run z (.setInitialSwitchZMPDelta l r)) fun q q' hq =>
        ⟨⟨⟨hq.settings.offsets.1, rfl, hq.settings.offsets.2.2.1, rfl⟩, hq.settings.initial, hq.settings.previous,
          hq.settings.states⟩, hq.result⟩) }
  | dcm o =>
    cases o with
    | setDCMInitialState p v =>
      exact { h with dcm := (both_set h.dcm (f := fun z => Walker.DcmOp.run z (.setDCMInitialState p v))
        (f' := fun z => Walker.DcmOp.run z (.setDCMInitialState (g.point p) (g.vector v))) fun q q' hq =>
        ⟨(by simp only [hq.settings, Walker.DcmOp.run, Dcm.setDCMInitialState, Option.map_some]), hq.result⟩) }
    | setOmega x =>
      exact { h with dcm := (both_set h.dcm (f := fun z => Walker.DcmOp.run z (.setOmega x))
        (f' := fun z => Walker.DcmOp.run z (.setOmega x)) fun q q' hq =>
        ⟨(by simp only [hq.settings, Walker.DcmOp.run, Dcm.setOmega]; split_ifs <;> rfl), hq.result⟩) }
    | setAlpha x =>
      exact { h with dcm := (both_set h.dcm (f := fun z => Walker.DcmOp.run z (.setAlpha x))
        (f' := fun z => Walker.DcmOp.run z (.setAlpha x)) fun q q' hq =>
        ⟨(by simp only [hq.settings, Walker.DcmOp.run, Dcm.setAlpha]; split_ifs <;> rfl), hq.result⟩) }
    | setStillnessPercentage x =>
      exact { h with dcm := (both_set h.dcm (f := fun z => Walker.DcmOp.run z (.setStillnessPercentage x))
        (f' := fun z => Walker.DcmOp.run z (.setStillnessPercentage x)) fun q q' hq =>
        ⟨(by simp only [hq.settings, Walker.DcmOp.run, Dcm.setStillnessPercentage]; split_ifs <;> rfl), hq.result⟩) }
    | setLastStepDCMOffsetPercentage x =>
      exact { h with dcm := (both_set h.dcm (f := fun z => Walker.DcmOp.run z (.setLastStepDCMOffsetPercentage x))
        (f' := fun z => Walker.DcmOp.run z (.setLastStepDCMOffsetPercentage x)) fun q q' hq =>
        ⟨(by simp only [hq.settings, Walker.DcmOp.run, Dcm.setLastStepDCMOffsetPercentage]; split_ifs <;> rfl), hq.result⟩) }
    | setFootOriginOffset l r =>
      exact { h with dcm := (both_set h.dcm (f := fun z => Walker.DcmOp.run z (.setFootOriginOffset l r))
        (f' := fun z => Walker.DcmOp.run z (.setFootOriginOffset l r)) fun q q' hq =>
        ⟨(by simp only [hq.settings, Walker.DcmOp.run, Dcm.setFootOriginOffset]), hq.result⟩) }
    | setFirstDCMTrajectoryMode b =>
      exact { h with dcm := (both_set h.dcm (f := fun z => Walker.DcmOp.run z (.setFirstDCMTrajectoryMode b))
        (f' := fun z => Walker.DcmOp.run z (.setFirstDCMTrajectoryMode b)) fun q q' hq =>
        ⟨(by simp only [hq.settings, Walker.DcmOp.run, Dcm.setFirstDCMTrajectoryMode]), hq.result⟩) }
  | height a b => exact { h with height := (by simp only [Walker.run, Move.op, h.height]) }

end Uni.Spec
