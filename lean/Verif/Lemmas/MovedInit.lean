import Verif.Lemmas.MovedPlan

/-! # Displacements: the beginning of a call of the planner -/

set_option autoImplicit false
set_option linter.unusedSectionVars false

namespace Uni.Spec
variable {g : Move}

/-- What the beginning of a call leaves alone. -/
structure Kept (p₀ p : Planner ℝ) : Prop where
  initTime : p.initTime = p₀.initTime
  endTime : p.endTime = p₀.endTime
  nominalTime : p.nominalTime = p₀.nominalTime
  minTime : p.minTime = p₀.minTime
  controller : p.controller = p₀.controller

theorem Kept.refl (p : Planner ℝ) : Kept p p := ⟨rfl, rfl, rfl, rfl, rfl⟩

theorem Kept.trans {p q r : Planner ℝ} (h : Kept p q) (h' : Kept q r) : Kept p r :=
  ⟨h'.1.trans h.1, h'.2.trans h.2, h'.3.trans h.3, h'.4.trans h.4, h'.5.trans h.5⟩

/-! ## Limits of the controllers -/

theorem setSaturations {person : Bool} (p : Planner ℝ) {c' : Controllers ℝ} (h : CtrlMoved g person p.ctrl c') :
    ∃ c'', CtrlMoved g person p.setSaturations.2.ctrl c'' ∧
      (g.planner p c').setSaturations = (p.setSaturations.1, g.planner p.setSaturations.2 c'') ∧ Kept p p.setSaturations.2 := by
  unfold Planner.setSaturations
  have e1 : (g.planner p c').ctrl = c' := rfl
  have e2 : (g.planner p c').maxLength = p.maxLength := rfl
  have e3 : (g.planner p c').nominalWidth = p.nominalWidth := rfl
  have e4 : (g.planner p c').minTime = p.minTime := rfl
  have e5 : (g.planner p c').linFactor = p.linFactor := rfl
  have e6 : (g.planner p c').maxAngle = p.maxAngle := rfl
  have e7 : (g.planner p c').angFactor = p.angFactor := rfl
  simp only [e1, e2, e3, e4, e5, e6, e7, h.base, h.directBase]
  generalize Trig.sqrt (p.maxLength ^ 2 - p.nominalWidth ^ 2) / p.minTime * p.linFactor = v
  generalize p.maxAngle / p.minTime * p.angFactor = w
  rcases p.ctrl.person.base.setSaturations v w with ⟨_ | _, b⟩
  · exact ⟨c', h, rfl, Kept.refl _⟩
  simp only
  have h1 : CtrlMoved g person { p.ctrl with person := { p.ctrl.person with base := b } }
      { c' with person := { c'.person with base := b }, directBase := p.ctrl.directBase } :=
    ⟨rfl, h.distance, h.gain, h.traj, h.offsets, h.conservative, h.outer, h.inner, h.direct, h.directSilent, rfl,
      h.navBase, h.navLimits, h.navDesired, h.navSilent, h.navPeriod, h.navPath, h.navIndex⟩
  rcases p.ctrl.directBase.setSaturations v w with ⟨_ | _, d⟩
  · exact ⟨_, h1, rfl, ⟨rfl, rfl, rfl, rfl, rfl⟩⟩
  simp only
  have h2 : CtrlMoved g person { p.ctrl with person := { p.ctrl.person with base := b }, directBase := d }
      { c' with person := { c'.person with base := b }, directBase := d } :=
    ⟨rfl, h.distance, h.gain, h.traj, h.offsets, h.conservative, h.outer, h.inner, h.direct, h.directSilent, rfl,
      h.navBase, h.navLimits, h.navDesired, h.navSilent, h.navPeriod, h.navPath, h.navIndex⟩
  have hk : (g.planner p c').controller = p.controller := rfl
  simp only [hk]
  by_cases hn : p.controller = .navigation
  · rw [if_pos hn, if_pos hn]
    have key : ∀ m : NavCtrl ℝ, c'.nav.base = p.ctrl.nav.base → c'.nav.maxVel = p.ctrl.nav.maxVel →
        (c'.nav.setSaturations v w).1 = (p.ctrl.nav.setSaturations v w).1 ∧
        (c'.nav.setSaturations v w).2 = { c'.nav with
          base := (p.ctrl.nav.setSaturations v w).2.base, maxVel := (p.ctrl.nav.setSaturations v w).2.maxVel } ∧
        (p.ctrl.nav.setSaturations v w).2 = { p.ctrl.nav with
          base := (p.ctrl.nav.setSaturations v w).2.base, maxVel := (p.ctrl.nav.setSaturations v w).2.maxVel } := by
      intro _ hb hm
      unfold NavCtrl.setSaturations
      rw [hb]
      rcases p.ctrl.nav.base.setSaturations v w with ⟨_ | _, b'⟩
      · exact ⟨rfl, by simp only [← hm], rfl⟩
      · simp only [NavCtrl.setMaxVelocities]
        split_ifs
        · exact ⟨rfl, by simp only [← hm], rfl⟩
        all_goals exact ⟨rfl, rfl, rfl⟩
    obtain ⟨k1, k2, k3⟩ := key p.ctrl.nav h.navBase h.navLimits
    rcases hx : p.ctrl.nav.setSaturations v w with ⟨ok, nav⟩
    rw [hx] at k1 k2 k3
    rcases hy : c'.nav.setSaturations v w with ⟨ok', nav'⟩
    rw [hy] at k1 k2
    simp only at k1 k2 k3 ⊢
    subst k1
    refine ⟨{ c' with person := { c'.person with base := b }, directBase := d, nav := nav' }, ?_, rfl, ⟨rfl, rfl, rfl, rfl, rfl⟩⟩
    rw [k3, k2]
    exact ⟨rfl, h.distance, h.gain, h.traj, h.offsets, h.conservative, h.outer, h.inner, h.direct, h.directSilent, rfl,
      rfl, rfl, h.navDesired, h.navSilent, h.navPeriod, h.navPath, h.navIndex⟩
  · rw [if_neg hn, if_neg hn]
    exact ⟨_, h2, rfl, ⟨rfl, rfl, rfl, rfl, rfl⟩⟩

/-! ## References -/

theorem desired_sorted (l : List (TrajPoint ℝ)) :
    (l.map g.desired).insertionSort (fun a b => a.initTime ≤ b.initTime) =
      (l.insertionSort fun a b => a.initTime ≤ b.initTime).map g.desired := by
  refine (List.map_insertionSort _ _ g.desired l fun a _ b _ => ?_).symm
  simp [Move.desired]

/-- A further point of the trajectory. -/
theorem setDesiredPoint {person : Bool} {c c' : Controllers ℝ} (h : CtrlMoved g person c c') (hd : 0 ≤ g.delay)
    (q : TrajPoint ℝ) (hq : 0 ≤ q.initTime) :
    ∃ a a', c.person.setDesiredPoint q = (true, a) ∧ c'.person.setDesiredPoint (g.desired q) = (true, a') ∧
      CtrlMoved g person { c with person := a } { c' with person := a' } := by
  have e : (g.desired q).initTime = q.initTime + g.delay := rfl
  refine ⟨_, _, by rw [PersonCtrl.setDesiredPoint, if_neg (by linarith)],
    by rw [PersonCtrl.setDesiredPoint, if_neg (by rw [e]; linarith)], ?_⟩
  refine ⟨h.base, h.distance, h.gain, fun hp => ?_, h.offsets, h.conservative, h.outer, h.inner, h.direct, h.directSilent,
    h.directBase, h.navBase, h.navLimits, h.navDesired, h.navSilent, h.navPeriod, h.navPath, h.navIndex⟩
  have := h.traj hp
  show List.insertionSort _ (c'.person.traj ++ [g.desired q]) = _
  rw [this, show c.person.traj.map g.desired ++ [g.desired q] = (c.person.traj ++ [q]).map g.desired by simp, desired_sorted]

theorem chooseSwing {person : Bool} {p : Planner ℝ} {c' : Controllers ℝ} (h : CtrlMoved g person p.ctrl c') :
    (g.planner p c').chooseSwing = g.planner p.chooseSwing c' ∧ p.chooseSwing.ctrl = p.ctrl ∧ Kept p p.chooseSwing := by
  unfold Planner.chooseSwing
  have e1 : (g.planner p c').firstStep = p.firstStep := rfl
  have e2 : (g.planner p c').controller = p.controller := rfl
  have e3 : (g.planner p c').ctrl = c' := rfl
  simp only [e1, e2, e3, h.direct]
  by_cases ha : (p.firstStep && decide (p.controller = .direct) && decide (0 < |p.ctrl.direct.desired.lateral|)) = true
  · simp only [ha, if_true]
    have e4 : ({ g.planner p c' with swingLeft := decide (0 < p.ctrl.direct.desired.lateral) } : Planner ℝ).ctrl = c' := rfl
    have e5 : (g.planner p c').firstStep = p.firstStep := rfl
    simp only [h.navDesired]
    split_ifs <;> exact ⟨rfl, rfl, rfl, rfl, rfl, rfl, rfl⟩
  · simp only [ha]
    simp only [Bool.false_eq_true, if_false, e1, e2, e3, h.navDesired]
    split_ifs <;> exact ⟨rfl, rfl, rfl, rfl, rfl, rfl, rfl⟩

/-- Outcomes of `getInitialStateFromFeet` correspond; the planner is only changed in what the beginning of a call may change and
the feet are untouched. -/
def InitMoved (g : Move) (p₀ : Planner ℝ) (l₀ r₀ : Foot ℝ) : Planner.InitResult ℝ → Planner.InitResult ℝ → Prop
  | .failed p l r, x => l = l₀ ∧ r = r₀ ∧ Kept p₀ p ∧ ∃ c',
      CtrlMoved g (decide (p₀.controller = .personFollowing)) p.ctrl c' ∧ x = .failed (g.planner p c') (g.ufoot l) (g.ufoot r)
  | .ok p l r u, x => l = l₀ ∧ r = r₀ ∧ Kept p₀ p ∧ ∃ c',
      CtrlMoved g (decide (p₀.controller = .personFollowing)) p.ctrl c' ∧
        x = .ok (g.planner p c') (g.ufoot l) (g.ufoot r) (g.pose u)
  | .ub w, x => x = .ub w

theorem initReferences (hd : 0 ≤ g.delay) {p₀ p : Planner ℝ} (hk : Kept p₀ p) {c' : Controllers ℝ}
    (h : CtrlMoved g (decide (p₀.controller = .personFollowing)) p.ctrl c') (l r : Foot ℝ) (u : UState ℝ) (tf t : ℝ) (h0 : 0 ≤ t)
    (hn : p.minTime ≤ p.nominalTime) :
    InitMoved g p₀ l r (p.initReferences l r u tf t)
      ((g.planner p c').initReferences (g.ufoot l) (g.ufoot r) (g.pose u) (tf + g.delay) (t + g.delay)) := by
  unfold Planner.initReferences
  simp only [add_lt_add_iff_right]
  by_cases ht : t < tf
  · rw [if_pos ht, if_pos ht]
    exact ⟨rfl, rfl, hk, c', h, rfl⟩
  rw [if_neg ht, if_neg ht]
  have e1 : (g.planner p c').ctrl = c' := rfl
  have epos : c'.person.getPersonPosition (g.pose u).position (g.pose u).angle =
      g.point (p.ctrl.person.getPersonPosition u.position u.angle) := by
    unfold PersonCtrl.getPersonPosition
    rw [h.distance]
    exact g.in_frame _ _ _
  rw [e1, epos]
  have edes : ∀ s : ℝ, (⟨s + g.delay, g.point (p.ctrl.person.getPersonPosition u.position u.angle), 0⟩ : TrajPoint ℝ) =
      g.desired ⟨s, p.ctrl.person.getPersonPosition u.position u.angle, 0⟩ := by
    intro s; simp only [Move.desired, Move.vector_zero]
  rw [edes]
  obtain ⟨a, a', ha, ha', hc⟩ := setDesiredPoint h hd ⟨t, p.ctrl.person.getPersonPosition u.position u.angle, 0⟩ h0
  rw [ha, ha']
  simp only
  have e2 : (g.planner p c').firstStep = p.firstStep := rfl
  have e3 : (g.planner p c').nominalTime = p.nominalTime := rfl
  have e4 : (g.planner p c').minTime = p.minTime := rfl
  rw [e2, e3, e4]
  by_cases hf : p.firstStep = true
  · rw [if_pos hf, if_pos hf, show t + g.delay + p.nominalTime - p.minTime = t + p.nominalTime - p.minTime + g.delay by ring]
    have hpos : 0 ≤ t + p.nominalTime - p.minTime := by linarith
    obtain ⟨b, b', hb, hb', hc2⟩ := setDesiredPoint hc hd
      ⟨t + p.nominalTime - p.minTime, p.ctrl.person.getPersonPosition u.position u.angle, 0⟩ hpos
    rw [edes, hb']
    simp only at hb
    rw [hb]
    simp only
    generalize hT : t + p.nominalTime - p.minTime = T at *
    have hc3 : CtrlMoved g (decide (p₀.controller = .personFollowing))
        { p.ctrl with person := b, direct := p.ctrl.direct.setInactiveUntil T, nav := p.ctrl.nav.setInactiveUntil T }
        { c' with person := b', direct := c'.direct.setInactiveUntil (T + g.delay),
                  nav := c'.nav.setInactiveUntil (T + g.delay) } := by
      refine ⟨hc2.base, hc2.distance, hc2.gain, hc2.traj, hc2.offsets, hc2.conservative, hc2.outer, hc2.inner, h.direct,
        fun s _ => ?_, h.directBase, h.navBase, h.navLimits, h.navDesired, fun s _ => ?_, h.navPeriod, h.navPath, h.navIndex⟩
      · exact add_lt_add_iff_right _
      · simp only [NavCtrl.setInactiveUntil]
        rw [abs_of_nonneg hpos, abs_of_nonneg (by linarith)]
        exact add_lt_add_iff_right _
    have hk3 : Kept p₀ { p with ctrl := { p.ctrl with
        person := b, direct := p.ctrl.direct.setInactiveUntil T, nav := p.ctrl.nav.setInactiveUntil T } } :=
      ⟨hk.1, hk.2, hk.3, hk.4, hk.5⟩
    obtain ⟨q1, q2, q3⟩ := chooseSwing (p := { p with ctrl := { p.ctrl with
        person := b, direct := p.ctrl.direct.setInactiveUntil T, nav := p.ctrl.nav.setInactiveUntil T } }) hc3
    refine ⟨rfl, rfl, hk3.trans q3, { c' with
      person := b', direct := c'.direct.setInactiveUntil (T + g.delay), nav := c'.nav.setInactiveUntil (T + g.delay) }, ?_, ?_⟩
    · rw [q2]; exact hc3
    · rw [← q1]; rfl
  · rw [if_neg hf, if_neg hf]
    have hk3 : Kept p₀ { p with ctrl := { p.ctrl with person := a } } := ⟨hk.1, hk.2, hk.3, hk.4, hk.5⟩
    obtain ⟨q1, q2, q3⟩ := chooseSwing (p := { p with ctrl := { p.ctrl with person := a } }) hc
    refine ⟨rfl, rfl, hk3.trans q3, { c' with person := a' }, ?_, ?_⟩
    · rw [q2]; exact hc
    · rw [← q1]; rfl

/-- Some step is there. -/
theorem getInitialState (hd : 0 ≤ g.delay) {p : Planner ℝ} {c' : Controllers ℝ}
    (h : CtrlMoved g (decide (p.controller = .personFollowing)) p.ctrl c') (l r : Foot ℝ)
    (hs : l.getLastStep ≠ none ∨ r.getLastStep ≠ none) (t : ℝ) (h0 : 0 ≤ t) (hn : p.minTime ≤ p.nominalTime) :
    InitMoved g p l r (p.getInitialStateFromFeet l r t)
      ((g.planner p c').getInitialStateFromFeet (g.ufoot l) (g.ufoot r) (t + g.delay)) := by
  have hfail : InitMoved g p l r (.failed p l r) (.failed (g.planner p c') (g.ufoot l) (g.ufoot r)) :=
    ⟨rfl, rfl, Kept.refl p, c', h, rfl⟩
  have href : ∀ (a b : Bool) (u : UState ℝ) (s : Step ℝ),
      InitMoved g p l r (Planner.initReferences { p with swingLeft := a, firstStep := b } l r u s.impactTime t)
        (Planner.initReferences { g.planner p c' with swingLeft := a, firstStep := b } (g.ufoot l) (g.ufoot r) (g.pose u)
          (s.impactTime + g.delay) (t + g.delay)) := by
    intro a b u s
    exact initReferences (p₀ := p) (p := { p with swingLeft := a, firstStep := b }) hd ⟨rfl, rfl, rfl, rfl, rfl⟩ h l r u s.impactTime t h0 hn
  unfold Planner.getInitialStateFromFeet
  rw [g.ufoot_last, g.ufoot_last]
  have e1 : (g.planner p c').startLeft = p.startLeft := rfl
  cases hl : l.getLastStep with
  | none =>
    cases hr : r.getLastStep with
    | none => simp [hl, hr] at hs
    | some s =>
      simp only [Option.map_none, Option.map_some, g.ufoot_state, Move.step_impactTime]
      cases r.getUnicycleStateFromStep s with
      | none => exact hfail
      | some u => exact href true false u s
  | some s =>
    cases hr : r.getLastStep with
    | none =>
      simp only [Option.map_none, Option.map_some, g.ufoot_state, Move.step_impactTime]
      cases l.getUnicycleStateFromStep s with
      | none => exact hfail
      | some u => exact href false false u s
    | some q =>
      simp only [Option.map_some, g.ufoot_state, Move.step_impactTime, add_left_inj, add_lt_add_iff_right, e1]
      split_ifs
      · cases r.getUnicycleStateFromStep q with
        | none => exact hfail
        | some u => exact href true true u s
      · cases l.getUnicycleStateFromStep s with
        | none => exact hfail
        | some u => exact href false true u s
      · cases r.getUnicycleStateFromStep q with
        | none => exact hfail
        | some u => exact href true false u q
      · cases l.getUnicycleStateFromStep s with
        | none => exact hfail
        | some u => exact href false false u s

theorem configureFoot (f : Foot ℝ) (a b c d : ℝ) :
    Planner.configureFoot (g.ufoot f) a b c d = (Planner.configureFoot f a b c d).map g.ufoot := by
  unfold Planner.configureFoot Foot.setTinyStepLength Foot.setTinyStepAngle
  simp only
  by_cases h1 : c < 0
  · simp [h1]
  · by_cases h2 : d < 0
    · simp [h1, h2]
    · simp [h1, h2, Foot.setDistanceFromUnicycle, Foot.setYawOffset, Move.ufoot]

theorem configureFoot_fp {f f' : Foot ℝ} {a b c d : ℝ} (h : Planner.configureFoot f a b c d = some f') : f'.fp = f.fp := by
  unfold Planner.configureFoot Foot.setTinyStepLength Foot.setTinyStepAngle at h
  simp only at h
  by_cases h1 : c < 0
  · simp [h1] at h
  · by_cases h2 : d < 0
    · simp [h1, h2] at h
    · simp only [h1, h2, if_false, Option.some.injEq] at h
      subst h; rfl

/-- Outcomes of `initializePlanner` correspond. -/
def SetupMoved (g : Move) (p₀ : Planner ℝ) (l₀ r₀ : Foot ℝ) : Planner.SetupResult ℝ → Planner.SetupResult ℝ → Prop
  | .failed p l r, x => l.fp = l₀.fp ∧ r.fp = r₀.fp ∧ Kept p₀ p ∧ ∃ c',
      CtrlMoved g (decide (p₀.controller = .personFollowing)) p.ctrl c' ∧ x = .failed (g.planner p c') (g.ufoot l) (g.ufoot r)
  | .ok p l r sol, x => l.fp = l₀.fp ∧ r.fp = r₀.fp ∧ Kept p₀ p ∧ ∃ c' sol',
      CtrlMoved g (decide (p₀.controller = .personFollowing)) p.ctrl c' ∧ (∀ t, sol' (t + g.delay) = g.pose (sol t)) ∧
        x = .ok (g.planner p c') (g.ufoot l) (g.ufoot r) sol'
  | .ub w, x => x = .ub w

theorem plannerMoved {p : Planner ℝ} {c' : Controllers ℝ}
    (h : CtrlMoved g (decide (p.controller = .personFollowing)) p.ctrl c') : PlannerMoved g p (g.planner p c') := ⟨h, rfl⟩

theorem initializePlanner (hd : 0 ≤ g.delay) {integ : Integrator ℝ} {p : Planner ℝ} (hi : IntegratorMoved g p.controller integ)
    {c' : Controllers ℝ} (h : CtrlMoved g (decide (p.controller = .personFollowing)) p.ctrl c') (l r : Foot ℝ)
    (hs : l.getLastStep ≠ none ∨ r.getLastStep ≠ none) (h0 : 0 ≤ p.initTime) (hn : p.minTime ≤ p.nominalTime) :
    SetupMoved g p l r (p.initializePlanner integ l r) ((g.planner p c').initializePlanner integ (g.ufoot l) (g.ufoot r)) := by
  unfold Planner.initializePlanner
  have e1 : (g.planner p c').nominalWidth = p.nominalWidth := rfl
  have e2 : (g.planner p c').leftYaw = p.leftYaw := rfl
  have e3 : (g.planner p c').rightYaw = p.rightYaw := rfl
  have e4 : (g.planner p c').minLength = p.minLength := rfl
  have e5 : (g.planner p c').minAngle = p.minAngle := rfl
  have e6 : (g.planner p c').initTime = p.initTime + g.delay := rfl
  rw [e1, e2, e3, e4, e5, e6, configureFoot, configureFoot]
  cases hl : Planner.configureFoot l (p.nominalWidth / 2) p.leftYaw p.minLength p.minAngle with
  | none => exact ⟨rfl, rfl, Kept.refl p, c', h, rfl⟩
  | some l1 =>
    cases hr : Planner.configureFoot r (-p.nominalWidth / 2) p.rightYaw p.minLength p.minAngle with
    | none => exact ⟨rfl, rfl, Kept.refl p, c', h, rfl⟩
    | some r1 =>
      simp only [Option.map_some]
      have fl := configureFoot_fp hl
      have fr := configureFoot_fp hr
      have hs' : l1.getLastStep ≠ none ∨ r1.getLastStep ≠ none := by
        unfold Foot.getLastStep at hs ⊢
        rw [fl, fr]; exact hs
      have hg := getInitialState hd h l1 r1 hs' p.initTime h0 hn
      cases hx : p.getInitialStateFromFeet l1 r1 p.initTime with
      | failed q a b =>
        rw [hx] at hg
        obtain ⟨rfl, rfl, k, c1, h1, e⟩ := hg
        rw [e]
        exact ⟨fl, fr, k, c1, h1, rfl⟩
      | ub w =>
        rw [hx] at hg
        rw [show (g.planner p c').getInitialStateFromFeet _ _ _ = _ from hg]
        rfl
      | ok q a b u =>
        rw [hx] at hg
        obtain ⟨rfl, rfl, k, c1, h1, e⟩ := hg
        rw [e]
        have e7 : (g.planner q c1).initTime = q.initTime + g.delay := rfl
        have e8 : (g.planner q c1).endTime = q.endTime + g.delay := rfl
        simp only [e7, e8, add_le_add_iff_right]
        by_cases hle : q.endTime ≤ q.initTime
        · rw [if_pos hle, if_pos hle]
          exact ⟨fl, fr, k, c1, h1, rfl⟩
        rw [if_neg hle, if_neg hle]
        rw [← k.controller] at h1
        obtain ⟨k1, k2, k3⟩ := hi q (g.planner q c1) k.controller (plannerMoved h1) e7 e8 (by rw [k.initTime]; exact h0) u
        simp only [e7, e8] at k1 k2 k3
        rw [k.controller] at k1
        rcases hy : integ q u q.initTime q.endTime with ⟨ctrl, sol⟩
        rcases hz : integ (g.planner q c1) (g.pose u) (q.initTime + g.delay) (q.endTime + g.delay) with ⟨ctrl', sol'⟩
        rw [hy, hz] at k1
        rw [hy, hz] at k2
        rw [hy, hz] at k3
        have kk : Kept p { q with ctrl := ctrl } := ⟨k.1, k.2, k.3, k.4, k.5⟩
        cases sol with
        | none =>
          have : sol' = none := k3 rfl
          subst this
          exact ⟨fl, fr, kk, ctrl', k1, rfl⟩
        | some s =>
          obtain ⟨s', hs1, hs2⟩ := k2 s rfl
          simp only at hs1
          subst hs1
          exact ⟨fl, fr, kk, ctrl', s', k1, hs2, rfl⟩

end Uni.Spec
