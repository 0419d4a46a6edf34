import Verif.Lemmas.MirrorPlanner

/-! # Plans in the mirror: a whole call -/

set_option autoImplicit false
set_option linter.unusedSectionVars false

namespace Uni.Spec.Mirror
variable {K : Type} [Field K] [LinearOrder K] [IsStrictOrderedRing K] [FloorRing K] [Trig K]

/-! ## Limits of the controllers and references -/

theorem saturations (p : Planner K) : (planner p).setSaturations = (p.setSaturations.1, planner p.setSaturations.2) := by
  unfold Planner.setSaturations
  have e1 : (planner p).maxLength = p.maxLength := rfl
  have e2 : (planner p).nominalWidth = p.nominalWidth := rfl
  have e3 : (planner p).minTime = p.minTime := rfl
  have e4 : (planner p).linFactor = p.linFactor := rfl
  have e5 : (planner p).maxAngle = p.maxAngle := rfl
  have e6 : (planner p).angFactor = p.angFactor := rfl
  have e7 : (planner p).ctrl = controllers p.ctrl := rfl
  have e8 : (controllers p.ctrl).person.base = p.ctrl.person.base := rfl
  have e9 : (controllers p.ctrl).directBase = p.ctrl.directBase := rfl
  have e10 : (planner p).controller = p.controller := rfl
  simp only [e1, e2, e3, e4, e5, e6, e7, e8, e9, e10]
  generalize Trig.sqrt (p.maxLength ^ 2 - p.nominalWidth ^ 2) / p.minTime * p.linFactor = v
  generalize p.maxAngle / p.minTime * p.angFactor = w
  rcases p.ctrl.person.base.setSaturations v w with ⟨_ | _, b⟩
  · rfl
  simp only
  rcases p.ctrl.directBase.setSaturations v w with ⟨_ | _, d⟩
  · rfl
  simp only
  by_cases hn : p.controller = .navigation
  · rw [if_pos hn, if_pos hn]
    have key : (controllers p.ctrl).nav.setSaturations v w =
        ((p.ctrl.nav.setSaturations v w).1, (controllers { p.ctrl with nav := (p.ctrl.nav.setSaturations v w).2 }).nav) := by
      unfold NavCtrl.setSaturations
      have : (controllers p.ctrl).nav.base = p.ctrl.nav.base := rfl
      rw [this]
      rcases p.ctrl.nav.base.setSaturations v w with ⟨_ | _, b'⟩
      · rfl
      · simp only [NavCtrl.setMaxVelocities]
        split_ifs <;> rfl
    rw [key]
    rfl
  · rw [if_neg hn, if_neg hn]
    rfl

theorem vector_nil : vector (0 : Vec2 K) = 0 := by ext <;> simp [vector]

theorem person_position (hp : TrigParity K) (c : PersonCtrl K) (v : Vec2 K) (a : K) :
    (person c).getPersonPosition (vector v) (-a) = vector (c.getPersonPosition v a) := by
  unfold PersonCtrl.getPersonPosition
  rw [vector_add, ← rot_vector hp]
  rfl

theorem person_point (c : PersonCtrl K) (q : TrajPoint K) :
    (person c).setDesiredPoint (desired q) = ((c.setDesiredPoint q).1, person (c.setDesiredPoint q).2) := by
  unfold PersonCtrl.setDesiredPoint
  have e1 : (desired q).initTime = q.initTime := rfl
  have e2 : (person c).traj ++ [desired q] = (c.traj ++ [q]).map desired := by simp [person]
  rw [e1, e2]
  split_ifs
  · rfl
  · have e3 : List.insertionSort (fun a b : TrajPoint K => a.initTime ≤ b.initTime) ((c.traj ++ [q]).map desired) =
        (List.insertionSort (fun a b => a.initTime ≤ b.initTime) (c.traj ++ [q])).map desired :=
      (List.map_insertionSort _ _ desired _ fun a _ b _ => by simp [desired]).symm
    rw [e3]
    rfl

theorem chooseSwing (p : Planner K) : (planner p).chooseSwing = planner p.chooseSwing := by
  unfold Planner.chooseSwing
  have e1 : (planner p).firstStep = p.firstStep := rfl
  have e2 : (planner p).controller = p.controller := rfl
  have e3 : (planner p).ctrl.direct.desired.lateral = -p.ctrl.direct.desired.lateral := rfl
  have e4 : (planner p).ctrl.nav.desired.lateral = -p.ctrl.nav.desired.lateral := rfl
  have flip : ∀ x : K, 0 < |x| → decide (0 < -x) = !decide (0 < x) := by
    intro x hx
    have hx0 : x ≠ 0 := abs_pos.mp hx
    rcases lt_or_gt_of_ne hx0 with h | h
    · simp [h, h.le]
    · simp [h, h.le]
  simp only [e1, e2, e3, abs_neg]
  by_cases hd : p.firstStep = true ∧ p.controller = .direct ∧ 0 < |p.ctrl.direct.desired.lateral|
  · obtain ⟨h1, h2, h3⟩ := hd
    simp only [h1, h2, h3, decide_true, Bool.and_true, if_true, reduceCtorEq, decide_false, Bool.and_false, Bool.false_and,
      Bool.false_eq_true, if_false, e2, flip _ h3]
    rfl
  · have hc : (p.firstStep && decide (p.controller = .direct) && decide (0 < |p.ctrl.direct.desired.lateral|)) = false := by
      by_contra hne
      rw [Bool.not_eq_false] at hne
      simp only [Bool.and_eq_true, decide_eq_true_eq] at hne
      exact hd ⟨hne.1.1, hne.1.2, hne.2⟩
    simp only [hc, Bool.false_eq_true, if_false, e1, e2, e4, abs_neg]
    by_cases hn : p.firstStep = true ∧ p.controller = .navigation ∧ 0 < |p.ctrl.nav.desired.lateral|
    · obtain ⟨h1, h2, h3⟩ := hn
      simp only [h1, h2, h3, decide_true, Bool.and_true, if_true, flip _ h3]
      rfl
    · have hc' : (p.firstStep && decide (p.controller = .navigation) && decide (0 < |p.ctrl.nav.desired.lateral|)) = false := by
        by_contra hne
        rw [Bool.not_eq_false] at hne
        simp only [Bool.and_eq_true, decide_eq_true_eq] at hne
        exact hn ⟨hne.1.1, hne.1.2, hne.2⟩
      simp only [hc', Bool.false_eq_true, if_false]

/-- The outcome of `getInitialStateFromFeet`. -/
def initResult : Planner.InitResult K → Planner.InitResult K
  | .failed p l r => .failed (planner p) (ufoot r) (ufoot l)
  | .ok p l r u => .ok (planner p) (ufoot r) (ufoot l) (pose u)
  | .ub w => .ub w

theorem initReferences (hp : TrigParity K) (p : Planner K) (l r : Foot K) (u : UState K) (tf t : K) :
    (planner p).initReferences (ufoot r) (ufoot l) (pose u) tf t = initResult (p.initReferences l r u tf t) := by
  unfold Planner.initReferences
  by_cases ht : t < tf
  · rw [if_pos ht, if_pos ht]; rfl
  rw [if_neg ht, if_neg ht]
  have e1 : (planner p).ctrl.person = person p.ctrl.person := rfl
  have edes : ∀ s : K, (⟨s, vector (p.ctrl.person.getPersonPosition u.position u.angle), 0⟩ : TrajPoint K) =
      desired ⟨s, p.ctrl.person.getPersonPosition u.position u.angle, 0⟩ := by
    intro s; simp only [desired, vector_nil]
  have epos : (person p.ctrl.person).getPersonPosition (pose u).position (pose u).angle =
      vector (p.ctrl.person.getPersonPosition u.position u.angle) := person_position hp _ _ _
  simp only [e1, epos, edes, person_point]
  rcases p.ctrl.person.setDesiredPoint ⟨t, p.ctrl.person.getPersonPosition u.position u.angle, 0⟩ with ⟨_ | _, a⟩
  · rfl
  simp only
  have e2 : (planner p).firstStep = p.firstStep := rfl
  have e3 : (planner p).nominalTime = p.nominalTime := rfl
  have e4 : (planner p).minTime = p.minTime := rfl
  simp only [e2, e3, e4]
  by_cases hf : p.firstStep = true
  · rw [if_pos hf, if_pos hf]
    generalize t + p.nominalTime - p.minTime = T
    rw [person_point]
    rcases a.setDesiredPoint ⟨T, p.ctrl.person.getPersonPosition u.position u.angle, 0⟩ with ⟨_ | _, b⟩
    · rfl
    · show Planner.InitResult.ok (Planner.chooseSwing (planner { p with ctrl := { p.ctrl with
          person := b, direct := p.ctrl.direct.setInactiveUntil T, nav := p.ctrl.nav.setInactiveUntil T } })) _ _ _ = _
      rw [chooseSwing]; rfl
  · rw [if_neg hf, if_neg hf]
    show Planner.InitResult.ok (Planner.chooseSwing (planner { p with ctrl := { p.ctrl with person := a } })) _ _ _ = _
    rw [chooseSwing]; rfl

theorem findRev (t : K) (l : List (TrajPoint K)) : ∀ next : Option (TrajPoint K),
    PersonCtrl.findRev t (next.map desired) (l.map desired) =
      (PersonCtrl.findRev t next l).map fun q => (desired q.1, q.2.map desired) := by
  induction l with
  | nil => intro _; rfl
  | cons a l ih =>
    intro next
    simp only [List.map_cons, PersonCtrl.findRev]
    have : (desired a).initTime = a.initTime := rfl
    rw [this]
    split_ifs
    · rfl
    · exact ih (some a)

/-- Both halves of a reference. -/
def both (q : Vec2 K × Vec2 K) : Vec2 K × Vec2 K := (vector q.1, vector q.2)

theorem desiredPoint (l : List (TrajPoint K)) (t : K) :
    PersonCtrl.desiredPoint (l.map desired) t = (PersonCtrl.desiredPoint l t).map both := by
  unfold PersonCtrl.desiredPoint
  split_ifs with h
  · rfl
  cases l with
  | nil => rfl
  | cons a l =>
    have e1 : (desired a).initTime = a.initTime := rfl
    simp only [List.map_cons, e1]
    by_cases ht : t < a.initTime
    · rw [if_pos ht, if_pos ht]; rfl
    rw [if_neg ht, if_neg ht, show desired a :: l.map desired = (a :: l).map desired from rfl, ← List.map_reverse]
    have hfr := findRev t (a :: l).reverse none
    simp only [Option.map_none] at hfr
    rw [hfr]
    rcases PersonCtrl.findRev t none (a :: l).reverse with _ | ⟨q, _ | q'⟩
    · rfl
    · rfl
    · simp only [Option.map_some, Option.map_none]
      unfold PersonCtrl.interpolateReferences
      have e2 : (desired q).initTime = q.initTime := rfl
      have e3 : (desired q').initTime = q'.initTime := rfl
      simp only [e2, e3]
      split_ifs
      · rfl
      · simp only [Out.map, both, desired]
        congr 2 <;> ext <;> simp [vector] <;> ring

theorem stateWithoutSteps (p : Planner K) (t : K) :
    (planner p).stateWithoutSteps t = (p.stateWithoutSteps t).map pose := by
  unfold Planner.stateWithoutSteps
  have e1 : (planner p).controller = p.controller := rfl
  have e0 : (⟨0, 0⟩ : UState K) = pose ⟨0, 0⟩ := by simp [pose, vector_nil]
  rw [e1]
  cases p.controller with
  | personFollowing =>
    simp only [PersonCtrl.getDesiredPoint]
    have : (planner p).ctrl.person.traj = p.ctrl.person.traj.map desired := rfl
    rw [this, desiredPoint]
    rcases PersonCtrl.desiredPoint p.ctrl.person.traj t with ⟨y, yd⟩ | _ | w
    · show Out.ok (⟨vector y - vector p.ctrl.person.personDistance, 0⟩ : UState K) =
        Out.ok (pose ⟨y - p.ctrl.person.personDistance, 0⟩)
      rw [← vector_sub]
      simp [pose]
    · rfl
    · rfl
  | direct => exact congrArg Out.ok e0
  | navigation => exact congrArg Out.ok e0

theorem getInitialState (hp : TrigParity K) (p : Planner K) (l r : Foot K) (t : K) :
    (planner p).getInitialStateFromFeet (ufoot r) (ufoot l) t = initResult (p.getInitialStateFromFeet l r t) := by
  have href : ∀ (a b : Bool) (u : UState K) (s : K),
      Planner.initReferences { planner p with swingLeft := !a, firstStep := b } (ufoot r) (ufoot l) (pose u) s t =
        initResult (Planner.initReferences { p with swingLeft := a, firstStep := b } l r u s t) := by
    intro a b u s
    exact initReferences hp { p with swingLeft := a, firstStep := b } l r u s t
  unfold Planner.getInitialStateFromFeet
  rw [ufoot_last, ufoot_last]
  have e1 : (planner p).startLeft = !p.startLeft := rfl
  cases hl : l.getLastStep with
  | none =>
    cases hr : r.getLastStep with
    | none =>
      simp only [Option.map_none, stateWithoutSteps]
      rcases p.stateWithoutSteps t with u | _ | w
      · simp only [Out.map, ufoot_addStep hp]
        show Planner.InitResult.ok (Planner.chooseSwing (planner { p with firstStep := true, swingLeft := p.startLeft })) _ _ _ = _
        rw [chooseSwing]; rfl
      · rfl
      · rfl
    | some s =>
      simp only [Option.map_none, Option.map_some, ufoot_state hp, step_impactTime]
      cases r.getUnicycleStateFromStep s with
      | none => rfl
      | some u => exact href true false u _
  | some s =>
    cases hr : r.getLastStep with
    | none =>
      simp only [Option.map_none, Option.map_some, ufoot_state hp, step_impactTime]
      cases l.getUnicycleStateFromStep s with
      | none => rfl
      | some u => exact href false false u _
    | some q =>
      simp only [Option.map_some, ufoot_state hp, step_impactTime]
      by_cases ht : s.impactTime = q.impactTime
      · rw [if_pos ht, if_pos ht.symm]
        by_cases hsl : p.startLeft = true
        swap
        · rw [if_neg hsl, if_pos (by rw [e1]; simp [hsl])]
          cases l.getUnicycleStateFromStep s with
          | none => rfl
          | some u => rw [ht]; exact href false true u _
        · rw [if_pos hsl, if_neg (by rw [e1]; simp [hsl])]
          cases r.getUnicycleStateFromStep q with
          | none => rfl
          | some u => rw [ht]; exact href true true u _
      · rw [if_neg ht, if_neg (Ne.symm ht)]
        rcases lt_or_gt_of_ne ht with h | h
        · rw [if_pos h, if_neg h.le.not_gt]
          cases r.getUnicycleStateFromStep q with
          | none => rfl
          | some u => exact href true false u _
        · rw [if_neg h.le.not_gt, if_pos h]
          cases l.getUnicycleStateFromStep s with
          | none => rfl
          | some u => exact href false false u _

theorem configureFoot (f : Foot K) (a b c d : K) :
    Planner.configureFoot (ufoot f) (-a) (-b) c d = (Planner.configureFoot f a b c d).map ufoot := by
  unfold Planner.configureFoot Foot.setTinyStepLength Foot.setTinyStepAngle
  simp only
  by_cases h1 : c < 0
  · simp [h1]
  · by_cases h2 : d < 0
    · simp [h1, h2]
    · simp [h1, h2, Foot.setDistanceFromUnicycle, Foot.setYawOffset, ufoot, vector]

/-! ## What the beginning of a call gives -/

/-- What the beginning of a call leaves alone. -/
structure Same (p q : Planner K) : Prop where
  drives : DrivesAs p q
  initTime : q.initTime = p.initTime
  endTime : q.endTime = p.endTime

theorem Same.refl (p : Planner K) : Same p p := ⟨⟨rfl, rfl, rfl, rfl⟩, rfl, rfl⟩

theorem chooseSwing_same {p q : Planner K} (h : Same p q) : Same p q.chooseSwing := by
  unfold Planner.chooseSwing
  split_ifs <;> dsimp only <;> split_ifs <;> exact ⟨⟨h.1.1, h.1.2, h.1.3⟩, h.2, h.3⟩

theorem setDesiredPoint_space (c : PersonCtrl K) (q : TrajPoint K) :
    (c.setDesiredPoint q).2.outer = c.outer ∧ (c.setDesiredPoint q).2.inner = c.inner := by
  unfold PersonCtrl.setDesiredPoint
  split_ifs <;> exact ⟨rfl, rfl⟩

theorem initReferences_same {p q q' : Planner K} (h : Same p q) {l r l' r' : Foot K} {u u' : UState K} {tf t : K}
    (hok : q.initReferences l r u tf t = .ok q' l' r' u') : Same p q' ∧ l' = l ∧ r' = r ∧ u' = u := by
  unfold Planner.initReferences at hok
  split_ifs at hok
  simp only at hok
  have h1 := setDesiredPoint_space q.ctrl.person ⟨t, q.ctrl.person.getPersonPosition u.position u.angle, 0⟩
  rcases hx : q.ctrl.person.setDesiredPoint ⟨t, q.ctrl.person.getPersonPosition u.position u.angle, 0⟩ with ⟨_ | _, a⟩ <;>
    rw [hx] at hok h1
  · simp at hok
  simp only at hok h1
  split_ifs at hok
  · have h2 := setDesiredPoint_space a ⟨t + q.nominalTime - q.minTime, q.ctrl.person.getPersonPosition u.position u.angle, 0⟩
    rcases hy : a.setDesiredPoint ⟨t + q.nominalTime - q.minTime, q.ctrl.person.getPersonPosition u.position u.angle, 0⟩ with
      ⟨_ | _, b⟩ <;> rw [hy] at hok h2
    · simp at hok
    simp only [Planner.InitResult.ok.injEq] at hok
    obtain ⟨rfl, rfl, rfl, rfl⟩ := hok
    refine ⟨chooseSwing_same ⟨⟨h.1.1, h.1.2, ?_, ?_⟩, h.2, h.3⟩, rfl, rfl, rfl⟩
    · exact (h2.1.trans h1.1).trans h.1.3.1
    · exact (h2.2.trans h1.2).trans h.1.3.2
  · simp only [Planner.InitResult.ok.injEq] at hok
    obtain ⟨rfl, rfl, rfl, rfl⟩ := hok
    exact ⟨chooseSwing_same ⟨⟨h.1.1, h.1.2, h1.1.trans h.1.3.1, h1.2.trans h.1.3.2⟩, h.2, h.3⟩, rfl, rfl, rfl⟩

theorem unicycle_angle {f : Foot K} (hf : f.yawOffset = 0) {s : Step K} {u : UState K}
    (h : f.getUnicycleStateFromStep s = some u) : u.angle = s.angle := by
  unfold Foot.getUnicycleStateFromStep at h
  split_ifs at h
  simp only [Option.some.injEq] at h
  subst h
  simp [Foot.unicycleAngle, hf]

theorem getInitialState_ahead {p q : Planner K} {l r l' r' : Foot K} {u : UState K} {t : K} (hl : l.yawOffset = 0)
    (hr : r.yawOffset = 0) (hs : ∀ a b, l.getLastStep = some a → r.getLastStep = some b → a.angle = b.angle)
    (hok : p.getInitialStateFromFeet l r t = .ok q l' r' u) : Same p q ∧ Ahead u.angle l' r' := by
  have hsw : ∀ a b : Bool, Same p { p with swingLeft := a, firstStep := b } := fun _ _ => ⟨⟨rfl, rfl, rfl, rfl⟩, rfl, rfl⟩
  unfold Planner.getInitialStateFromFeet at hok
  cases el : l.getLastStep with
  | none =>
    rw [el] at hok
    cases er : r.getLastStep with
    | none =>
      rw [er] at hok
      simp only at hok
      rcases hw : p.stateWithoutSteps t with v | _ | w <;> rw [hw] at hok
      · simp only [Planner.InitResult.ok.injEq] at hok
        obtain ⟨rfl, rfl, rfl, rfl⟩ := hok
        have k1 := last_addStep (f := l) (u := v) (t := t) (a := v.angle) (by simp [el]) hl rfl
        have k2 := last_addStep (f := r) (u := v) (t := t) (a := v.angle) (by simp [er]) hr rfl
        exact ⟨chooseSwing_same ⟨⟨rfl, rfl, rfl, rfl⟩, rfl, rfl⟩, k1.1, k2.1, k1.2, k2.2⟩
      · simp at hok
      · simp at hok
    | some s =>
      rw [er] at hok
      simp only at hok
      cases hu : r.getUnicycleStateFromStep s with
      | none => rw [hu] at hok; simp at hok
      | some v =>
        rw [hu] at hok
        obtain ⟨k, rfl, rfl, rfl⟩ := initReferences_same (hsw _ _) hok
        refine ⟨k, by simp [el], ?_, hl, hr⟩
        rw [er]; rintro _ ⟨⟩; exact (unicycle_angle hr hu).symm
  | some s =>
    rw [el] at hok
    cases er : r.getLastStep with
    | none =>
      rw [er] at hok
      simp only at hok
      cases hu : l.getUnicycleStateFromStep s with
      | none => rw [hu] at hok; simp at hok
      | some v =>
        rw [hu] at hok
        obtain ⟨k, rfl, rfl, rfl⟩ := initReferences_same (hsw _ _) hok
        refine ⟨k, ?_, by simp [er], hl, hr⟩
        rw [el]; rintro _ ⟨⟩; exact (unicycle_angle hl hu).symm
    | some s' =>
      rw [er] at hok
      simp only at hok
      have hss := hs s s' el er
      have viaR : ∀ (a b : Bool) (tf : K) (v : UState K), r.getUnicycleStateFromStep s' = some v →
          Planner.initReferences { p with swingLeft := a, firstStep := b } l r v tf t = .ok q l' r' u →
          Same p q ∧ Ahead u.angle l' r' := by
        intro a b tf v hu h
        obtain ⟨k, rfl, rfl, rfl⟩ := initReferences_same (hsw _ _) h
        have ha := unicycle_angle hr hu
        refine ⟨k, ?_, ?_, hl, hr⟩
        · rw [el]; rintro _ ⟨⟩; rw [ha, hss]
        · rw [er]; rintro _ ⟨⟩; rw [ha]
      have viaL : ∀ (a b : Bool) (tf : K) (v : UState K), l.getUnicycleStateFromStep s = some v →
          Planner.initReferences { p with swingLeft := a, firstStep := b } l r v tf t = .ok q l' r' u →
          Same p q ∧ Ahead u.angle l' r' := by
        intro a b tf v hu h
        obtain ⟨k, rfl, rfl, rfl⟩ := initReferences_same (hsw _ _) h
        have ha := unicycle_angle hl hu
        refine ⟨k, ?_, ?_, hl, hr⟩
        · rw [el]; rintro _ ⟨⟩; rw [ha]
        · rw [er]; rintro _ ⟨⟩; rw [ha, hss]
      split_ifs at hok
      · cases hu : r.getUnicycleStateFromStep s' with
        | none => rw [hu] at hok; simp at hok
        | some v => rw [hu] at hok; exact viaR _ _ _ v hu hok
      · cases hu : l.getUnicycleStateFromStep s with
        | none => rw [hu] at hok; simp at hok
        | some v => rw [hu] at hok; exact viaL _ _ _ v hu hok
      · cases hu : r.getUnicycleStateFromStep s' with
        | none => rw [hu] at hok; simp at hok
        | some v => rw [hu] at hok; exact viaR _ _ _ v hu hok
      · cases hu : l.getUnicycleStateFromStep s with
        | none => rw [hu] at hok; simp at hok
        | some v => rw [hu] at hok; exact viaL _ _ _ v hu hok

/-- The outcome of `initializePlanner`. -/
def setupResult : Planner.SetupResult K → Planner.SetupResult K
  | .failed p l r => .failed (planner p) (ufoot r) (ufoot l)
  | .ok p l r sol => .ok (planner p) (ufoot r) (ufoot l) fun t => pose (sol t)
  | .ub w => .ub w

theorem configureFoot_yaw {f f' : Foot K} {a b c d : K} (h : Planner.configureFoot f a b c d = some f') :
    f'.yawOffset = b ∧ f'.fp = f.fp := by
  unfold Planner.configureFoot Foot.setTinyStepLength Foot.setTinyStepAngle at h
  simp only at h
  by_cases h1 : c < 0
  · simp [h1] at h
  · by_cases h2 : d < 0
    · simp [h1, h2] at h
    · simp only [h1, h2, if_false, Option.some.injEq] at h
      subst h; exact ⟨rfl, rfl⟩

theorem initializePlanner (hp : TrigParity K) {p₀ p : Planner K} (h0 : DrivesAs p₀ p) {integ : Integrator K}
    (hi : IntegratorMirrored p₀ integ) (hn : NeverTurns p₀ integ) (l r : Foot K) (hf : FeetAhead p l.fp r.fp) :
    (planner p).initializePlanner integ (ufoot r) (ufoot l) = setupResult (p.initializePlanner integ l r) ∧
      ∀ q l' r' sol, p.initializePlanner integ l r = .ok q l' r' sol → ∃ a, Ahead a l' r' ∧ ∀ t, (sol t).angle = a := by
  unfold Planner.initializePlanner
  have e1 : (planner p).nominalWidth / 2 = -(-p.nominalWidth / 2) := by
    show p.nominalWidth / 2 = _; ring
  have e2 : -(planner p).nominalWidth / 2 = -(p.nominalWidth / 2) := by
    show -p.nominalWidth / 2 = _; ring
  have e3 : (planner p).leftYaw = -p.rightYaw := rfl
  have e4 : (planner p).rightYaw = -p.leftYaw := rfl
  have e5 : (planner p).minLength = p.minLength := rfl
  have e6 : (planner p).minAngle = p.minAngle := rfl
  have e7 : (planner p).initTime = p.initTime := rfl
  rw [e1, e2, e3, e4, e5, e6, e7, configureFoot, configureFoot]
  cases hl : Planner.configureFoot l (p.nominalWidth / 2) p.leftYaw p.minLength p.minAngle with
  | none =>
    refine ⟨?_, fun q l' r' sol h => by simp at h⟩
    cases Planner.configureFoot r (-p.nominalWidth / 2) p.rightYaw p.minLength p.minAngle <;> rfl
  | some l1 =>
    cases hr : Planner.configureFoot r (-p.nominalWidth / 2) p.rightYaw p.minLength p.minAngle with
    | none => exact ⟨rfl, fun q l' r' sol h => by simp at h⟩
    | some r1 =>
      simp only [Option.map_some]
      obtain ⟨yl, fl⟩ := configureFoot_yaw hl
      obtain ⟨yr, fr⟩ := configureFoot_yaw hr
      rw [hf.leftYaw] at yl
      rw [hf.rightYaw] at yr
      rw [getInitialState hp]
      cases hx : p.getInitialStateFromFeet l1 r1 p.initTime with
      | failed q a b => exact ⟨rfl, fun q l' r' sol h => by simp at h⟩
      | ub w => exact ⟨rfl, fun q l' r' sol h => by simp at h⟩
      | ok q a b u =>
        have hs : ∀ x y, l1.getLastStep = some x → r1.getLastStep = some y → x.angle = y.angle := by
          intro x y hx hy
          unfold Foot.getLastStep at hx hy
          rw [fl] at hx
          rw [fr] at hy
          exact hf.same x y hx hy
        obtain ⟨ks, ka⟩ := getInitialState_ahead yl yr hs hx
        simp only [initResult]
        have e8 : (planner q).initTime = q.initTime := rfl
        have e9 : (planner q).endTime = q.endTime := rfl
        rw [e8, e9]
        by_cases hle : q.endTime ≤ q.initTime
        · rw [if_pos hle, if_pos hle]
          exact ⟨rfl, fun q l' r' sol h => by simp at h⟩
        rw [if_neg hle, if_neg hle]
        have hd : DrivesAs p₀ q := ⟨ks.1.1.trans h0.1, ks.1.2.trans h0.2, ks.1.3.1.trans h0.3.1, ks.1.3.2.trans h0.3.2⟩
        rw [hi q u q.initTime q.endTime hd]
        have hturn := hn q u q.initTime q.endTime
        rcases hz : integ q u q.initTime q.endTime with ⟨c, _ | sol⟩
        · exact ⟨rfl, fun q l' r' sol h => by simp at h⟩
        · refine ⟨rfl, fun q' l' r' sol' h => ?_⟩
          simp only [Planner.SetupResult.ok.injEq] at h
          obtain ⟨_, rfl, rfl, rfl⟩ := h
          exact ⟨u.angle, ka, hturn sol hd (by rw [hz])⟩

/-! ## The whole call -/

/-- The outcome of a call. -/
def planResult : PlanResult K → PlanResult K
  | .done ok p l r => .done ok (planner p) (footPrint r) (footPrint l)
  | .ub w => .ub w
  | .outOfFuel => .outOfFuel

theorem alignLastSteps (p : Planner K) (l r : FootPrint K) :
    (planner p).alignLastSteps (footPrint r) (footPrint l) = planResult (p.alignLastSteps l r) := by
  unfold Planner.alignLastSteps
  rw [footPrint_last, footPrint_last]
  cases hl : l.getLastStep with
  | none => cases r.getLastStep <;> rfl
  | some s =>
    cases hr : r.getLastStep with
    | none => rfl
    | some q =>
      simp only [Option.map_some, step_impactTime, footPrint_clearLast]
      have er : (planner p).resetStartingFoot = p.resetStartingFoot := rfl
      have ea : ∀ (f : FootPrint K) (x : Step K) (t : K),
          (footPrint f).addStep { step x with impactTime := t } =
            ((f.addStep { x with impactTime := t }).1, footPrint (f.addStep { x with impactTime := t }).2) := by
        intro f x t; exact footPrint_addStep _ _ _ _ _ _
      have es : ∀ b, ({ planner p with startLeft := b } : Planner K) = planner { p with startLeft := !b } := by
        intro b; simp [planner]
      rcases lt_trichotomy s.impactTime q.impactTime with h | h | h
      · rw [if_pos h, if_neg h.le.not_gt, if_pos h, ea, er]
        cases p.resetStartingFoot
        · simp only [Bool.false_eq_true, if_false, es]; rfl
        · rfl
      · have n1 : ¬ s.impactTime < q.impactTime := by rw [h]; exact lt_irrefl _
        have n2 : ¬ q.impactTime < s.impactTime := by rw [h]; exact lt_irrefl _
        rw [if_neg n1, if_neg n2, if_neg n2, if_neg n1]; rfl
      · rw [if_neg h.le.not_gt, if_pos h, if_pos h, ea, er]
        cases p.resetStartingFoot
        · simp only [Bool.false_eq_true, if_false, es]; rfl
        · rfl

theorem finish (hp : TrigParity K) (p : Planner K) {a : K} {sol : K → UState K} (hsol : ∀ t, (sol t).angle = a) (nl nr : Nat)
    {s : Loop K} (h : Ahead a s.left s.right) :
    (planner p).finish (fun t => pose (sol t)) nr nl (loop s) = planResult (p.finish sol nl nr s) := by
  unfold Planner.finish
  have e1 : ({ planner p with swingLeft := (loop s).swingLeft, firstStep := (loop s).firstStep } : Planner K) =
    planner { p with swingLeft := s.swingLeft, firstStep := s.firstStep } := rfl
  have e2 : (loop s).left = ufoot s.right := rfl
  have e3 : (loop s).right = ufoot s.left := rfl
  have e4 : (loop s).swingLeft = !s.swingLeft := rfl
  have e5 : (loop s).firstStep = s.firstStep := rfl
  simp only [e1, e2, e3, e4]
  rw [e5, show ({ planner p with swingLeft := !s.swingLeft, firstStep := s.firstStep } : Planner K) =
    planner { p with swingLeft := s.swingLeft, firstStep := s.firstStep } from rfl]
  generalize ({ p with swingLeft := s.swingLeft, firstStep := s.firstStep } : Planner K) = q
  have e6 : (planner p).addTerminal = p.addTerminal := rfl
  have e7 : (planner p).endTime = p.endTime := rfl
  rw [e6, e7, terminal hp h _ _ (hsol _)]
  have key : ∀ x : Bool × Foot K × Foot K,
      (match ((x.1, ufoot x.2.2, ufoot x.2.1) : Bool × Foot K × Foot K) with
        | (false, left, right) => PlanResult.done false (planner q) left.fp right.fp
        | (true, left, right) =>
          if nr = left.fp.numberOfSteps ∧ nl = right.fp.numberOfSteps then (planner q).alignLastSteps left.fp right.fp
          else .done true (planner q) left.fp right.fp) =
      planResult (match x with
        | (false, left, right) => PlanResult.done false q left.fp right.fp
        | (true, left, right) =>
          if nl = left.fp.numberOfSteps ∧ nr = right.fp.numberOfSteps then q.alignLastSteps left.fp right.fp
          else .done true q left.fp right.fp) := by
    rintro ⟨_ | _, x, y⟩
    · rfl
    · have e8 : (ufoot x).fp = footPrint x.fp := rfl
      have e9 : (ufoot y).fp = footPrint y.fp := rfl
      simp only [e8, e9, footPrint_count, and_comm (a := nr = _)]
      split_ifs
      · exact alignLastSteps _ _ _
      · rfl
  by_cases ht : p.addTerminal = true
  · rw [if_pos ht, if_pos ht]; exact key _
  · rw [if_neg ht, if_neg ht]; exact key (true, s.left, s.right)

theorem plan (hp : TrigParity K) (p : Planner K) {a : K} {sol : K → UState K} (hsol : ∀ t, (sol t).angle = a) (fuel : Nat)
    {l r : Foot K} (h : Ahead a l r) :
    (planner p).plan (fun t => pose (sol t)) fuel (ufoot r) (ufoot l) = planResult (p.plan sol fuel l r) := by
  unfold Planner.plan
  have e1 : (if (planner p).swingLeft = true then ufoot l else ufoot r).getLastStep =
      (if p.swingLeft = true then r else l).getLastStep.map step := by
    show (if (!p.swingLeft) = true then ufoot l else ufoot r).getLastStep = _
    cases p.swingLeft
    · exact ufoot_last l
    · exact ufoot_last r
  rw [e1]
  cases (if p.swingLeft = true then r else l).getLastStep with
  | none => rfl
  | some prev =>
    simp only [Option.map_some]
    have e2 : (planner p).initialLoop (ufoot r) (ufoot l) (step prev) = loop (p.initialLoop l r prev) := rfl
    have ha : Ahead a (p.initialLoop l r prev).left (p.initialLoop l r prev).right := h
    rw [e2, run_loop hp hsol fuel ha]
    cases hx : p.loop sol fuel (p.initialLoop l r prev) with
    | outOfFuel => rfl
    | failed s => rfl
    | exit s =>
      have hs := ahead_loop hsol fuel ha hx
      simp only [loopResult]
      have e3 : (ufoot l).fp.numberOfSteps = l.fp.numberOfSteps := footPrint_count _
      have e4 : (ufoot r).fp.numberOfSteps = r.fp.numberOfSteps := footPrint_count _
      rw [e3, e4]
      exact finish hp p hsol _ _ hs

theorem setSaturations_drives (p : Planner K) : DrivesAs p p.setSaturations.2 ∧ p.setSaturations.2.leftYaw = p.leftYaw ∧
    p.setSaturations.2.rightYaw = p.rightYaw := by
  unfold Planner.setSaturations
  simp only
  rcases p.ctrl.person.base.setSaturations _ _ with ⟨_ | _, b⟩
  · exact ⟨⟨rfl, rfl, rfl, rfl⟩, rfl, rfl⟩
  simp only
  rcases p.ctrl.directBase.setSaturations _ _ with ⟨_ | _, d⟩
  · exact ⟨⟨rfl, rfl, rfl, rfl⟩, rfl, rfl⟩
  simp only
  split_ifs <;> exact ⟨⟨rfl, rfl, rfl, rfl⟩, rfl, rfl⟩

theorem new_foot (f : FootPrint K) : Foot.new (footPrint f) = ufoot (Foot.new f) := by
  simp [Foot.new, ufoot, vector_nil]

theorem computeNewSteps (hp : TrigParity K) {p : Planner K} {integ : Integrator K} (hi : IntegratorMirrored p integ)
    (hn : NeverTurns p integ) (fuel : Nat) {l r : FootPrint K} (hf : FeetAhead p l r) (t0 t1 : K) :
    (planner p).computeNewSteps integ fuel (footPrint r) (footPrint l) t0 t1 = planResult (p.computeNewSteps integ fuel l r t0 t1) := by
  unfold Planner.computeNewSteps
  have e1 : (planner p).maxLength = p.maxLength := rfl
  have e2 : (planner p).nominalWidth = p.nominalWidth := rfl
  have e3 : (planner p).maxLengthBackward = p.maxLengthBackward := rfl
  have e4 : (planner p).maxAngle = p.maxAngle := rfl
  have e5 : (planner p).minAngle = p.minAngle := rfl
  have e6 : (⟨controllers p.ctrl, p.controller, (planner p).problem, p.integratorStep, t0, t1, p.minTime, p.maxTime, p.nominalTime, p.dT,
      p.minAngle, p.nominalWidth, p.maxLength, p.maxLengthBackward, p.minLength, p.maxAngle, p.addTerminal, !p.startLeft,
      p.resetStartingFoot, p.firstStep, p.method, -p.rightYaw, -p.leftYaw, !p.swingLeft, p.linFactor, p.angFactor⟩ : Planner K).setSaturations =
      _ := saturations { p with initTime := t0, endTime := t1 }
  rw [e1, e2, e3, e4, e5]
  have e7 : ∀ x y : Bool × Planner K, x = y → (match x with
      | (false, p) => PlanResult.done false p (footPrint r) (footPrint l)
      | (true, p) =>
        match p.initializePlanner integ (Foot.new (footPrint r)) (Foot.new (footPrint l)) with
        | .failed p left right => PlanResult.done false p left.fp right.fp
        | .ub w => .ub w
        | .ok p left right sol => p.plan sol fuel left right) = (match y with
      | (false, p) => PlanResult.done false p (footPrint r) (footPrint l)
      | (true, p) =>
        match p.initializePlanner integ (Foot.new (footPrint r)) (Foot.new (footPrint l)) with
        | .failed p left right => PlanResult.done false p left.fp right.fp
        | .ub w => .ub w
        | .ok p left right sol => p.plan sol fuel left right) := by
    rintro x _ rfl; rfl
  split_ifs
  · rfl
  · rfl
  · rfl
  refine (e7 _ _ e6).trans ?_
  obtain ⟨d1, d2, d3⟩ := setSaturations_drives { p with initTime := t0, endTime := t1 }
  rcases hx : ({ p with initTime := t0, endTime := t1 } : Planner K).setSaturations with ⟨_ | _, q⟩
  · rfl
  rw [hx] at d1 d2 d3
  simp only
  have hd : DrivesAs p q := ⟨d1.1, d1.2, d1.3⟩
  obtain ⟨k1, k2⟩ := initializePlanner hp hd hi hn (Foot.new l) (Foot.new r)
    ⟨d2.trans hf.leftYaw, d3.trans hf.rightYaw, hf.same⟩
  rw [new_foot, new_foot, k1]
  cases hy : q.initializePlanner integ (Foot.new l) (Foot.new r) with
  | failed q' a b => rfl
  | ub w => rfl
  | ok q' a b sol =>
    obtain ⟨x, hx1, hx2⟩ := k2 _ _ _ _ hy
    exact plan hp q' hx2 fuel hx1

/-! ## Which foot swings is decided anew -/

/-- Outcomes equal but for the foot that was to swing before a failure. -/
def UpToSwing (x y : PlanResult K) : Prop := y = x ∨ ∃ q l r b, x = .done false q l r ∧ y = .done false { q with swingLeft := b } l r

theorem computeNewSteps_swing (p : Planner K) (b : Bool) (integ : Integrator K) (fuel : Nat) (l r : FootPrint K) (t0 t1 : K) :
    UpToSwing (p.computeNewSteps integ fuel l r t0 t1) (({ p with swingLeft := b } : Planner K).computeNewSteps integ fuel l r t0 t1) := by
  have init : ∀ (q : Planner K) (l r : Foot K) (t : K),
      ({ q with swingLeft := b } : Planner K).getInitialStateFromFeet l r t = q.getInitialStateFromFeet l r t ∨
      (q.getInitialStateFromFeet l r t = .failed q l r ∧
        ({ q with swingLeft := b } : Planner K).getInitialStateFromFeet l r t = .failed { q with swingLeft := b } l r) := by
    intro q l r t
    unfold Planner.getInitialStateFromFeet
    have e1 : ({ q with swingLeft := b } : Planner K).stateWithoutSteps t = q.stateWithoutSteps t := rfl
    rw [e1]
    cases hl : l.getLastStep with
    | none =>
      cases hr : r.getLastStep with
      | none =>
        simp only
        rcases q.stateWithoutSteps t with u | _ | w
        · exact Or.inl rfl
        · exact Or.inr ⟨rfl, rfl⟩
        · exact Or.inl rfl
      | some s =>
        simp only
        cases r.getUnicycleStateFromStep s with
        | none => exact Or.inr ⟨rfl, rfl⟩
        | some u => exact Or.inl rfl
    | some s =>
      cases hr : r.getLastStep with
      | none =>
        simp only
        cases l.getUnicycleStateFromStep s with
        | none => exact Or.inr ⟨rfl, rfl⟩
        | some u => exact Or.inl rfl
      | some s' =>
        simp only
        split_ifs
        · cases r.getUnicycleStateFromStep s' with
          | none => exact Or.inr ⟨rfl, rfl⟩
          | some u => exact Or.inl rfl
        · cases l.getUnicycleStateFromStep s with
          | none => exact Or.inr ⟨rfl, rfl⟩
          | some u => exact Or.inl rfl
        · cases r.getUnicycleStateFromStep s' with
          | none => exact Or.inr ⟨rfl, rfl⟩
          | some u => exact Or.inl rfl
        · cases l.getUnicycleStateFromStep s with
          | none => exact Or.inr ⟨rfl, rfl⟩
          | some u => exact Or.inl rfl
  have sat : ∀ q : Planner K, ({ q with swingLeft := b } : Planner K).setSaturations =
      (q.setSaturations.1, { q.setSaturations.2 with swingLeft := b }) := by
    intro q
    unfold Planner.setSaturations
    simp only
    rcases q.ctrl.person.base.setSaturations _ _ with ⟨_ | _, x⟩
    · rfl
    simp only
    rcases q.ctrl.directBase.setSaturations _ _ with ⟨_ | _, d⟩
    · rfl
    simp only
    split_ifs
    · rcases q.ctrl.nav.setSaturations _ _ with ⟨_ | _, n⟩ <;> rfl
    · rfl
  unfold Planner.computeNewSteps
  simp only
  split_ifs
  · exact Or.inr ⟨_, _, _, b, rfl, rfl⟩
  · exact Or.inr ⟨_, _, _, b, rfl, rfl⟩
  · exact Or.inr ⟨_, _, _, b, rfl, rfl⟩
  have hs := sat { p with initTime := t0, endTime := t1 }
  simp only at hs
  rw [hs]
  rcases ({ p with initTime := t0, endTime := t1 } : Planner K).setSaturations with ⟨_ | _, q⟩
  · exact Or.inr ⟨_, _, _, b, rfl, rfl⟩
  simp only
  unfold Planner.initializePlanner
  simp only
  cases Planner.configureFoot (Foot.new l) (q.nominalWidth / 2) q.leftYaw q.minLength q.minAngle with
  | none => exact Or.inr ⟨_, _, _, b, rfl, rfl⟩
  | some l1 =>
    cases Planner.configureFoot (Foot.new r) (-q.nominalWidth / 2) q.rightYaw q.minLength q.minAngle with
    | none => exact Or.inr ⟨_, _, _, b, rfl, rfl⟩
    | some r1 =>
      simp only
      rcases init q l1 r1 q.initTime with h | ⟨h1, h2⟩
      · rw [h]; exact Or.inl rfl
      · rw [h1, h2]; exact Or.inr ⟨_, _, _, b, rfl, rfl⟩

theorem planMirrored (hp : TrigParity K) {p p' : Planner K} (hm : PlannerMirrored p p') {integ : Integrator K}
    (hi : IntegratorMirrored p integ) (hn : NeverTurns p integ) (fuel : Nat) {l r : FootPrint K} (hf : FeetAhead p l r) (t0 t1 : K) :
    PlanMirrored (p.computeNewSteps integ fuel l r t0 t1) (p'.computeNewSteps integ fuel (footPrint r) (footPrint l) t0 t1) := by
  have hm' : p' = { planner p with swingLeft := p'.swingLeft } := hm
  rw [hm']
  have h := computeNewSteps_swing (planner p) p'.swingLeft integ fuel (footPrint r) (footPrint l) t0 t1
  rw [computeNewSteps hp hi hn fuel hf] at h
  cases hx : p.computeNewSteps integ fuel l r t0 t1 with
  | done ok q a b =>
    rw [hx] at h
    rcases h with h | ⟨q', a', b', c, h1, h2⟩
    · exact ⟨planner q, rfl, h⟩
    · simp only [planResult, PlanResult.done.injEq] at h1
      obtain ⟨rfl, rfl, rfl, rfl⟩ := h1
      exact ⟨{ planner q with swingLeft := c }, rfl, h2⟩
  | ub w =>
    rw [hx] at h
    rcases h with h | ⟨q', a', b', c, h1, h2⟩
    · exact h
    · simp [planResult] at h1
  | outOfFuel =>
    rw [hx] at h
    rcases h with h | ⟨q', a', b', c, h1, h2⟩
    · exact h
    · simp [planResult] at h1

end Uni.Spec.Mirror
