import Verif.Lemmas.PlannerEnd

/-! # Helper lemmas: initialisation and the whole planning call -/

set_option autoImplicit false
set_option linter.unusedSectionVars false

namespace Uni.Planner
open Spec
variable {K : Type*} [Field K] [LinearOrder K] [Trig K]

theorem configureFoot_eq (fp : FootPrint K) (d yaw ml ma : K) :
    configureFoot (Foot.new fp) d yaw ml ma = if ml < 0 ∨ ma < 0 then none else some ⟨fp, ⟨0, d⟩, true, yaw, ml, ma⟩ := by
  by_cases h1 : ml < 0 <;> by_cases h2 : ma < 0 <;>
    simp [configureFoot, Foot.setTinyStepLength, Foot.setTinyStepAngle, h1, h2, Foot.setDistanceFromUnicycle,
      Foot.setYawOffset, Foot.new]

/-- `Spec.firstSwing` with an arbitrary default. -/
def firstSwing (p : Planner K) (dflt : Bool) : Bool := Spec.firstSwing { p with startLeft := dflt }

section
variable [IsStrictOrderedRing K]

theorem chooseSwing_eq (p : Planner K) :
    p.chooseSwing = { p with swingLeft := if p.firstStep then p.firstSwing p.swingLeft else p.swingLeft } := by
  unfold chooseSwing firstSwing Spec.firstSwing
  cases p with
  | mk ctrl controller =>
    simp only
    cases controller <;> rename_i fs _ _ _ _ _ _ <;> cases fs <;> simp
    · by_cases h : ctrl.direct.desired.lateral = 0 <;> simp [h]
    · by_cases h : ctrl.nav.desired.lateral = 0 <;> simp [h]

/-- The controllers with the limits set from the configuration. -/
def satCtrl (p : Planner K) : Controllers K :=
  { p.ctrl with
    person := { p.ctrl.person with base := limited p p.ctrl.person.base }
    directBase := limited p p.ctrl.directBase
    nav := navLimited p }

theorem base_setSaturations_true {b b' : BaseCtrl K} {l a : K} (h : b.setSaturations l a = (true, b')) :
    b' = { b with maxLinear := l, maxAngular := a } := by
  unfold BaseCtrl.setSaturations at h
  split_ifs at h
  · simp at h
  · exact (congrArg Prod.snd h).symm

theorem nav_setSaturations_true {c c' : NavCtrl K} {l a : K} (h : c.setSaturations l a = (true, c')) :
    c' = { c with
      base := { c.base with maxLinear := l, maxAngular := a }
      maxVel := some (|l|, |l * c.base.sideFactor|, |a / (1 + c.base.turnGain)|) } := by
  unfold NavCtrl.setSaturations at h
  cases hb : c.base.setSaturations l a with
  | mk ok b =>
    rw [hb] at h
    cases ok with
    | false => simp at h
    | true =>
      have := base_setSaturations_true hb
      subst this
      simp only [NavCtrl.setMaxVelocities] at h
      split_ifs at h
      · simp at h
      · exact (congrArg Prod.snd h).symm

theorem setSaturations_true {p p1 : Planner K} (h : p.setSaturations = (true, p1)) :
    p1 = { p with ctrl := satCtrl p } := by
  unfold setSaturations at h
  simp only at h
  split at h
  · simp at h
  · rename_i b hb
    split at h
    · simp at h
    · rename_i b' hb'
      have e1 := base_setSaturations_true hb
      have e2 := base_setSaturations_true hb'
      subst e1 e2
      split_ifs at h with hc
      · simp only [Prod.mk.injEq] at h
        have e3 := nav_setSaturations_true (c' := (p.ctrl.nav.setSaturations
          (Trig.sqrt (p.maxLength ^ 2 - p.nominalWidth ^ 2) / p.minTime * p.linFactor)
          (p.maxAngle / p.minTime * p.angFactor)).2) (Prod.ext h.1 rfl)
        rw [← h.2, e3]
        unfold satCtrl navLimited
        rw [if_pos hc]
        rfl
      · simp only [Prod.mk.injEq, true_and] at h
        rw [← h]
        unfold satCtrl navLimited
        rw [if_neg hc]
        rfl

theorem base_setSaturations_ok (b : BaseCtrl K) {l a : K} (hl : 0 ≤ l) (ha : 0 ≤ a) :
    b.setSaturations l a = (true, { b with maxLinear := l, maxAngular := a }) := by
  unfold BaseCtrl.setSaturations
  rw [if_neg (by push Not; exact ⟨hl, ha⟩)]

theorem setSaturations_limits {p : Planner K} (h : LimitsOk p) : p.setSaturations.1 = true := by
  obtain ⟨h1, h2, h3⟩ := h
  unfold setSaturations
  simp only
  have e := fun b : BaseCtrl K => base_setSaturations_ok b h1 h2
  simp only [speedLimit, turnLimit] at e
  simp only [e]
  split_ifs with hc
  · obtain ⟨a, b, c⟩ := h3 hc
    simp only [NavCtrl.setSaturations, e, NavCtrl.setMaxVelocities]
    rw [if_neg]
    rintro (h | h | h)
    · exact absurd h (not_lt.mpr a)
    · exact absurd h (not_lt.mpr b)
    · exact absurd h (not_lt.mpr c)
  · rfl

theorem setSaturations_horizon (p : Planner K) (a b : K) (ok : Bool) (p1 : Planner K)
    (h : { p with initTime := a, endTime := b }.setSaturations = (ok, p1)) :
    ok = false ∨ p1 = { p with initTime := a, endTime := b, ctrl := satCtrl p } := by
  cases ok with
  | false => exact .inl rfl
  | true => exact .inr ((setSaturations_true h).trans rfl)

/-- The effect of `initReferences` on the controllers. -/
def Referenced (p : Planner K) (t0 : K) (hadSteps together : Bool) (u : UState K) (c : Controllers K) : Prop :=
  let here := p.ctrl.person.getPersonPosition u.position u.angle
  let hold := t0 + p.nominalTime - p.minTime
  ∃ traj : List (TrajPoint K),
    traj.Perm (p.ctrl.person.traj ++
      (if hadSteps then ⟨t0, here, 0⟩ :: (if together then [⟨hold, here, 0⟩] else []) else [])) ∧
    (if hadSteps then traj.Pairwise (fun a b => a.initTime ≤ b.initTime) else traj = p.ctrl.person.traj) ∧
    c = { p.ctrl with
      person := { p.ctrl.person with traj := traj }
      direct := if hadSteps && together then { p.ctrl.direct with deactivationEnd := hold } else p.ctrl.direct
      nav := if hadSteps && together then { p.ctrl.nav with deactivationEnd := |hold| } else p.ctrl.nav }

theorem Referenced.prepared {p : Planner K} {a b t0 : K} {had tog : Bool} {u : UState K} {c : Controllers K}
    (h : Referenced { p with initTime := a, endTime := b, ctrl := satCtrl p } t0 had tog u c) : Prepared p t0 had tog u c := by
  obtain ⟨traj, h1, h2, h3⟩ := h
  exact ⟨traj, h1, h2, h3⟩

/-- Insertion of a reference. -/
def insertPoint (l : List (TrajPoint K)) (x : TrajPoint K) : List (TrajPoint K) :=
  (l ++ [x]).insertionSort (fun a b => a.initTime ≤ b.initTime)

theorem sorted_insertion (l : List (TrajPoint K)) :
    (l.insertionSort (fun a b => a.initTime ≤ b.initTime)).Pairwise (fun a b => a.initTime ≤ b.initTime) := by
  have : Std.Total (fun a b : TrajPoint K => a.initTime ≤ b.initTime) := ⟨fun a b => le_total _ _⟩
  have : IsTrans (TrajPoint K) (fun a b => a.initTime ≤ b.initTime) := ⟨fun a b c => le_trans⟩
  exact List.pairwise_insertionSort _ _

/-- The references step of the initialisation. -/
theorem initReferences_cases (p : Planner K) (left right : Foot K) (u : UState K) (tf t0 : K) :
    ((t0 < tf ∨ t0 < 0 ∨ t0 + p.nominalTime - p.minTime < 0) ∧
      ∃ q, p.initReferences left right u tf t0 = .failed q left right) ∨
    (tf ≤ t0 ∧ 0 ≤ t0 ∧ ∃ c, Referenced p t0 true p.firstStep u c ∧ p.initReferences left right u tf t0 =
      .ok { p with ctrl := c, swingLeft := if p.firstStep then p.firstSwing p.swingLeft else p.swingLeft } left right u) := by
  unfold initReferences
  by_cases h1 : t0 < tf
  · rw [if_pos h1]; exact .inl ⟨.inl h1, _, rfl⟩
  · rw [if_neg h1]
    by_cases h2 : t0 < 0
    · simp only [PersonCtrl.setDesiredPoint, if_pos h2]
      exact .inl ⟨.inr (.inl h2), _, rfl⟩
    · simp only [PersonCtrl.setDesiredPoint, if_neg h2]
      by_cases h3 : p.firstStep = true
      · rw [if_pos h3]
        by_cases h4 : t0 + p.nominalTime - p.minTime < 0
        · rw [if_pos h4]; exact .inl ⟨.inr (.inr h4), _, rfl⟩
        · rw [if_neg h4]
          refine .inr ⟨not_lt.mp h1, not_lt.mp h2, { p.ctrl with
              person := { p.ctrl.person with
                traj := insertPoint (insertPoint p.ctrl.person.traj
                  ⟨t0, p.ctrl.person.getPersonPosition u.position u.angle, 0⟩)
                  ⟨t0 + p.nominalTime - p.minTime, p.ctrl.person.getPersonPosition u.position u.angle, 0⟩ }
              direct := { p.ctrl.direct with deactivationEnd := t0 + p.nominalTime - p.minTime }
              nav := { p.ctrl.nav with deactivationEnd := |t0 + p.nominalTime - p.minTime| } }, ?_, ?_⟩
          rotate_left
          · show InitResult.ok (chooseSwing _) left right u = _
            rw [chooseSwing_eq]; simp only [h3, if_true]; rfl
          refine ⟨insertPoint (insertPoint p.ctrl.person.traj
                  ⟨t0, p.ctrl.person.getPersonPosition u.position u.angle, 0⟩)
                  ⟨t0 + p.nominalTime - p.minTime, p.ctrl.person.getPersonPosition u.position u.angle, 0⟩, ?_, ?_, ?_⟩
          rotate_left 2
          · simp only [h3, Bool.and_self, if_true]
          · exact ((List.perm_insertionSort _ _).trans (((List.perm_insertionSort _ _).append_right _).trans
              (by simp [h3])))
          · simp only [if_true]; exact sorted_insertion _
      · rw [if_neg h3]
        have h3' : p.firstStep = false := by simpa using h3
        refine .inr ⟨not_lt.mp h1, not_lt.mp h2, { p.ctrl with
              person := { p.ctrl.person with
                traj := insertPoint p.ctrl.person.traj ⟨t0, p.ctrl.person.getPersonPosition u.position u.angle, 0⟩ } }, ?_, ?_⟩
        rotate_left
        · show InitResult.ok (chooseSwing _) left right u = _
          rw [chooseSwing_eq]; simp only [h3', Bool.false_eq_true, if_false]; rfl
        refine ⟨insertPoint p.ctrl.person.traj ⟨t0, p.ctrl.person.getPersonPosition u.position u.angle, 0⟩, ?_, ?_, ?_⟩
        rotate_left 2
        · simp only [h3', Bool.and_false, Bool.false_eq_true, if_false]
        · exact ((List.perm_insertionSort _ _).trans (by simp [h3']))
        · simp only [if_true]; exact sorted_insertion _

theorem firstFoot_prev {p : Planner K} {a b : Option (Step K)} {sw f : Bool} (h : FirstFoot p a b sw f)
    (hne : ¬ (a = none ∧ b = none)) : ∃ prev, (if sw then b else a) = some prev ∧
      (∀ s, (if sw then a else b) = some s → s.impactTime ≤ prev.impactTime) ∧
      (f = true → ∃ s, (if sw then a else b) = some s ∧ s.impactTime = prev.impactTime) := by
  cases h with
  | empty => simp at hne
  | together l r h =>
    cases Spec.firstSwing p
    · exact ⟨l, rfl, by rintro s ⟨⟩; exact h.ge, fun _ => ⟨r, rfl, h.symm⟩⟩
    · exact ⟨r, rfl, by rintro s ⟨⟩; exact h.le, fun _ => ⟨l, rfl, h⟩⟩
  | leftOlder l r h => exact ⟨r, rfl, by rintro s ⟨⟩; exact h.le, by simp⟩
  | rightOlder l r h => exact ⟨l, rfl, by rintro s ⟨⟩; exact h.le, by simp⟩
  | noLeft r => exact ⟨r, rfl, by simp, by simp⟩
  | noRight l => exact ⟨l, rfl, by simp, by simp⟩


/-- What `getInitialStateFromFeet` leaves when it succeeds on feet that already have steps. -/
structure InitOk (p : Planner K) (left right : Foot K) (t0 : K) (l r : Option (Step K)) (c : Controllers K)
    (b f : Bool) (u : UState K) : Prop where
  nonneg : 0 ≤ t0
  first : FirstFoot p l r b f
  state : InitialState p left right t0 l r u
  ctrl : Referenced p t0 true f u c
  past : ∀ s, l = some s ∨ r = some s → s.impactTime ≤ t0

theorem stateWithoutSteps_ok {p : Planner K} {t0 : K} {u : UState K} (h : p.stateWithoutSteps t0 = .ok u) :
    RestingState p t0 u := by
  unfold stateWithoutSteps at h
  unfold RestingState
  split at h
  · rename_i hc
    rw [hc]
    cases hg : p.ctrl.person.getDesiredPoint t0 with
    | fail => rw [hg] at h; cases h
    | ub w => rw [hg] at h; cases h
    | ok r =>
      rw [hg] at h
      cases h
      exact ⟨_, _, rfl, rfl⟩
  · rename_i hc
    cases h
    split
    · rename_i hc'; exact absurd hc' hc
    · rfl

theorem firstFoot_congr {p q : Planner K} (h : Spec.firstSwing p = Spec.firstSwing q) {l r : Option (Step K)} {b f : Bool}
    (hf : FirstFoot p l r b f) : FirstFoot q l r b f := by
  cases hf with
  | empty => rw [h]; exact .empty
  | together l r e => rw [h]; exact .together l r e
  | leftOlder l r e => exact .leftOlder l r e
  | rightOlder l r e => exact .rightOlder l r e
  | noLeft r => exact .noLeft r
  | noRight l => exact .noRight l

theorem getInitialState_cases (p : Planner K) (left right : Foot K) (t0 : K)
    (hl : left.distanceSet = true) (hr : right.distanceSet = true) :
    (((left.getLastStep = none ∧ right.getLastStep = none ∧ p.stateWithoutSteps t0 = .fail) ∨
        (∃ s, (left.getLastStep = some s ∨ right.getLastStep = some s) ∧ t0 < s.impactTime) ∨ t0 < 0 ∨
        t0 + p.nominalTime - p.minTime < 0) ∧
      ∃ q, p.getInitialStateFromFeet left right t0 = .failed q left right) ∨
    (∃ w, p.getInitialStateFromFeet left right t0 = .ub w ∧ left.getLastStep = none ∧ right.getLastStep = none ∧
      p.stateWithoutSteps t0 = .ub w) ∨
    (∃ b u, p.getInitialStateFromFeet left right t0 =
        .ok { p with firstStep := true, swingLeft := b }
          (left.addStepFromUnicycle u t0).2 (right.addStepFromUnicycle u t0).2 u ∧
        left.getLastStep = none ∧ right.getLastStep = none ∧ RestingState p t0 u ∧
        FirstFoot p none none b true) ∨
    (∃ c b f u, p.getInitialStateFromFeet left right t0 =
        .ok { p with ctrl := c, swingLeft := b, firstStep := f } left right u ∧
        ¬ (left.getLastStep = none ∧ right.getLastStep = none) ∧
        InitOk p left right t0 left.getLastStep right.getLastStep c b f u) := by
  unfold getInitialStateFromFeet
  have key : ∀ (b f : Bool) (u : UState K) (tf : K) (l r : Option (Step K)),
      InitialState p left right t0 l r u →
      (∀ s, l = some s ∨ r = some s → s.impactTime ≤ tf) → (∃ s, (l = some s ∨ r = some s) ∧ s.impactTime = tf) →
      FirstFoot p l r (if f then p.firstSwing b else b) f →
      (((l = none ∧ r = none ∧ p.stateWithoutSteps t0 = .fail) ∨
        (∃ s, (l = some s ∨ r = some s) ∧ t0 < s.impactTime) ∨ t0 < 0 ∨ t0 + p.nominalTime - p.minTime < 0) ∧
        ∃ q, initReferences { p with swingLeft := b, firstStep := f } left right u tf t0 = .failed q left right) ∨
      (∃ c b' f' u', initReferences { p with swingLeft := b, firstStep := f } left right u tf t0 =
        .ok { p with ctrl := c, swingLeft := b', firstStep := f' } left right u' ∧
        InitOk p left right t0 l r c b' f' u') := by
    intro b f u tf l r h1 h4 ⟨s, hs, hst⟩ h5
    rcases initReferences_cases { p with swingLeft := b, firstStep := f } left right u tf t0 with ⟨h, h'⟩ | ⟨h6, h7, c, h8, h9⟩
    · refine .inl ⟨?_, h'⟩
      rcases h with h | h | h
      · exact .inr (.inl ⟨s, hs, by rw [hst]; exact h⟩)
      · exact .inr (.inr (.inl h))
      · exact .inr (.inr (.inr h))
    · refine .inr ⟨c, _, f, u, h9, h7, h5, h1, h8, fun s hs => (h4 s hs).trans h6⟩
  cases hL : left.getLastStep with
  | none =>
    cases hR : right.getLastStep with
    | none =>
      simp only
      cases hg : p.stateWithoutSteps t0 with
      | fail => exact .inl ⟨.inl ⟨trivial, trivial, rfl⟩, _, rfl⟩
      | ub w => exact .inr (.inl ⟨w, rfl, trivial, trivial, rfl⟩)
      | ok u =>
        refine .inr (.inr (.inl ⟨Spec.firstSwing p, u, ?_, trivial, trivial, stateWithoutSteps_ok hg, .empty⟩))
        simp only
        rw [chooseSwing_eq]
        rfl
    | some r =>
      simp only [Foot.getUnicycleStateFromStep_eq _ _ hr]
      rcases key true false (right.stateOf r) r.impactTime none (some r) (.noLeft r) (by simp) ⟨r, by simp⟩ (.noLeft r) with h | ⟨c, b, f, u, h, h'⟩
      · exact .inl (by simpa using h)
      · exact .inr (.inr (.inr ⟨c, b, f, u, h, by simp, h'⟩))
  | some l =>
    cases hR : right.getLastStep with
    | none =>
      simp only [Foot.getUnicycleStateFromStep_eq _ _ hl]
      rcases key false false (left.stateOf l) l.impactTime (some l) none (.noRight l) (by simp) ⟨l, by simp⟩ (.noRight l) with h | ⟨c, b, f, u, h, h'⟩
      · exact .inl (by simpa using h)
      · exact .inr (.inr (.inr ⟨c, b, f, u, h, by simp, h'⟩))
    | some r =>
      simp only [Foot.getUnicycleStateFromStep_eq _ _ hl, Foot.getUnicycleStateFromStep_eq _ _ hr]
      by_cases h1 : l.impactTime = r.impactTime
      · rw [if_pos h1]
        have hs : ∀ s, some l = some s ∨ some r = some s → s.impactTime ≤ l.impactTime := by
          rintro s (h | h) <;> cases h
          · exact le_refl _
          · exact h1.ge
        have hst := InitialState.together (p := p) (L := left) (R := right) (t0 := t0) l r h1
        by_cases hsl : p.startLeft = true
        · rw [if_pos hsl]
          rw [if_pos hsl] at hst
          rcases key true true (right.stateOf r) l.impactTime (some l) (some r) hst hs ⟨l, by simp⟩
            (by rw [if_pos rfl]; have : FirstFoot p (some l) (some r) (p.firstSwing p.startLeft) true := .together l r h1; rwa [hsl] at this) with h | ⟨c, b, f, u, h, h'⟩
          · exact .inl h
          · exact .inr (.inr (.inr ⟨c, b, f, u, h, by simp, h'⟩))
        · rw [if_neg hsl]
          rw [if_neg hsl] at hst
          rcases key false true (left.stateOf l) l.impactTime (some l) (some r) hst hs ⟨l, by simp⟩
            (by rw [if_pos rfl]; have : FirstFoot p (some l) (some r) (p.firstSwing p.startLeft) true := .together l r h1
                rwa [Bool.eq_false_of_not_eq_true hsl] at this) with h | ⟨c, b, f, u, h, h'⟩
          · exact .inl h
          · exact .inr (.inr (.inr ⟨c, b, f, u, h, by simp, h'⟩))
      · rw [if_neg h1]
        by_cases h2 : l.impactTime < r.impactTime
        · rw [if_pos h2]
          have hs : ∀ s, some l = some s ∨ some r = some s → s.impactTime ≤ r.impactTime := by
            rintro s (h | h) <;> cases h
            · exact h2.le
            · exact le_refl _
          rcases key true false (right.stateOf r) r.impactTime (some l) (some r) (.leftOlder l r h2) hs ⟨r, by simp⟩ (.leftOlder l r h2) with h | ⟨c, b, f, u, h, h'⟩
          · exact .inl h
          · exact .inr (.inr (.inr ⟨c, b, f, u, h, by simp, h'⟩))
        · rw [if_neg h2]
          have h3 : r.impactTime < l.impactTime := lt_of_le_of_ne (not_lt.mp h2) (Ne.symm h1)
          have hs : ∀ s, some l = some s ∨ some r = some s → s.impactTime ≤ l.impactTime := by
            rintro s (h | h) <;> cases h
            · exact le_refl _
            · exact h3.le
          rcases key false false (left.stateOf l) l.impactTime (some l) (some r) (.rightOlder l r h3) hs ⟨l, by simp⟩ (.rightOlder l r h3) with h | ⟨c, b, f, u, h, h'⟩
          · exact .inl h
          · exact .inr (.inr (.inr ⟨c, b, f, u, h, by simp, h'⟩))

theorem getLastStep_eq_none {fp : FootPrint K} (h : fp.getLastStep = none) : fp.steps = [] := by
  simpa [FootPrint.getLastStep] using h

theorem push_empty {f : Foot K} (h : f.fp.steps = []) (st : Step K) :
    (f.push st).fp = { f.fp with steps := [st] } := by
  simp [Foot.push, h]

theorem computeNewSteps_cases (p : Planner K) (integ : Integrator K) (left right : FootPrint K) (t0 t1 : K) :
    (Refused p integ left right t0 t1 ∧ ∃ q, ∀ fuel, p.computeNewSteps integ fuel left right t0 t1 = .done false q left right) ∨
    (Accepted p ∧ left.steps = [] ∧ right.steps = [] ∧ p.stateWithoutSteps t0 = .ub .divByZero ∧
      ∀ fuel, p.computeNewSteps integ fuel left right t0 t1 = .ub .divByZero) ∨
    (Refused p integ left right t0 t1 ∧ Accepted p ∧ left.steps = [] ∧ right.steps = [] ∧ 0 ≤ t0 ∧ ∃ q l0 r0, Initialised p left right t0 l0 r0 ∧
      ∀ fuel, p.computeNewSteps integ fuel left right t0 t1 = .done false q l0 r0) ∨
    (Accepted p ∧ ∃ q sol l0 r0 prev, Begins p integ left right t0 t1 q sol l0 r0 prev ∧
      ∀ fuel, p.computeNewSteps integ fuel left right t0 t1 = q.plan sol fuel (leftFoot p l0) (rightFoot p r0)) := by
  unfold computeNewSteps
  split_ifs with h1 h2 h3
  · exact .inl ⟨.bounds fun h => absurd h.1 (not_le.mpr h1), _, fun _ => rfl⟩
  · exact .inl ⟨.bounds fun h => absurd h.2.1 (not_le.mpr h2), _, fun _ => rfl⟩
  · exact .inl ⟨.bounds fun h => absurd h.2.2 (not_lt.mpr h3), _, fun _ => rfl⟩
  have hacc : Accepted p := ⟨not_lt.mp h1, not_lt.mp h2, not_le.mp h3⟩
  cases hs : setSaturations { p with initTime := t0, endTime := t1 } with
  | mk ok p1 =>
  cases ok with
  | false =>
    refine .inl ⟨.limits fun h => ?_, _, fun _ => rfl⟩
    have := setSaturations_limits (p := { p with initTime := t0, endTime := t1 }) h
    rw [hs] at this
    cases this
  | true =>
    simp only
    rcases setSaturations_horizon p t0 t1 true p1 hs with h | rfl
    · cases h
    unfold initializePlanner
    simp only [configureFoot_eq]
    by_cases hneg : p.minLength < 0 ∨ p.minAngle < 0
    · simp only [if_pos hneg]; exact .inl ⟨.thresholds hneg, _, fun _ => rfl⟩
    simp only [if_neg hneg]
    have hdir : (satCtrl p).direct = p.ctrl.direct := rfl
    have hnav : (satCtrl p).nav.desired = p.ctrl.nav.desired := by
      unfold satCtrl navLimited; simp only; split_ifs <;> rfl
    have hfs : Spec.firstSwing { p with initTime := t0, endTime := t1, ctrl := satCtrl p } = Spec.firstSwing p := by
      simp only [Spec.firstSwing, hdir, hnav]
    have hrs : ∀ u, RestingState { p with initTime := t0, endTime := t1, ctrl := satCtrl p } t0 u → RestingState p t0 u :=
      fun u h => h
    rcases getInitialState_cases { p with initTime := t0, endTime := t1, ctrl := satCtrl p }
      (leftFoot p left) (rightFoot p right) t0 rfl rfl with
      ⟨hwhy, q, hq⟩ | ⟨w, hw, hw1, hw2, hw3⟩ | ⟨b', u, hq, hl, hr, hu, hf⟩ | ⟨c', b', f', u, hq, hne, hok⟩
    · simp only [leftFoot, rightFoot] at hq
      rw [hq]
      refine .inl ⟨?_, _, fun _ => rfl⟩
      rcases hwhy with ⟨a, b, c⟩ | ⟨s, a, b⟩ | a | a
      · have c' : (p.controller = .personFollowing) ∧ p.ctrl.person.getDesiredPoint t0 = .fail := by
          unfold stateWithoutSteps at c
          split at c
          · rename_i hc
            refine ⟨hc, ?_⟩
            cases hg : (satCtrl p).person.getDesiredPoint t0 with
            | fail => exact hg
            | ok r => rw [hg] at c; cases c
            | ub w => rw [hg] at c; cases c
          · cases c
        exact .noReference (getLastStep_eq_none a) (getLastStep_eq_none b) c'.1 c'.2
      · exact .past s a b
      · exact .negative a
      · exact .hold a
    · have hw4 : w = .divByZero := by
        unfold stateWithoutSteps at hw3
        split at hw3
        · cases hg : (satCtrl p).person.getDesiredPoint t0 with
          | fail => rw [hg] at hw3; cases hw3
          | ok r => rw [hg] at hw3; cases hw3
          | ub w' =>
            rw [hg] at hw3
            cases hw3
            unfold PersonCtrl.getDesiredPoint PersonCtrl.desiredPoint at hg
            split_ifs at hg
            split at hg
            · cases hg
            · split_ifs at hg
              split at hg
              · cases hg
              · cases hg
              · unfold PersonCtrl.interpolateReferences at hg
                split_ifs at hg
                cases hg
                rfl
        · cases hw3
      subst hw4
      simp only [leftFoot, rightFoot] at hw
      rw [hw]; exact .inr (.inl ⟨hacc, getLastStep_eq_none hw1, getLastStep_eq_none hw2, hw3, fun _ => rfl⟩)
    · have hl' : left.getLastStep = none := hl
      have hr' : right.getLastStep = none := hr
      have hf := firstFoot_congr hfs hf
      have hu := hrs u hu
      simp only [leftFoot, rightFoot] at hq
      rw [hq]
      simp only
      by_cases h0 : t0 < 0
      · rw [Foot.addStepFromUnicycle_neg _ _ _ rfl h0, Foot.addStepFromUnicycle_neg _ _ _ rfl h0]
        by_cases hlt : t1 ≤ t0
        · rw [if_pos hlt]; exact .inl ⟨.interval hlt, _, fun _ => rfl⟩
        · rw [if_neg hlt]
          cases hi : integ { p with initTime := t0, endTime := t1, ctrl := satCtrl p, swingLeft := b', firstStep := true } u t0 t1 with
          | mk ctrl sol =>
          cases sol with
          | none => exact .inl ⟨.negative h0, _, fun _ => rfl⟩
          | some sol =>
            left
            simp only [plan]
            have : (if b' = true then (⟨right, ⟨0, -p.nominalWidth / 2⟩, true, p.rightYaw, p.minLength, p.minAngle⟩ : Foot K)
                else ⟨left, ⟨0, p.nominalWidth / 2⟩, true, p.leftYaw, p.minLength, p.minAngle⟩).getLastStep = none := by
              split_ifs
              · exact hr'
              · exact hl'
            rw [this]
            exact ⟨.negative h0, _, fun _ => rfl⟩
      · have h0 := not_lt.mp h0
        rw [Foot.addStepFromUnicycle_eq _ _ _ rfl h0, Foot.addStepFromUnicycle_eq _ _ _ rfl h0]
        have e1 := getLastStep_eq_none hl'
        have e2 := getLastStep_eq_none hr'
        have hinit : Initialised p left right t0 ((leftFoot p left).push ((leftFoot p left).stepAt u t0)).fp
            ((rightFoot p right).push ((rightFoot p right).stepAt u t0)).fp :=
          ⟨u, hu, push_empty (f := leftFoot p left) e1 _, push_empty (f := rightFoot p right) e2 _⟩
        by_cases hlt : t1 ≤ t0
        · rw [if_pos hlt]; exact .inr (.inr (.inl ⟨.interval hlt, hacc, e1, e2, h0, _, _, _, hinit, fun _ => rfl⟩))
        · rw [if_neg hlt]
          cases hi : integ { p with initTime := t0, endTime := t1, ctrl := satCtrl p, swingLeft := b', firstStep := true } u t0 t1 with
          | mk ctrl sol =>
          cases sol with
          | none => exact .inr (.inr (.inl ⟨.integration _ _ (by rw [hi]), hacc, e1, e2, h0, _, _, _, hinit, fun _ => rfl⟩))
          | some sol =>
            refine .inr (.inr (.inr ⟨hacc, { p with
                initTime := t0, endTime := t1, ctrl := ctrl, swingLeft := b', firstStep := true }, sol,
              ((leftFoot p left).push ((leftFoot p left).stepAt u t0)).fp,
              ((rightFoot p right).push ((rightFoot p right).stepAt u t0)).fp,
              (if b' then (rightFoot p right).stepAt u t0 else (leftFoot p left).stepAt u t0),
              ⟨h0, not_le.mp hlt, rfl, ?_, .inr ⟨e1, e2, hinit⟩, ?_, ?_, ?_, ?_, satCtrl p, u, ?_, ?_, hi⟩, fun _ => rfl⟩))
            · rw [e1, e2]; exact hf
            · cases b'
              · exact Foot.push_last _ _
              · exact Foot.push_last _ _
            · cases b' <;> exact le_refl _
            · intro s hs
              cases b'
              · have := (Foot.push_last (rightFoot p right) ((rightFoot p right).stepAt u t0)).symm.trans hs
                cases this; exact le_refl _
              · have := (Foot.push_last (leftFoot p left) ((leftFoot p left).stepAt u t0)).symm.trans hs
                cases this; exact le_refl _
            · intro _
              cases b'
              · exact ⟨_, Foot.push_last _ _, rfl⟩
              · exact ⟨_, Foot.push_last _ _, rfl⟩
            · rw [e1, e2]; exact .empty u hu
            · refine ⟨p.ctrl.person.traj, ?_, ?_, ?_⟩ <;> simp [e1, e2, satCtrl]
    · simp only [leftFoot, rightFoot] at hq
      rw [hq]
      simp only
      by_cases hlt : t1 ≤ t0
      · rw [if_pos hlt]; exact .inl ⟨.interval hlt, _, fun _ => rfl⟩
      · rw [if_neg hlt]
        cases hi : integ { p with initTime := t0, endTime := t1, ctrl := c', swingLeft := b', firstStep := f' } u t0 t1 with
        | mk ctrl sol =>
        cases sol with
        | none => exact .inl ⟨.integration _ _ (by rw [hi]), _, fun _ => rfl⟩
        | some sol =>
          have hf' : FirstFoot p left.getLastStep right.getLastStep b' f' := firstFoot_congr hfs hok.first
          have hst : InitialState p (leftFoot p left) (rightFoot p right) t0 left.getLastStep right.getLastStep u := by
            have conv : ∀ {l r : Option (Step K)} {v : UState K},
                InitialState { p with initTime := t0, endTime := t1, ctrl := satCtrl p } (leftFoot p left) (rightFoot p right) t0 l r v →
                InitialState p (leftFoot p left) (rightFoot p right) t0 l r v := by
              intro l r v h
              cases h with
              | empty u h => exact .empty _ (hrs _ h)
              | together l r h => exact .together l r h
              | leftOlder l r h => exact .leftOlder l r h
              | rightOlder l r h => exact .rightOlder l r h
              | noLeft r => exact .noLeft r
              | noRight l => exact .noRight l
            exact conv hok.state
          have hprev : ∃ prev, (if b' then right else left).getLastStep = some prev ∧ prev.impactTime ≤ t0 ∧
              (∀ s, (if b' then left else right).getLastStep = some s → s.impactTime ≤ prev.impactTime) ∧
              (f' = true → ∃ s, (if b' then left else right).getLastStep = some s ∧ s.impactTime = prev.impactTime) := by
            have hle' : ∀ s, left.getLastStep = some s ∨ right.getLastStep = some s → s.impactTime ≤ t0 := hok.past
            have sw : ∀ x y : FootPrint K, (if b' then x else y).getLastStep = if b' then x.getLastStep else y.getLastStep := by
              intro x y; cases b' <;> rfl
            obtain ⟨prev, k1, k2, k3⟩ := firstFoot_prev hf' hne
            simp only [sw]
            refine ⟨prev, k1, ?_, k2, k3⟩
            cases b'
            · exact hle' _ (.inl k1)
            · exact hle' _ (.inr k1)
          obtain ⟨prev, g1, g2, g3, g4⟩ := hprev
          have hne' : ¬ (left.steps = [] ∧ right.steps = []) :=
            fun h => hne ⟨by simp [leftFoot, Foot.getLastStep, FootPrint.getLastStep, h.1], by simp [Foot.getLastStep, rightFoot, FootPrint.getLastStep, h.2]⟩
          refine .inr (.inr (.inr ⟨hacc, { p with
              initTime := t0, endTime := t1, ctrl := ctrl, swingLeft := b', firstStep := f' }, sol, left, right, prev,
            ⟨hok.nonneg, not_le.mp hlt, rfl, hf', .inl ⟨hne', rfl, rfl⟩, g1, g2, g3, g4, c', u, hst, ?_, hi⟩, fun _ => rfl⟩))
          rw [decide_eq_true hne']
          exact hok.ctrl.prepared

theorem align_cases (q : Planner K) (l0 r0 : FootPrint K) :
    (q.alignLastSteps l0 r0 = .ub .uninitialised ∧ (l0.getLastStep = none ∨ r0.getLastStep = none)) ∨
    ∃ l r b l1 r1, l0.getLastStep = some l ∧ r0.getLastStep = some r ∧
      q.alignLastSteps l0 r0 = .done true { q with startLeft := b } l1 r1 ∧
      (b = if q.resetStartingFoot then q.startLeft else if l.impactTime < r.impactTime then true
        else if r.impactTime < l.impactTime then false else q.startLeft) ∧
      (0 ≤ l.impactTime → 0 ≤ r.impactTime → Realigned l0 r0 l1 r1) := by
  have retime : ∀ (fp : FootPrint K) (s : Step K) (t : K), fp.getLastStep = some s → 0 ≤ t →
      Retimed fp t (fp.clearLastStep.addStep { s with impactTime := t }).2 := by
    intro fp s t hs ht
    obtain ⟨older, ho⟩ := List.getLast?_eq_some_iff.mp hs
    refine ⟨older, s, ho, ?_⟩
    simp [FootPrint.clearLastStep, FootPrint.numberOfSteps, ho, FootPrint.addStep, FootPrint.addStepRaw, not_lt.mpr ht]
  unfold alignLastSteps
  cases hl : l0.getLastStep with
  | none => exact .inl ⟨rfl, .inl rfl⟩
  | some l =>
    cases hr : r0.getLastStep with
    | none => exact .inl ⟨rfl, .inr rfl⟩
    | some r =>
      right
      simp only
      split_ifs with h1 h2 h3 h4
      · exact ⟨l, r, q.startLeft, _, _, rfl, rfl, rfl, (by simp [h2]), fun a b => ⟨l, r, hl, hr, .inr (.inl ⟨h1, rfl, retime _ _ _ hr a⟩)⟩⟩
      · exact ⟨l, r, false, _, _, rfl, rfl, rfl, (by simp [h2, h1, not_lt.mpr h1.le]), fun a b => ⟨l, r, hl, hr, .inr (.inl ⟨h1, rfl, retime _ _ _ hr a⟩)⟩⟩
      · exact ⟨l, r, q.startLeft, _, _, rfl, rfl, rfl, (by simp [h4]), fun a b => ⟨l, r, hl, hr, .inr (.inr ⟨h3, retime _ _ _ hl b, rfl⟩)⟩⟩
      · exact ⟨l, r, true, _, _, rfl, rfl, rfl, (by simp [h4, h3]), fun a b => ⟨l, r, hl, hr, .inr (.inr ⟨h3, retime _ _ _ hl b, rfl⟩)⟩⟩
      all_goals exact ⟨l, r, q.startLeft, _, _, rfl, rfl, rfl, (by simp [*]), fun a b => ⟨l, r, hl, hr,
          .inl ⟨le_antisymm (not_lt.mp h1) (not_lt.mp h3), rfl, rfl⟩⟩⟩

/-- Everything known of a call that returned (`ok` is the returned value). -/
theorem computeNewSteps_done {p : Planner K} {integ : Integrator K} {fuel : Nat} {left right : FootPrint K} {t0 t1 : K}
    (hd : 0 ≤ p.dT) (hn : 0 ≤ p.nominalTime) {ok : Bool} {p' : Planner K} {left' right' : FootPrint K}
    (hL : NonNeg left) (hR : NonNeg right)
    (h : p.computeNewSteps integ fuel left right t0 t1 = .done ok p' left' right') :
    (ok = false ∧ left' = left ∧ right' = right) ∨
    (ok = false ∧ left.steps = [] ∧ right.steps = [] ∧ 0 ≤ t0 ∧ Initialised p left right t0 left' right') ∨
    (ok = true ∧ ∃ d, PlanOf p integ left right t0 t1 left' right' d ∧ p'.swingLeft = d.final.left ∧
      p'.startLeft = d.startAfter) := by
  rcases computeNewSteps_cases p integ left right t0 t1 with
    ⟨-, q, hq⟩ | ⟨-, -, -, -, hw⟩ | ⟨-, -, e1, e2, h0, q, l0, r0, hi, hq⟩ | ⟨-, q, sol, l0, r0, prev, hs, hq⟩
  · rw [hq] at h; cases h; exact .inl ⟨rfl, rfl, rfl⟩
  · rw [hw] at h; cases h
  · rw [hq] at h; cases h; exact .inr (.inl ⟨rfl, e1, e2, h0, hi⟩)
  · rw [hq] at h
    have he := hs.eq
    have el : leftFoot q l0 = leftFoot p l0 := by rw [he]; rfl
    have er : rightFoot q r0 = rightFoot p r0 := by rw [he]; rfl
    have hlast : (if q.swingLeft then rightFoot p r0 else leftFoot p l0).getLastStep = some prev := by
      rw [← hs.last]; cases q.swingLeft <;> rfl
    have hnn : NonNeg l0 ∧ NonNeg r0 := by
      rcases hs.steps with ⟨-, rfl, rfl⟩ | ⟨-, -, u, -, rfl, rfl⟩
      · exact ⟨hL, hR⟩
      · constructor <;>
        · intro s hs'
          simp only [List.mem_singleton] at hs'
          rw [hs']
          exact hs.nonneg
    have hrun := plan_run (q := q) (sol := sol) (L := leftFoot p l0) (R := rightFoot p r0) (prev := prev)
      (by rw [he]; exact hd) (by rw [he]; exact hs.nonneg) (by rw [he]; exact hn) rfl rfl hlast fuel
    rcases hrun with hrun | ⟨log, T, c', b', f', rfl, g1, g2, ⟨g3, g4⟩ | ⟨g3, g4⟩⟩
    · rw [hrun] at h; cases h
    · rw [g4] at h
      cases h
      have g2' : if p.addTerminal then TerminalLog q (leftFoot p l0) (rightFoot p r0) c' (sol t1) T else T = [] := by
        have e1 : q.addTerminal = p.addTerminal := by rw [he]
        have e2 : q.endTime = t1 := by rw [he]
        rw [e1, e2] at g2; exact g2
      refine .inr (.inr ⟨rfl, ⟨q, sol, l0, r0, prev, log, T, c'⟩, ⟨hs, by rw [← el, ← er] at g1; exact g1,
        by rw [← el, ← er] at g2'; exact g2', .inl ⟨g3, rfl, rfl⟩⟩, rfl, ?_⟩)
      unfold Plan.startAfter
      rw [if_pos (.inr g3)]
    · have g2' : if p.addTerminal then TerminalLog q (leftFoot p l0) (rightFoot p r0) c' (sol t1) T else T = [] := by
        have e1 : q.addTerminal = p.addTerminal := by rw [he]
        have e2 : q.endTime = t1 := by rw [he]
        rw [e1, e2] at g2; exact g2
      rw [g4] at h
      rcases align_cases { q with swingLeft := c'.left, firstStep := f' } (leftFoot p l0).fp (rightFoot p r0).fp with
        ⟨ha, -⟩ | ⟨l, r, b, l1, r1, hl, hr, ha, hb, hre⟩
      · rw [ha] at h; cases h
      · rw [ha] at h
        cases h
        refine .inr (.inr ⟨rfl, ⟨q, sol, l0, r0, prev, log, T, c'⟩, ⟨hs, by rw [← el, ← er] at g1; exact g1,
          by rw [← el, ← er] at g2'; exact g2', .inr ⟨g3, hre ?_ ?_⟩⟩, rfl, ?_⟩)
        · exact hnn.1 l (List.mem_of_getLast? hl)
        · exact hnn.2 r (List.mem_of_getLast? hr)
        · have hl' : l0.steps.getLast? = some l := hl
          have hr' : r0.steps.getLast? = some r := hr
          have hlog : Plan.log ⟨q, sol, l0, r0, prev, log, T, c'⟩ = [] := g3
          refine hb.trans ?_
          unfold Plan.startAfter
          rw [hlog]
          simp only [hl', hr', ne_eq, not_true_eq_false, or_false]

end
end Uni.Planner
