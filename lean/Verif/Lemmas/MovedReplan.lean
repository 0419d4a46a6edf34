import Verif.Lemmas.MovedCall

/-! # Displacements: requests, corrections, all calls -/

set_option autoImplicit false
set_option linter.unusedSectionVars false

namespace Uni.Spec
variable {g : Move}

/-! ## Corrections -/

theorem relativeYaw_moved (a b : ℝ) : Gen.relativeYaw (a + g.turn) (b + g.turn) = Gen.relativeYaw a b := by
  have h := Real.sin_sq_add_cos_sq g.turn
  unfold Gen.relativeYaw
  simp only [cos_real, sin_real, Real.cos_add, Real.sin_add]
  congr 1
  · linear_combination (Real.cos a * Real.sin b - Real.sin a * Real.cos b) * h
  · linear_combination (Real.cos a * Real.cos b + Real.sin a * Real.sin b) * h

theorem editStep_moved (s m : Step ℝ) :
    Gen.editStepFromMeasured (g.step s) (g.step m) = g.step (Gen.editStepFromMeasured s m) := by
  simp only [Gen.editStepFromMeasured, Move.step, relativeYaw_moved, Step.mk.injEq, true_and, and_true]
  ring

theorem editedSteps_moved (t : ℝ) {mL mR mL' mR' : Step ℝ} {c : Gen.Correction} (hL : c.editsLeft = true → mL' = g.step mL)
    (hR : c.editsRight = true → mR' = g.step mR) (reset : Bool) (pL pR : Step ℝ) :
    Gen.editedSteps (t + g.delay) mL' mR' c reset (g.step pL) (g.step pR) =
      (g.step (Gen.editedSteps t mL mR c reset pL pR).1, g.step (Gen.editedSteps t mL mR c reset pL pR).2) := by
  unfold Gen.editedSteps
  have e1 : (if c.editsLeft = true then Gen.editStepFromMeasured (g.step pL) mL' else g.step pL) =
      g.step (if c.editsLeft = true then Gen.editStepFromMeasured pL mL else pL) := by
    split_ifs with h
    · rw [hL h]; exact editStep_moved _ _
    · rfl
  have e2 : (if c.editsRight = true then Gen.editStepFromMeasured (g.step pR) mR' else g.step pR) =
      g.step (if c.editsRight = true then Gen.editStepFromMeasured pR mR else pR) := by
    split_ifs with h
    · rw [hR h]; exact editStep_moved _ _
    · rfl
  simp only [e1, e2]
  generalize (if c.editsLeft = true then Gen.editStepFromMeasured pL mL else pL) = l
  generalize (if c.editsRight = true then Gen.editStepFromMeasured pR mR else pR) = r
  simp only [Move.step_impactTime, add_lt_add_iff_right, max_add_add_right]
  by_cases h : t < l.impactTime ∨ t < r.impactTime
  · simp only [h, if_true]
    split_ifs <;> rfl
  · simp only [h, if_false]
    split_ifs <;> rfl

theorem editedSteps_nonneg (t : ℝ) {mL mR : Step ℝ} {c : Gen.Correction} (hL : c.editsLeft = true → 0 ≤ mL.impactTime)
    (hR : c.editsRight = true → 0 ≤ mR.impactTime) (reset : Bool) {pL pR : Step ℝ} (hl : 0 ≤ pL.impactTime)
    (hr : 0 ≤ pR.impactTime) : 0 ≤ (Gen.editedSteps t mL mR c reset pL pR).1.impactTime ∧
      0 ≤ (Gen.editedSteps t mL mR c reset pL pR).2.impactTime := by
  unfold Gen.editedSteps
  have e1 : 0 ≤ (if c.editsLeft = true then Gen.editStepFromMeasured pL mL else pL).impactTime := by
    split_ifs with h
    · exact hL h
    · exact hl
  have e2 : 0 ≤ (if c.editsRight = true then Gen.editStepFromMeasured pR mR else pR).impactTime := by
    split_ifs with h
    · exact hR h
    · exact hr
  simp only
  generalize (if c.editsLeft = true then Gen.editStepFromMeasured pL mL else pL) = l at e1
  generalize (if c.editsRight = true then Gen.editStepFromMeasured pR mR else pR) = r at e2
  by_cases h : t < l.impactTime ∨ t < r.impactTime
  · simp only [h, if_true]
    split_ifs
    · exact ⟨le_max_of_le_left hl, le_max_of_le_left hl⟩
    · exact ⟨hl, hr⟩
  · simp only [h, if_false]
    split_ifs
    · exact ⟨le_max_of_le_left hl, le_max_of_le_left hl⟩
    · exact ⟨e1, e2⟩

theorem replaceStep_moved (hd : 0 ≤ g.delay) (b : Bool) (f : FootPrint ℝ) (s : Step ℝ) (hs : 0 ≤ s.impactTime) :
    Gen.replaceStep b (g.footPrint f) (g.step s) = ((Gen.replaceStep b f s).1, g.footPrint (Gen.replaceStep b f s).2) := by
  unfold Gen.replaceStep
  split_ifs
  · rw [g.clearSteps, g.addStep hd _ _ hs]
  · rfl

theorem replaceStep_timed (b : Bool) {f : FootPrint ℝ} (hf : f.Timed) (s : Step ℝ) : (Gen.replaceStep b f s).2.Timed := by
  unfold Gen.replaceStep
  split_ifs
  · exact Move.timed_addStep (Move.timed_clearSteps f) s
  · exact hf

theorem addStep_steps {f f' : FootPrint ℝ} {s : Step ℝ} (h : f.addStep s = (true, f')) : f'.steps ≠ [] := by
  unfold FootPrint.addStep FootPrint.addStepRaw at h
  split at h
  · simp at h
  · simp only [Prod.mk.injEq, true_and] at h
    subst h
    simp

theorem replaceStep_steps {b : Bool} {f f' : FootPrint ℝ} {s : Step ℝ} (hf : f.steps ≠ []) (h : Gen.replaceStep b f s = (true, f')) :
    f'.steps ≠ [] := by
  unfold Gen.replaceStep at h
  split_ifs at h
  · exact addStep_steps h
  · simp only [Prod.mk.injEq, true_and] at h
    subst h; exact hf

theorem keep_steps {f f' : FootPrint ℝ} {t : ℝ} (h : f.keepOnlyPresentStep t = (true, f')) : f'.steps ≠ [] := by
  unfold FootPrint.keepOnlyPresentStep at h
  split at h
  · simp at h
  · exact addStep_steps h

/-- Outcomes of the planning part of a request correspond. -/
def ReplanMoved (g : Move) : Gen.ReplanResult ℝ → Gen.ReplanResult ℝ → Prop
  | .done b p l r prev, .done b' p' l' r' prev' =>
    b' = b ∧ PlannerMoved g p p' ∧ l' = g.footPrint l ∧ r' = g.footPrint r ∧ l.Timed ∧ r.Timed ∧
      prev' = prev.map fun s => (g.step s.1, g.step s.2)
  | .ub w, .ub w' => w' = w
  | .outOfFuel, .outOfFuel => True
  | _, _ => False

theorem planFrom_moved (hd : 0 ≤ g.delay) {integ : Integrator ℝ} {p p' : Planner ℝ} (hi : IntegratorMoved g p.controller integ)
    (h : PlannerMoved g p p') (fuel : Nat) {l r : FootPrint ℝ} (hl : l.Timed) (hr : r.Timed) (hs : l.steps ≠ [] ∨ r.steps ≠ [])
    (t e : ℝ) (h0 : 0 ≤ t) (hn : 0 ≤ p.nominalTime) (hm : p.minTime ≤ p.nominalTime) (prev : Option (Step ℝ × Step ℝ)) :
    ReplanMoved g (Gen.planFrom p integ fuel l r t e prev)
      (Gen.planFrom p' integ fuel (g.footPrint l) (g.footPrint r) (t + g.delay) (e + g.delay)
        (prev.map fun s => (g.step s.1, g.step s.2))) := by
  have := computeNewSteps hd hi h fuel hl hr hs t e h0 hn hm
  unfold Gen.planFrom
  generalize p.computeNewSteps integ fuel l r t e = x at this
  generalize p'.computeNewSteps integ fuel (g.footPrint l) (g.footPrint r) (t + g.delay) (e + g.delay) = x' at this
  rcases x with ⟨b, q, a, c⟩ | w | _ <;> rcases x' with ⟨b', q', a', c'⟩ | w' | _ <;> try exact this.elim
  · obtain ⟨rfl, h1, h2, h3, h4, h5⟩ := this
    cases b' <;> exact ⟨rfl, h1, h2, h3, h4, h5, rfl⟩
  · exact this
  · trivial

theorem shouldReset_moved (d : Gen.DcmVelocity ℝ) :
    Gen.shouldReset (match d with
      | .absent => .absent
      | .unset => .unset
      | .known v => .known (g.vector v)) = Gen.shouldReset d := by
  cases d with
  | absent => rfl
  | unset => rfl
  | known v => simp only [Gen.shouldReset, g.norm_vector]

theorem computeNewStepsFromMeasured (hd : 0 ≤ g.delay) {integ : Integrator ℝ} {p p' : Planner ℝ} (hi : IntegratorMoved g p.controller integ)
    (h : PlannerMoved g p p') (fuel : Nat) {dcm dcm' : Gen.DcmVelocity ℝ} (hdcm : Gen.shouldReset dcm' = Gen.shouldReset dcm)
    {l r : FootPrint ℝ} (hl : l.Timed) (hr : r.Timed) (t e : ℝ) (h0 : 0 ≤ t) (hn : 0 ≤ p.nominalTime)
    (hm : p.minTime ≤ p.nominalTime) {mL mR mL' mR' : Step ℝ} {c : Gen.Correction} (hL : c.editsLeft = true → mL' = g.step mL)
    (hR : c.editsRight = true → mR' = g.step mR) (tL : c.editsLeft = true → 0 ≤ mL.impactTime)
    (tR : c.editsRight = true → 0 ≤ mR.impactTime) :
    ReplanMoved g (Gen.computeNewStepsFromMeasured p integ fuel dcm l r t e mL mR c)
      (Gen.computeNewStepsFromMeasured p' integ fuel dcm' (g.footPrint l) (g.footPrint r) (t + g.delay) (e + g.delay) mL' mR'
        c) := by
  unfold Gen.computeNewStepsFromMeasured
  rw [g.keepOnlyPresentStep hd _ hl, g.keepOnlyPresentStep hd _ hr, hdcm]
  have kl := Move.timed_keep hl t
  have kr := Move.timed_keep hr t
  rcases xl : l.keepOnlyPresentStep t with ⟨_ | _, l1⟩ <;> rw [xl] at kl
  · exact ⟨rfl, h, rfl, rfl, kl, hr, rfl⟩
  simp only
  rcases xr : r.keepOnlyPresentStep t with ⟨_ | _, r1⟩ <;> rw [xr] at kr
  · exact ⟨rfl, h, rfl, rfl, kl, kr, rfl⟩
  simp only
  have sl := keep_steps xl
  have sr := keep_steps xr
  rcases Gen.shouldReset dcm with reset | _ | w
  · simp only
    by_cases hc : c ≠ .none ∨ reset = true
    · rw [if_pos hc, if_pos hc, g.getLastStep, g.getLastStep]
      cases el : l1.getLastStep with
      | none => cases r1.getLastStep <;> exact rfl
      | some pl =>
        cases er : r1.getLastStep with
        | none => exact rfl
        | some pr =>
          simp only [Option.map_some]
          have npl := last_timed kl el
          have npr := last_timed kr er
          obtain ⟨n1, n2⟩ := editedSteps_nonneg t tL tR reset npl npr
          rw [editedSteps_moved t hL hR reset pl pr]
          generalize Gen.editedSteps t mL mR c reset pl pr = ed at *
          obtain ⟨e1, e2⟩ := ed
          simp only at n1 n2 ⊢
          rw [replaceStep_moved hd _ _ _ n1, replaceStep_moved hd _ _ _ n2]
          have tl := replaceStep_timed (c.editsLeft || reset) kl e1
          have tr := replaceStep_timed (c.editsRight || reset) kr e2
          rcases yl : Gen.replaceStep (c.editsLeft || reset) l1 e1 with ⟨_ | _, l2⟩ <;> rw [yl] at tl
          · exact ⟨rfl, h, rfl, rfl, tl, kr, rfl⟩
          simp only
          rcases yr : Gen.replaceStep (c.editsRight || reset) r1 e2 with ⟨_ | _, r2⟩ <;> rw [yr] at tr
          · exact ⟨rfl, h, rfl, rfl, tl, tr, rfl⟩
          simp only
          exact planFrom_moved hd hi h fuel tl tr (Or.inl (replaceStep_steps sl yl)) t e h0 hn hm (some (pl, pr))
    · rw [if_neg hc, if_neg hc]
      exact planFrom_moved hd hi h fuel kl kr (Or.inl sl) t e h0 hn hm none
  · exact ⟨rfl, h, rfl, rfl, kl, kr, rfl⟩
  · rfl

theorem replan_moved (hd : 0 ≤ g.delay) {integ : Integrator ℝ} {p p' : Planner ℝ} (hi : IntegratorMoved g p.controller integ)
    (h : PlannerMoved g p p') (fuel : Nat) {dcm dcm' : Gen.DcmVelocity ℝ} (hdcm : Gen.shouldReset dcm' = Gen.shouldReset dcm)
    {l r : FootPrint ℝ} (hl : l.Timed) (hr : r.Timed) (t e : ℝ) (h0 : 0 ≤ t) (hn : 0 ≤ p.nominalTime)
    (hm : p.minTime ≤ p.nominalTime) (q : Gen.Request ℝ) (hq : RequestTimed q) :
    ReplanMoved g (Gen.replan p integ fuel dcm l r t e q)
      (Gen.replan p' integ fuel dcm' (g.footPrint l) (g.footPrint r) (t + g.delay) (e + g.delay) (g.request q)) := by
  unfold Gen.replan
  have ec : (g.request q).correction = q.correction := by cases q <;> rfl
  rw [ec]
  refine computeNewStepsFromMeasured hd hi h fuel hdcm hl hr t e h0 hn hm ?_ ?_ ?_ ?_
  · cases q <;> intro hh
    · simp [Gen.Request.correction, Gen.Correction.editsLeft] at hh
    · rfl
    · simp only [Gen.Request.measuredLeft, Move.request, Move.step, Step.mk.injEq, true_and]
      exact ⟨by ring, rfl⟩
    · simp only [Gen.Request.measuredLeft, Move.request, Move.step, Step.mk.injEq, true_and]
      exact ⟨by ring, rfl⟩
  · cases q <;> intro hh
    · simp [Gen.Request.correction, Gen.Correction.editsRight] at hh
    · rfl
    · simp only [Gen.Request.measuredRight, Move.request, Move.step, Step.mk.injEq, true_and]
      exact ⟨by ring, rfl⟩
    · simp only [Gen.Request.measuredRight, Move.request, Move.step, Step.mk.injEq, true_and]
      exact ⟨by ring, rfl⟩
  · cases q <;> intro hh
    · simp [Gen.Request.correction, Gen.Correction.editsLeft] at hh
    · exact hq.1
    · show 0 ≤ t + 1; linarith
    · show 0 ≤ t + 1; linarith
  · cases q <;> intro hh
    · simp [Gen.Request.correction, Gen.Correction.editsRight] at hh
    · exact hq.2
    · show 0 ≤ t + 1; linarith
    · show 0 ≤ t + 1; linarith

/-! ## The generator -/

theorem Result.next_moved {x x' : Walker.Result ℝ} {P : Walker ℝ → Walker ℝ → Prop}
    (h : match x, x' with
      | .done b w, .done b' w' => b' = b ∧ WalkerMoved g w w' ∧ P w w'
      | .ub why, .ub why' => why' = why
      | .outOfFuel, .outOfFuel => True
      | _, _ => False)
    {f f' : Walker ℝ → Walker.Result ℝ} (hf : ∀ w w', WalkerMoved g w w' → P w w' → ResultMoved g (f w) (f' w')) :
    ResultMoved g (x.next f) (x'.next f') := by
  rcases x with ⟨b, w⟩ | why | _ <;> rcases x' with ⟨b', w'⟩ | why' | _ <;> try exact h.elim
  · obtain ⟨rfl, h1, h2⟩ := h
    cases b'
    · exact ⟨rfl, h1⟩
    · exact hf w w' h1 h2
  · exact h
  · trivial

theorem fromMembers_moved {w w' : Walker ℝ} (h : WalkerMoved g w w') (hs : DcmStarts g w) {sort : Walker.Sorter ℝ}
    (hsort : SorterMoved g sort) (t dT : ℝ) :
    ResultMoved g (w.fromMembers t dT sort) (w'.fromMembers (t + g.delay) dT sort) := by
  have := h.from hs w.left w.right t dT (sort w.left w.right)
  unfold Walker.fromMembers
  rw [h.left, h.right, hsort]
  generalize w.generateFromFootPrints w.left w.right t dT (sort w.left w.right) = x at this
  generalize w'.generateFromFootPrints (g.footPrint w.left) (g.footPrint w.right) (t + g.delay) dT
    ((sort w.left w.right).map g.ptr) = x' at this
  rcases x with ⟨b, w1⟩ | _ | why <;> rcases x' with ⟨b', w1'⟩ | _ | why' <;> try exact this.elim
  · exact this
  · exact ⟨rfl, h⟩
  · exact this

theorem generate_moved (hd : 0 ≤ g.delay) {integ : Integrator ℝ} {w w' : Walker ℝ}
    (hi : IntegratorMoved g w.planner.controller integ) {sort : Walker.Sorter ℝ} (hsort : SorterMoved g sort) (h : WalkerMoved g w w') (hs : DcmStarts g w) (hp : Plannable w)
    (hne : w.left.steps ≠ [] ∨ w.right.steps ≠ []) (fuel : Nat) (t dT e : ℝ) (h0 : 0 ≤ t) :
    ResultMoved g (w.generate integ fuel sort t dT e) (w'.generate integ fuel sort (t + g.delay) dT (e + g.delay)) := by
  unfold Walker.generate
  refine Result.next_moved (P := fun w1 _ => w1.dcm = w.dcm) ?_ ?_
  · unfold Walker.plan
    have := computeNewSteps hd hi h.planner fuel hp.left hp.right hne t e h0 hp.nominal hp.min
    rw [h.left, h.right]
    generalize w.planner.computeNewSteps integ fuel w.left w.right t e = x at this
    generalize w'.planner.computeNewSteps integ fuel (g.footPrint w.left) (g.footPrint w.right) (t + g.delay) (e + g.delay) = x'
      at this
    rcases x with ⟨b, q, a, c⟩ | why | _ <;> rcases x' with ⟨b', q', a', c'⟩ | why' | _ <;> try exact this.elim
    · obtain ⟨rfl, h1, h2, h3, _, _⟩ := this
      exact ⟨rfl, { h with planner := h1, left := h2, right := h3 }, rfl⟩
    · exact this
    · trivial
  · intro w1 w1' h1 hdcm
    refine fromMembers_moved h1 ?_ hsort t dT
    intro p hpp
    exact hs p (hdcm ▸ hpp)

theorem dcmVelocity_moved {w w' : Walker ℝ} (h : WalkerMoved g w w') :
    Gen.shouldReset w'.dcmVelocity = Gen.shouldReset w.dcmVelocity := by
  have hd := h.dcm
  unfold Walker.dcmVelocity
  generalize w.dcm = d at hd ⊢
  generalize w'.dcm = d' at hd ⊢
  rcases d with _ | p <;> rcases d' with _ | p'
  · rfl
  · exact hd.elim
  · exact hd.elim
  · simp only
    rw [hd.settings]
    cases p.state.initial with
    | none => rfl
    | some s => exact shouldReset_moved (g := g) (.known s.2)

theorem reGenerate_moved (hd : 0 ≤ g.delay) {integ : Integrator ℝ} {w w' : Walker ℝ}
    (hi : IntegratorMoved g w.planner.controller integ) {sort : Walker.Sorter ℝ} (hsort : SorterMoved g sort) (h : WalkerMoved g w w') (hs : DcmStarts g w) (hp : Plannable w)
    (fuel : Nat) (t dT e : ℝ) (h0 : 0 ≤ t) (q : Gen.Request ℝ) (hq : RequestTimed q) :
    ResultMoved g (w.reGenerate integ fuel sort t dT e q)
      (w'.reGenerate integ fuel sort (t + g.delay) dT (e + g.delay) (g.request q)) := by
  unfold Walker.reGenerate
  refine Result.next_moved (P := fun w1 _ => w1.dcm = w.dcm) ?_ ?_
  · unfold Walker.replan
    have := replan_moved hd hi h.planner fuel (dcmVelocity_moved h) hp.left hp.right t e h0 hp.nominal hp.min q hq
    rw [h.left, h.right]
    generalize Gen.replan w.planner integ fuel w.dcmVelocity w.left w.right t e q = x at this
    generalize Gen.replan w'.planner integ fuel w'.dcmVelocity (g.footPrint w.left) (g.footPrint w.right) (t + g.delay)
      (e + g.delay) (g.request q) = x' at this
    rcases x with ⟨b, q, a, c, prev⟩ | why | _ <;> rcases x' with ⟨b', q', a', c', prev'⟩ | why' | _ <;> try exact this.elim
    · obtain ⟨rfl, h1, h2, h3, _, _, rfl⟩ := this
      refine ⟨rfl, { h with planner := h1, left := h2, right := h3, zmp := ?_ }, rfl⟩
      cases prev with
      | none => exact h.zmp
      | some s =>
        have hz := h.zmp
        simp only [Option.map_some]
        generalize w.zmp = z at hz ⊢
        generalize w'.zmp = z' at hz ⊢
        rcases z with _ | z <;> rcases z' with _ | z'
        · trivial
        · exact hz.elim
        · exact hz.elim
        · exact ⟨⟨hz.settings.offsets, hz.settings.initial, ⟨rfl, fun _ => ⟨rfl, rfl⟩⟩, hz.settings.states⟩, hz.result⟩
    · exact this
    · trivial
  · intro w1 w1' h1 hdcm
    refine fromMembers_moved h1 ?_ hsort t dT
    intro p hpp
    exact hs p (hdcm ▸ hpp)

/-- All calls. -/
theorem call_moved (hd : 0 ≤ g.delay) {integ : Integrator ℝ} {w w' : Walker ℝ}
    (hi : IntegratorMoved g w.planner.controller integ) {sort : Walker.Sorter ℝ} (hsort : SorterMoved g sort)
    (h : WalkerMoved g w w') (hs : DcmStarts g w) (hp : Plannable w) (fuel : Nat) (c : Walker.Call ℝ) (hc : CallTimed w c) :
    ResultMoved g (w.call integ fuel sort c) (w'.call integ fuel sort (g.call c)) := by
  cases c with
  | fromFootPrints l r t dT =>
    simp only [Walker.call, Move.call, hsort l r]
    have := h.from hs l r t dT (sort l r)
    generalize w.generateFromFootPrints l r t dT (sort l r) = x at this
    generalize w'.generateFromFootPrints (g.footPrint l) (g.footPrint r) (t + g.delay) dT ((sort l r).map g.ptr) = x' at this
    rcases x with ⟨b, w1⟩ | _ | why <;> rcases x' with ⟨b', w1'⟩ | _ | why' <;> try exact this.elim
    · exact this
    · exact ⟨rfl, h⟩
    · exact this
  | generate t dT e => exact generate_moved hd hi hsort h hs hp hc.2 fuel t dT e hc.1
  | reGenerate t dT e q => exact reGenerate_moved hd hi hsort h hs hp fuel t dT e hc.1 q hc.2

end Uni.Spec
