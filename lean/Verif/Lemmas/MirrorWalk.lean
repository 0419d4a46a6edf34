import Verif.Spec.MirrorWalk
import Verif.Lemmas.MirrorPlan
import Verif.Lemmas.MirrorFrom
import Verif.Props.Replan

/-! # Requests in the mirror: measured contacts -/

set_option autoImplicit false
set_option linter.unusedSectionVars false

namespace Uni.Spec.Mirror

section
variable {K : Type} [Field K] [LinearOrder K] [IsStrictOrderedRing K] [FloorRing K] [Trig K]

theorem add_step (f : FootPrint K) (s : Step K) :
    (footPrint f).addStep (step s) = ((f.addStep s).1, footPrint (f.addStep s).2) :=
  footPrint_addStep f s.position s.angle s.impactTime s.footName _

theorem clear_steps (f : FootPrint K) : (footPrint f).clearSteps = footPrint f.clearSteps := rfl

theorem keep (f : FootPrint K) (t : K) :
    (footPrint f).keepOnlyPresentStep t = ((f.keepOnlyPresentStep t).1, footPrint (f.keepOnlyPresentStep t).2) := by
  unfold FootPrint.keepOnlyPresentStep
  have e : (footPrint f).steps.reverse.find? (fun a => decide (a.impactTime ≤ t)) =
      (f.steps.reverse.find? fun a => decide (a.impactTime ≤ t)).map step := by
    rw [footPrint_steps, ← List.map_reverse, List.find?_map]
    rfl
  rw [e]
  cases f.steps.reverse.find? fun a => decide (a.impactTime ≤ t) with
  | none => rfl
  | some s => simp only [Option.map_some, clear_steps, add_step]

theorem replace (b : Bool) (f : FootPrint K) (s : Step K) :
    Gen.replaceStep b (footPrint f) (step s) = ((Gen.replaceStep b f s).1, footPrint (Gen.replaceStep b f s).2) := by
  unfold Gen.replaceStep
  split_ifs
  · rw [clear_steps, add_step]
  · rfl

/-- The other kind of correction. -/
def correction : Gen.Correction → Gen.Correction
  | .left => .right
  | .right => .left
  | .both => .both
  | .none => .none

theorem correction_left (c : Gen.Correction) : (correction c).editsLeft = c.editsRight := by cases c <;> rfl
theorem correction_right (c : Gen.Correction) : (correction c).editsRight = c.editsLeft := by cases c <;> rfl
theorem correction_none (c : Gen.Correction) : correction c = .none ↔ c = .none := by cases c <;> simp [correction]

theorem edited (t : K) {mL mR mL' mR' : Step K} {c : Gen.Correction} (reset : Bool) {pL pR : Step K}
    (hL : c.editsLeft = true → Gen.editStepFromMeasured (step pL) mR' = step (Gen.editStepFromMeasured pL mL))
    (hR : c.editsRight = true → Gen.editStepFromMeasured (step pR) mL' = step (Gen.editStepFromMeasured pR mR)) :
    Gen.editedSteps t mL' mR' (correction c) reset (step pR) (step pL) =
      (step (Gen.editedSteps t mL mR c reset pL pR).2, step (Gen.editedSteps t mL mR c reset pL pR).1) := by
  unfold Gen.editedSteps
  rw [correction_left, correction_right]
  have e1 : (if c.editsLeft = true then Gen.editStepFromMeasured (step pL) mR' else step pL) =
      step (if c.editsLeft = true then Gen.editStepFromMeasured pL mL else pL) := by
    split_ifs with h
    · exact hL h
    · rfl
  have e2 : (if c.editsRight = true then Gen.editStepFromMeasured (step pR) mL' else step pR) =
      step (if c.editsRight = true then Gen.editStepFromMeasured pR mR else pR) := by
    split_ifs with h
    · exact hR h
    · rfl
  simp only [e1, e2]
  generalize (if c.editsLeft = true then Gen.editStepFromMeasured pL mL else pL) = l
  generalize (if c.editsRight = true then Gen.editStepFromMeasured pR mR else pR) = r
  simp only [step_impactTime, or_comm (a := t < r.impactTime), max_comm pR.impactTime]
  by_cases h : t < l.impactTime ∨ t < r.impactTime
  · simp only [h, if_true]
    split_ifs <;> rfl
  · simp only [h, if_false]
    split_ifs <;> rfl

theorem reset (d : Gen.DcmVelocity K) : Gen.shouldReset (match d with
      | .absent => .absent
      | .unset => .unset
      | .known v => .known (vector v)) = Gen.shouldReset d := by
  cases d with
  | absent => rfl
  | unset => rfl
  | known v => simp only [Gen.shouldReset, norm_vector]

theorem planFrom (hp : TrigParity K) {p p' : Planner K} (hm : PlannerMirrored p p') {integ : Integrator K}
    (hi : IntegratorMirrored p integ) (hn : NeverTurns p integ) (fuel : Nat) {l r : FootPrint K} (hf : FeetAhead p l r) (t e : K)
    (prev : Option (Step K × Step K)) {q : Planner K} {l1 r1 : FootPrint K} {prev1 : Option (Step K × Step K)}
    (h : Gen.planFrom p integ fuel l r t e prev = .done true q l1 r1 prev1) :
    ∃ q', PlannerMirrored q q' ∧ Gen.planFrom p' integ fuel (footPrint r) (footPrint l) t e (prev.map fun s => (step s.2, step s.1)) =
      .done true q' (footPrint r1) (footPrint l1) (prev1.map fun s => (step s.2, step s.1)) := by
  have := planMirrored hp hm hi hn fuel hf t e
  unfold Gen.planFrom at h ⊢
  generalize p.computeNewSteps integ fuel l r t e = x at this h
  rcases x with ⟨_ | _, p1, a, b⟩ | w | _
  · cases h
  · obtain ⟨q', h1, h2⟩ := this
    cases h
    rw [h2]
    exact ⟨q', h1, rfl⟩
  · cases h
  · cases h

end

/-! ## Real numbers -/

theorem relativeYaw_near {a b : ℝ} (h : |b - a| < Real.pi) : Gen.relativeYaw a b = b - a := by
  obtain ⟨h1, h2, n, h3⟩ := Gen.relativeYaw_real a b
  have hpi := Real.pi_pos
  obtain ⟨h4, h5⟩ := abs_lt.mp h
  have a1 : (n : ℝ) < 1 := by
    by_contra hc
    push Not at hc
    nlinarith
  have a2 : (-1 : ℝ) < n := by
    by_contra hc
    push Not at hc
    nlinarith
  have : n = 0 := by
    have b1 : n < 1 := by exact_mod_cast a1
    have b2 : -1 < n := by exact_mod_cast a2
    omega
  rw [h3, this]; simp

theorem edit {s m : Step ℝ} (h : |m.angle - s.angle| < Real.pi) :
    Gen.editStepFromMeasured (step s) (step m) = step (Gen.editStepFromMeasured s m) := by
  have h' : |-m.angle - -s.angle| < Real.pi := by
    rw [show -m.angle - -s.angle = -(m.angle - s.angle) by ring, abs_neg]; exact h
  simp only [Gen.editStepFromMeasured, step, relativeYaw_near h, relativeYaw_near h', Step.mk.injEq, true_and, and_true]
  ring

theorem edit_angle {s m : Step ℝ} (h : |m.angle - s.angle| < Real.pi) : (Gen.editStepFromMeasured s m).angle = m.angle := by
  simp only [Gen.editStepFromMeasured, relativeYaw_near h]; ring

theorem edited_angle {t : ℝ} {mL mR : Step ℝ} {c : Gen.Correction} {reset : Bool} {pL pR : Step ℝ} {a : ℝ}
    (hL : c.editsLeft = true → (Gen.editStepFromMeasured pL mL).angle = a) (hL' : c.editsLeft = false → pL.angle = a)
    (hR : c.editsRight = true → (Gen.editStepFromMeasured pR mR).angle = a) (hR' : c.editsRight = false → pR.angle = a) :
    (Gen.editedSteps t mL mR c reset pL pR).1.angle = a ∧ (Gen.editedSteps t mL mR c reset pL pR).2.angle = a := by
  have e1 : (if c.editsLeft = true then Gen.editStepFromMeasured pL mL else pL).angle = a := by
    split_ifs with h
    · exact hL h
    · exact hL' (by simpa using h)
  have e2 : (if c.editsRight = true then Gen.editStepFromMeasured pR mR else pR).angle = a := by
    split_ifs with h
    · exact hR h
    · exact hR' (by simpa using h)
  unfold Gen.editedSteps
  simp only
  generalize (if c.editsLeft = true then Gen.editStepFromMeasured pL mL else pL) = l at e1
  generalize (if c.editsRight = true then Gen.editStepFromMeasured pR mR else pR) = r at e2
  by_cases h : t < l.impactTime ∨ t < r.impactTime
  · simp only [h, if_true]
    split_ifs <;> exact ⟨e1, e2⟩
  · simp only [h, if_false]
    split_ifs <;> exact ⟨e1, e2⟩

theorem addStep_angles {f f' : FootPrint ℝ} {s : Step ℝ} {a : ℝ} (hs : s.angle = a) (h : f.clearSteps.addStep s = (true, f')) :
    ∀ x ∈ f'.steps, x.angle = a := by
  unfold FootPrint.addStep FootPrint.addStepRaw at h
  split at h
  · simp at h
  · simp only [Prod.mk.injEq, true_and] at h
    subst h
    intro x hx
    simp only [FootPrint.clearSteps, List.nil_append, List.mem_singleton] at hx
    rw [hx]; exact hs

theorem keep_angles {f f' : FootPrint ℝ} {t a : ℝ} (hf : ∀ s ∈ f.steps, s.angle = a) (h : f.keepOnlyPresentStep t = (true, f')) :
    ∀ x ∈ f'.steps, x.angle = a := by
  unfold FootPrint.keepOnlyPresentStep at h
  split at h
  · simp at h
  · rename_i s hs
    exact addStep_angles (hf s (List.mem_reverse.mp (List.mem_of_find?_eq_some hs))) h

theorem replace_angles {b : Bool} {f f' : FootPrint ℝ} {s : Step ℝ} {a : ℝ} (hf : b = false → ∀ s ∈ f.steps, s.angle = a) (hs : s.angle = a)
    (h : Gen.replaceStep b f s = (true, f')) : ∀ x ∈ f'.steps, x.angle = a := by
  unfold Gen.replaceStep at h
  split_ifs at h with hb
  · exact addStep_angles hs h
  · cases h; exact hf (by simpa using hb)

theorem measured (hp : TrigParity ℝ) {p p' : Planner ℝ} (hm : PlannerMirrored p p') {integ : Integrator ℝ}
    (hi : IntegratorMirrored p integ) (hn : NeverTurns p integ) (fuel : Nat) {dcm dcm' : Gen.DcmVelocity ℝ}
    (hdcm : Gen.shouldReset dcm' = Gen.shouldReset dcm) {l r : FootPrint ℝ} (hl : p.leftYaw = 0) (hr : p.rightYaw = 0) {a b : ℝ}
    (hs : ∀ s ∈ l.steps ++ r.steps, s.angle = a) (t e : ℝ) {mL mR mL' mR' : Step ℝ} {c : Gen.Correction}
    (hb : |b - a| < Real.pi) (hc : c ≠ .both → b = a)
    (hL : c.editsLeft = true → mL.angle = b ∧ mR' = step mL) (hR : c.editsRight = true → mR.angle = b ∧ mL' = step mR)
    {q : Planner ℝ} {l1 r1 : FootPrint ℝ} {prev : Option (Step ℝ × Step ℝ)}
    (h : Gen.computeNewStepsFromMeasured p integ fuel dcm l r t e mL mR c = .done true q l1 r1 prev) :
    ∃ q', PlannerMirrored q q' ∧ Gen.computeNewStepsFromMeasured p' integ fuel dcm' (footPrint r) (footPrint l) t e mL' mR' (correction c) =
      .done true q' (footPrint r1) (footPrint l1) (prev.map fun s => (step s.2, step s.1)) := by
  have last : ∀ {x y : FootPrint ℝ} {d : ℝ}, (∀ s ∈ x.steps, s.angle = d) → (∀ s ∈ y.steps, s.angle = d) → FeetAhead p x y := by
    intro x y d hx hy
    refine ⟨hl, hr, fun u v hu hv => ?_⟩
    rw [hx u (List.mem_of_getLast? hu), hy v (List.mem_of_getLast? hv)]
  unfold Gen.computeNewStepsFromMeasured at h ⊢
  rw [keep, keep, hdcm]
  rcases xl : l.keepOnlyPresentStep t with ⟨_ | _, l2⟩ <;> rw [xl] at h
  · cases h
  rcases xr : r.keepOnlyPresentStep t with ⟨_ | _, r2⟩ <;> rw [xr] at h
  · cases h
  simp only at h ⊢
  have kl := keep_angles (fun s hs' => hs s (List.mem_append_left _ hs')) xl
  have kr := keep_angles (fun s hs' => hs s (List.mem_append_right _ hs')) xr
  generalize Gen.shouldReset dcm = sr at h ⊢
  rcases sr with reset | _ | w
  · simp only [ne_eq, correction_none] at h ⊢
    by_cases hc' : ¬ c = .none ∨ reset = true
    · rw [if_pos hc'] at h ⊢
      rw [footPrint_last, footPrint_last]
      cases el : l2.getLastStep with
      | none => rw [el] at h; cases r2.getLastStep <;> cases h
      | some pl =>
        cases er : r2.getLastStep with
        | none => rw [el, er] at h; cases h
        | some pr =>
          rw [el, er] at h
          simp only [Option.map_some] at h ⊢
          have ap : pl.angle = a := kl pl (List.mem_of_getLast? el)
          have ar : pr.angle = a := kr pr (List.mem_of_getLast? er)
          have nl : c.editsLeft = true → |mL.angle - pl.angle| < Real.pi := fun h => by rw [(hL h).1, ap]; exact hb
          have nr : c.editsRight = true → |mR.angle - pr.angle| < Real.pi := fun h => by rw [(hR h).1, ar]; exact hb
          rw [edited (mL := mL) (mR := mR) t reset (fun h => by rw [(hL h).2]; exact edit (nl h)) (fun h => by rw [(hR h).2]; exact edit (nr h))]
          have hab : (c.editsLeft = false → a = b) ∧ (c.editsRight = false → a = b) := by
            constructor <;> intro hf <;> refine (hc ?_).symm <;> rintro rfl <;> cases hf
          obtain ⟨n1, n2⟩ := edited_angle (t := t) (mL := mL) (mR := mR) (c := c) (reset := reset) (pL := pl) (pR := pr) (a := b)
            (fun h => by rw [edit_angle (nl h)]; exact (hL h).1) (fun h => ap.trans (hab.1 h))
            (fun h => by rw [edit_angle (nr h)]; exact (hR h).1) (fun h => ar.trans (hab.2 h))
          generalize Gen.editedSteps t mL mR c reset pl pr = ed at *
          obtain ⟨e1, e2⟩ := ed
          simp only at n1 n2 h ⊢
          rw [replace, replace, correction_left, correction_right]
          rcases yl : Gen.replaceStep (c.editsLeft || reset) l2 e1 with ⟨_ | _, l3⟩ <;> rw [yl] at h
          · cases h
          simp only at h
          rcases yr : Gen.replaceStep (c.editsRight || reset) r2 e2 with ⟨_ | _, r3⟩ <;> rw [yr] at h
          · cases h
          simp only at h ⊢
          have tl := replace_angles (fun hf => by rw [← hab.1 (by simp at hf; exact hf.1)]; exact kl) n1 yl
          have tr := replace_angles (fun hf => by rw [← hab.2 (by simp at hf; exact hf.1)]; exact kr) n2 yr
          exact planFrom hp hm hi hn fuel (last tl tr) t e (some (pl, pr)) h
    · rw [if_neg hc'] at h ⊢
      exact planFrom hp hm hi hn fuel (last kl kr) t e none h
  · cases h
  · cases h

theorem replan (hp : TrigParity ℝ) {p p' : Planner ℝ} (hm : PlannerMirrored p p') {integ : Integrator ℝ}
    (hi : IntegratorMirrored p integ) (hn : NeverTurns p integ) (fuel : Nat) {dcm dcm' : Gen.DcmVelocity ℝ}
    (hdcm : Gen.shouldReset dcm' = Gen.shouldReset dcm) {l r : FootPrint ℝ} (hl : p.leftYaw = 0) (hr : p.rightYaw = 0) {a : ℝ}
    (hs : ∀ s ∈ l.steps ++ r.steps, s.angle = a) (t e : ℝ) {k : Gen.Request ℝ} (hk : Parallel a k)
    {q : Planner ℝ} {l1 r1 : FootPrint ℝ} {prev : Option (Step ℝ × Step ℝ)}
    (h : Gen.replan p integ fuel dcm l r t e k = .done true q l1 r1 prev) :
    ∃ q', PlannerMirrored q q' ∧ Gen.replan p' integ fuel dcm' (footPrint r) (footPrint l) t e (request k) =
      .done true q' (footPrint r1) (footPrint l1) (prev.map fun s => (step s.2, step s.1)) := by
  have pi0 : |a - a| < Real.pi := by rw [sub_self, abs_zero]; exact Real.pi_pos
  unfold Gen.replan at h ⊢
  cases k with
  | plain => exact measured hp hm hi hn fuel hdcm hl hr hs t e (b := a) pi0 (fun _ => rfl) (fun h => by cases h) (fun h => by cases h) h
  | steps x y =>
    obtain ⟨k1, k2⟩ := hk
    exact measured hp hm hi hn fuel hdcm hl hr hs t e (b := x.angle) k2 (fun h => absurd rfl h) (fun h => ⟨rfl, rfl⟩)
      (fun h => ⟨k1.symm, rfl⟩) h
  | oneFoot b v y =>
    have hk : y = a := hk
    subst hk
    cases b
    · exact measured hp hm hi hn fuel hdcm hl hr hs t e (b := y) pi0 (fun _ => rfl) (fun h => by cases h) (fun h => ⟨rfl, rfl⟩) h
    · exact measured hp hm hi hn fuel hdcm hl hr hs t e (b := y) pi0 (fun _ => rfl) (fun h => ⟨rfl, rfl⟩) (fun h => by cases h) h
  | twoFeet v x u y =>
    obtain ⟨k1, k2⟩ := hk
    exact measured hp hm hi hn fuel hdcm hl hr hs t e (b := x) k2 (fun h => absurd rfl h) (fun h => ⟨rfl, rfl⟩)
      (fun h => ⟨k1.symm, rfl⟩) h

end Uni.Spec.Mirror
