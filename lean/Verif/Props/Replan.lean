import Verif.Lemmas.Replan
import Verif.Props.Planner

/-! # C40, C52: measured contacts and re-planning -/

set_option autoImplicit false
set_option linter.unusedSectionVars false

namespace Uni.Gen
open Spec

/-! ## C40 -/

/-- The relative yaw is the difference of the angles, brought in `(-π, π]`. -/
theorem relativeYaw_real (a b : ℝ) :
    -Real.pi < relativeYaw a b ∧ relativeYaw a b ≤ Real.pi ∧ ∃ n : ℤ, relativeYaw a b = b - a + n * (2 * Real.pi) := by
  have e : relativeYaw a b = Complex.arg (Complex.cos ((b - a : ℝ)) + Complex.sin ((b - a : ℝ)) * Complex.I) := by
    unfold relativeYaw
    show Complex.arg _ = _
    congr 1
    apply Complex.ext
    · simp [← Complex.ofReal_cos, ← Complex.ofReal_sin, Real.cos_sub, -Complex.ofReal_sub]
      ring
    · simp [← Complex.ofReal_cos, ← Complex.ofReal_sin, Real.sin_sub, -Complex.ofReal_sub]
      ring
  refine ⟨by rw [e]; exact Complex.neg_pi_lt_arg _, by rw [e]; exact Complex.arg_le_pi _, ⌊(Real.pi - (b - a)) / (2 * Real.pi)⌋, ?_⟩
  have := Complex.arg_cos_add_sin_mul_I_sub (b - a)
  rw [e]
  push_cast at this ⊢
  linarith

/-- C40: the corrected step is at the measured position, with the measured landing time and the name of the planned step; its
angle is the measured one up to full turns, in the turn closest to the planned angle. -/
theorem C40_corrected (planned measured : Step ℝ) :
    MovedTo planned measured.position measured.angle (editStepFromMeasured planned measured) ∧
    (editStepFromMeasured planned measured).impactTime = measured.impactTime ∧
    (editStepFromMeasured planned measured).footName = planned.footName := by
  obtain ⟨h1, h2, n, h3⟩ := relativeYaw_real planned.angle measured.angle
  refine ⟨⟨rfl, ⟨n, ?_⟩, ?_⟩, rfl, rfl⟩
  · show planned.angle + relativeYaw planned.angle measured.angle = _
    rw [h3]; ring
  · show |planned.angle + relativeYaw planned.angle measured.angle - planned.angle| ≤ _
    rw [add_sub_cancel_left, abs_le]
    exact ⟨h1.le, h2⟩

/-- C40: a measured angle at less than half a turn from the planned one is taken as it is. -/
theorem C40_close_angle (planned measured : Step ℝ) (h : |measured.angle - planned.angle| < Real.pi) :
    (editStepFromMeasured planned measured).angle = measured.angle := by
  obtain ⟨h1, h2, n, h3⟩ := relativeYaw_real planned.angle measured.angle
  show planned.angle + relativeYaw planned.angle measured.angle = _
  rw [abs_lt] at h
  have hp := Real.pi_pos
  have hn : n = 0 := by
    have l1 : (n : ℝ) < 1 := by
      by_contra hc
      have : (1 : ℝ) * (2 * Real.pi) ≤ n * (2 * Real.pi) := mul_le_mul_of_nonneg_right (not_lt.mp hc) (by linarith)
      linarith
    have l2 : (-1 : ℝ) < n := by
      by_contra hc
      have : n * (2 * Real.pi) ≤ (-1 : ℝ) * (2 * Real.pi) := mul_le_mul_of_nonneg_right (not_lt.mp hc) (by linarith)
      linarith
    have l1 : n < 1 := by exact_mod_cast l1
    have l2 : -1 < n := by exact_mod_cast l2
    omega
  rw [h3, hn]; push_cast; ring

/-- C40: the angles may be any number of turns apart: the result is the same. -/
theorem C40_turns (planned measured : Step ℝ) (k : ℤ) :
    editStepFromMeasured planned { measured with angle := measured.angle + k * (2 * Real.pi) } =
      editStepFromMeasured planned measured := by
  unfold editStepFromMeasured relativeYaw
  simp only [cos_real, sin_real, Real.cos_add_int_mul_two_pi, Real.sin_add_int_mul_two_pi]

/-- C40 non-vacuity: there are angles more than half a turn apart. -/
example : ¬ |(⟨0, 4 * Real.pi, 0, ""⟩ : Step ℝ).angle - (⟨0, 0, 0, ""⟩ : Step ℝ).angle| < Real.pi := by
  simp only [sub_zero, not_lt]
  rw [abs_of_nonneg (by positivity)]
  linarith [Real.pi_pos]

/-! ## C52 -/

section
variable {K : Type} [Field K] [LinearOrder K] [IsStrictOrderedRing K] [Trig K]

theorem editedSteps_place (t0 : K) (mL mR : Step K) (c : Correction) (reset : Bool) (pL pR : Step K) :
    let e := editedSteps t0 mL mR c reset pL pR
    (e.1.position, e.1.angle) = (if c.editsLeft then (mL.position, pL.angle + relativeYaw pL.angle mL.angle) else (pL.position, pL.angle)) ∧
    (e.2.position, e.2.angle) = (if c.editsRight then (mR.position, pR.angle + relativeYaw pR.angle mR.angle) else (pR.position, pR.angle)) := by
  unfold editedSteps editStepFromMeasured
  cases h1 : c.editsLeft <;> cases h2 : c.editsRight <;> cases reset <;>
    simp only [Bool.false_eq_true, if_false, if_true] <;> split_ifs <;> exact ⟨rfl, rfl⟩

theorem editedSteps_time (t0 : K) (mL mR : Step K) (c : Correction) (reset : Bool) (pL pR : Step K) :
    let e := editedSteps t0 mL mR c reset pL pR
    let tL := if c.editsLeft then mL.impactTime else pL.impactTime
    let tR := if c.editsRight then mR.impactTime else pR.impactTime
    (e.1.impactTime, e.2.impactTime) =
      if reset then (max pL.impactTime pR.impactTime, max pL.impactTime pR.impactTime)
      else if t0 < tL ∨ t0 < tR then (pL.impactTime, pR.impactTime) else (tL, tR) := by
  unfold editedSteps editStepFromMeasured
  cases h1 : c.editsLeft <;> cases h2 : c.editsRight <;> cases reset <;>
    simp only [Bool.false_eq_true, if_false, if_true] <;> split_ifs <;> rfl

end

theorem shouldReset_iff (dcm : DcmVelocity ℝ) (reset : Bool) (h : shouldReset dcm = .ok reset) :
    reset = true ↔ AtRest dcm := by
  cases dcm with
  | absent => simp [shouldReset] at h; simp [← h, AtRest]
  | unset => simp [shouldReset] at h
  | known v =>
    simp only [shouldReset, Out.ok.injEq] at h
    rw [← h, decide_eq_true_eq]
    have e : v.norm = Real.sqrt (v.x ^ 2 + v.y ^ 2) := by
      show Real.sqrt (v.x * v.x + v.y * v.y) = _
      rw [sq, sq]
    constructor
    · intro h; exact ⟨v, rfl, by rw [← e]; exact h⟩
    · rintro ⟨w, hw, h⟩; cases hw; rw [e]; exact h

/-- C52 (partial).  Missing: that the foot that is not corrected keeps its landing time as well (with the DCM at rest it does
not, see `TimesAfter`).  a successful re-planning request at time `t0` plans from the steps on the ground at `t0`, `sL` and `sR`: everything
else is forgotten.  The foot (or feet) to correct is moved where it was measured, the other one stays in place; the landing
times are those of `TimesAfter`. -/
theorem C52_contacts_partial {p p' : Planner ℝ} {integ : Integrator ℝ} {fuel : Nat} {dcm : DcmVelocity ℝ}
    {left right left' right' : FootPrint ℝ} {t0 t1 : ℝ} {q : Request ℝ} {prev : Option (Step ℝ × Step ℝ)}
    (hp : Timed p) (hL : NonNeg left) (hR : NonNeg right)
    (h : replan p integ fuel dcm left right t0 t1 q = .done true p' left' right' prev) :
    ∃ sL sR cL cR d, Present left.steps t0 sL ∧ Present right.steps t0 sR ∧
      PlacesAfter q sL sR cL cR ∧ TimesAfter q t0 dcm sL sR cL cR ∧
      cL.footName = left.footName ∧ cR.footName = right.footName ∧
      PlanOf p integ ⟨[cL], left.footName⟩ ⟨[cR], right.footName⟩ t0 t1 left' right' d := by
  obtain ⟨sL, sR, reset, cL, cR, h1, h2, h3, h4, n1, n2, h5, -⟩ := computeNewStepsFromMeasured_true hL hR h
  obtain ⟨d, hd⟩ := Planner.exists_plan hp (by intro s hs; simp at hs; rw [hs]; exact n1)
    (by intro s hs; simp at hs; rw [hs]; exact n2) h5
  have place := editedSteps_place t0 (q.measuredLeft t0 left.footName) (q.measuredRight t0 right.footName) q.correction reset
    { sL with footName := left.footName } { sR with footName := right.footName }
  have time := editedSteps_time t0 (q.measuredLeft t0 left.footName) (q.measuredRight t0 right.footName) q.correction reset
    { sL with footName := left.footName } { sR with footName := right.footName }
  rw [← h4] at place time
  simp only at place time
  have ymove : ∀ (s : Step ℝ) (pos : Vec2 ℝ) (a : ℝ) (out : Step ℝ), (out.position, out.angle) = (pos, s.angle + relativeYaw s.angle a) →
      MovedTo s pos a out := by
    intro s pos a out he
    obtain ⟨e1, e2⟩ := Prod.mk.inj he
    obtain ⟨⟨-, g1, g2⟩, -⟩ := C40_corrected s ⟨pos, a, 0, ""⟩
    exact ⟨e1, by rw [e2]; exact g1, by rw [e2]; exact g2⟩
  refine ⟨sL, sR, { cL with footName := left.footName }, { cR with footName := right.footName }, d, h1, h2, ?_, ?_, rfl, rfl, hd⟩
  · clear time h
    cases q with
    | plain => exact ⟨Prod.mk.inj place.1, Prod.mk.inj place.2⟩
    | steps mL mR => exact ⟨ymove _ _ _ _ place.1, ymove _ _ _ _ place.2⟩
    | oneFoot b pos a =>
      cases b with
      | true => exact ⟨ymove _ _ _ _ place.1, Prod.mk.inj place.2⟩
      | false => exact ⟨Prod.mk.inj place.1, ymove _ _ _ _ place.2⟩
    | twoFeet pL aL pR aR => exact ⟨ymove _ _ _ _ place.1, ymove _ _ _ _ place.2⟩
  · have hrest := shouldReset_iff dcm reset h3
    clear place h
    constructor
    · intro ha
      rw [hrest.mpr ha, if_pos rfl] at time
      exact Prod.mk.inj time
    · intro ha
      have : reset = false := by rw [← Bool.not_eq_true, hrest]; exact ha
      rw [this, if_neg (by simp)] at time
      obtain ⟨-, -, -, pL1, -⟩ := h1
      obtain ⟨-, -, -, pR1, -⟩ := h2
      constructor
      · rintro mL mR rfl g1 g2
        rw [if_neg] at time
        · exact Prod.mk.inj time
        · rintro (g | g)
          · exact absurd g1 (not_le.mpr g)
          · exact absurd g2 (not_le.mpr g)
      · intro hq
        have key : (cL.impactTime, cR.impactTime) = (sL.impactTime, sR.impactTime) := by
          rw [time]
          cases q with
          | plain => simp [Request.correction, Correction.editsLeft, Correction.editsRight]
          | steps mL mR => rw [if_pos]; exact hq mL mR rfl
          | oneFoot b pos a =>
            rw [if_pos]
            cases b with
            | true => left; show t0 < t0 + 1; linarith
            | false => right; show t0 < t0 + 1; linarith
          | twoFeet pL aL pR aR => rw [if_pos]; left; show t0 < t0 + 1; linarith
        exact Prod.mk.inj key

/-- C52: the first step of each footprint after the request is at the place of the contact, with the contact's time unless there
was no step to add, in which case both have the latest time. -/
theorem C52_first_steps {K : Type} [Field K] [LinearOrder K] [IsStrictOrderedRing K] [Trig K] {p : Planner K} {integ : Integrator K}
    {left' right' : FootPrint K} {t0 t1 : K} {cL cR : Step K}
    {nl nr : String} {d : Plan K} (hcl : cL.footName = nl) (hcr : cR.footName = nr)
    (h : PlanOf p integ ⟨[cL], nl⟩ ⟨[cR], nr⟩ t0 t1 left' right' d) :
    (∃ newL newR, left'.steps = cL :: newL ∧ right'.steps = cR :: newR) ∨
    (left'.steps = [{ cL with impactTime := max cL.impactTime cR.impactTime }] ∧
      right'.steps = [{ cR with impactTime := max cL.impactTime cR.impactTime }]) := by
  have hst : d.l0 = ⟨[cL], nl⟩ ∧ d.r0 = ⟨[cR], nr⟩ := by
    rcases h.begins.steps with ⟨-, h1, h2⟩ | ⟨h1, -⟩
    · exact ⟨h1, h2⟩
    · simp at h1
  have e := h.effect
  rw [hst.1, hst.2] at e
  rcases e with ⟨-, rfl, rfl⟩ | ⟨-, l, r, g1, g2, g⟩
  · left; exact ⟨_, _, rfl, rfl⟩
  · simp only [List.getLast?_singleton, Option.some.injEq] at g1 g2
    subst g1 g2
    rcases g with ⟨-, rfl, rfl⟩ | ⟨hlt, rfl, older, s, k, rfl⟩ | ⟨hlt, ⟨older, s, k, rfl⟩, rfl⟩
    · left; exact ⟨[], [], rfl, rfl⟩
    · right
      have k' := congrArg List.length k
      simp only [List.length_append, List.length_singleton] at k'
      have : older = [] := List.length_eq_zero_iff.mp (by omega)
      subst this
      simp only [List.nil_append, List.cons.injEq, and_true] at k
      subst k
      rw [max_eq_left hlt.le]
      simp [← hcr]
    · right
      have k' := congrArg List.length k
      simp only [List.length_append, List.length_singleton] at k'
      have : older = [] := List.length_eq_zero_iff.mp (by omega)
      subst this
      simp only [List.nil_append, List.cons.injEq, and_true] at k
      subst k
      rw [max_eq_right hlt.le]
      simp [← hcl]

section
variable {K : Type} [Field K] [LinearOrder K] [IsStrictOrderedRing K] [Trig K]
variable {p : Planner K} {integ : Integrator K} {fuel : Nat} {dcm : DcmVelocity K} {left right : FootPrint K} {t0 t1 : K} {q : Request K}

/-- C52: if the left foot has no step on the ground at `t0` the request fails and nothing changes. -/
theorem C52_no_left_contact (h : ∀ s ∈ left.steps, t0 < s.impactTime) :
    replan p integ fuel dcm left right t0 t1 q = .done false p left right none := by
  unfold replan computeNewStepsFromMeasured
  rw [FootPrint.C02_none left t0 h]

/-- C52: if only the right foot has no step on the ground at `t0` the request fails too, but the steps of the left foot other than
the present one are lost. -/
theorem C52_no_right_contact (hL : NonNeg left) (sL : Step K) (h1 : Present left.steps t0 sL)
    (h : ∀ s ∈ right.steps, t0 < s.impactTime) :
    replan p integ fuel dcm left right t0 t1 q =
      .done false p ⟨[{ sL with footName := left.footName }], left.footName⟩ right none := by
  unfold replan computeNewStepsFromMeasured
  rw [keepOnly_present hL h1, FootPrint.C02_none right t0 h]

/-- C52: with contacts on both feet, the call reads uninitialised memory exactly when there is a DCM generator that never
computed a trajectory nor received an initial state (or when the planner does). -/
theorem C52_unset_dcm (hL : NonNeg left) (hR : NonNeg right) (sL sR : Step K) (h1 : Present left.steps t0 sL)
    (h2 : Present right.steps t0 sR) :
    replan p integ fuel .unset left right t0 t1 q = .ub .uninitialised := by
  unfold replan computeNewStepsFromMeasured
  rw [keepOnly_present hL h1]
  simp only
  rw [keepOnly_present hR h2]
  rfl

/-- C52: a request with measured steps both landed, but one with a negative time, fails and loses the contact of that foot (here the
left one). -/
theorem C52_negative_measure_loses_contact (hL : NonNeg left) (hR : NonNeg right) (sL sR mL mR : Step K)
    (h1 : Present left.steps t0 sL) (h2 : Present right.steps t0 sR) (hneg : mL.impactTime < 0) (h3 : mL.impactTime ≤ t0)
    (h4 : mR.impactTime ≤ t0) :
    replan p integ fuel .absent left right t0 t1 (.steps mL mR) =
      .done false p ⟨[], left.footName⟩ ⟨[{ sR with footName := right.footName }], right.footName⟩ none := by
  have time := editedSteps_time t0 mL mR .both false { sL with footName := left.footName } { sR with footName := right.footName }
  unfold replan computeNewStepsFromMeasured
  rw [keepOnly_present hL h1]
  simp only
  rw [keepOnly_present hR h2]
  simp only [shouldReset, Request.correction, Request.measuredLeft, Request.measuredRight, FootPrint.getLastStep,
    List.getLast?_singleton]
  simp only [ne_eq, reduceCtorEq, not_false_eq_true, true_or, if_true]
  generalize editedSteps t0 mL mR .both false { sL with footName := left.footName } { sR with footName := right.footName } = e at time ⊢
  obtain ⟨l, r⟩ := e
  simp only [Correction.editsLeft, Correction.editsRight] at time
  simp only [decide_true, or_true, if_true, Bool.false_eq_true, if_false] at time
  rw [if_neg (by rintro (g | g); exacts [absurd h3 (not_le.mpr g), absurd h4 (not_le.mpr g)])] at time
  obtain ⟨e1, e2⟩ := Prod.mk.inj time
  simp [replaceStep, Correction.editsLeft, FootPrint.addStep, FootPrint.addStepRaw, FootPrint.clearSteps, e1, hneg]

/-- C52: with contacts on both feet and nothing to correct, the request is the planning from the two contacts. -/
theorem C52_plain (hL : NonNeg left) (hR : NonNeg right) (sL sR : Step K) (h1 : Present left.steps t0 sL)
    (h2 : Present right.steps t0 sR) {ok : Bool} {p' : Planner K} {left' right' : FootPrint K}
    (hpl : p.computeNewSteps integ fuel ⟨[{ sL with footName := left.footName }], left.footName⟩
      ⟨[{ sR with footName := right.footName }], right.footName⟩ t0 t1 = .done ok p' left' right') :
    replan p integ fuel .absent left right t0 t1 .plain = .done ok p' left' right' none := by
  unfold replan computeNewStepsFromMeasured
  rw [keepOnly_present hL h1]
  simp only
  rw [keepOnly_present hR h2]
  simp only [shouldReset, Request.correction, ne_eq, not_true_eq_false, Bool.false_eq_true, or_self, if_false, planFrom]
  rw [hpl]
  cases ok <;> rfl

end

/-- Non-vacuity of C52: an old walk on the way of being replaced by a new one. -/
example (sol : Planner ℝ → UState ℝ → ℝ → ℝ → ℝ → UState ℝ) : ∃ (p p' : Planner ℝ) (fuel : Nat) (l r l' r' : FootPrint ℝ),
    Timed p ∧ NonNeg l ∧ NonNeg r ∧ l.steps.length = 2 ∧
    replan p (fun p u a b => (p.ctrl, some (sol p u a b))) fuel .absent l r 0 20 .plain = .done true p' l' r' none := by
  obtain ⟨p', l', r', h⟩ := Planner.realDemo_plans sol "left" "right"
  have h1 : NonNeg (⟨[⟨⟨0, 7 / 100⟩, 0, 0, "left"⟩, ⟨⟨1, 7 / 100⟩, 0, 3, "left"⟩], "left"⟩ : FootPrint ℝ) := by
    intro s hs
    simp only [List.mem_cons, List.not_mem_nil, or_false] at hs
    rcases hs with rfl | rfl <;> norm_num
  have h2 : NonNeg (⟨[⟨⟨0, -7 / 100⟩, 0, 0, "right"⟩], "right"⟩ : FootPrint ℝ) := by
    intro s hs
    simp only [List.mem_singleton] at hs
    rw [hs]
  refine ⟨_, p', _, _, _, l', r', Planner.realDemo_timed, h1, h2, rfl, C52_plain h1 h2 ⟨⟨0, 7 / 100⟩, 0, 0, "left"⟩
    ⟨⟨0, -7 / 100⟩, 0, 0, "right"⟩ ⟨[], [⟨⟨1, 7 / 100⟩, 0, 3, "left"⟩], rfl, le_refl _, ?_⟩ ⟨[], [], rfl, le_refl _, ?_⟩ h⟩
  · intro x hx
    simp only [List.mem_singleton] at hx
    rw [hx]; norm_num
  · intro x hx; cases hx

end Uni.Gen
