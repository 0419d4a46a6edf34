import Verif.Props.Steady
import Verif.Lemmas.Circle
import Mathlib.Analysis.SpecialFunctions.Trigonometric.Deriv

/-! # C104: a constant command with turning -/

set_option autoImplicit false
set_option linter.unusedSectionVars false

namespace Uni
open Spec Circle
namespace Planner

private theorem drive_snoc (v : Control ℝ) (ds : List ℝ) (d : ℝ) (u : UState ℝ) :
    drive v (ds ++ [d]) u = eulerStep d (drive v ds u) v := by
  unfold drive
  rw [List.foldl_append, List.foldl_cons, List.foldl_nil]

private theorem drive_angle (v : Control ℝ) (h : ℝ) (u : UState ℝ) : ∀ m : Nat,
    (drive v (List.replicate m h) u).angle = u.angle + m * h * v.angular
  | 0 => by simp [drive]
  | m + 1 => by
    rw [List.replicate_succ', drive_snoc]
    show (drive v (List.replicate m h) u).angle + h * v.angular = _
    rw [drive_angle v h u m]
    push_cast; ring

private theorem goRound_zero {v : Control ℝ} (u : UState ℝ) : goRound u v 0 = u := by
  unfold goRound centre
  ext
  · simp only [inFrame, zero_mul, add_zero]
    have := Real.sin_sq_add_cos_sq u.angle
    ring
  · simp only [inFrame, zero_mul, add_zero]
    ring
  · simp

/-- The error after `m` steps of the size `h`, times a chord, is a constant times a chord. -/
private theorem drive_error {v : Control ℝ} (hw : v.angular ≠ 0) (h : ℝ) (u : UState ℝ) : ∀ m : Nat,
    (Complex.exp (Complex.I * (h * v.angular : ℝ)) - 1) *
        (cx (drive v (List.replicate m h) u).position - cx (goRound u v (m * h)).position) =
      (Complex.exp (Complex.I * (u.angle + m * h * v.angular : ℝ)) - Complex.exp (Complex.I * (u.angle : ℝ))) *
        (Complex.I * (cx ⟨v.forward, v.lateral⟩ / v.angular) *
          (Complex.exp (Complex.I * (h * v.angular : ℝ)) - 1 - Complex.I * (h * v.angular : ℝ)))
  | 0 => by
    have : drive v (List.replicate 0 h) u = u := rfl
    rw [this]
    simp [goRound_zero]
  | m + 1 => by
    have e : ((m + 1 : Nat) : ℝ) * h = m * h + h := by push_cast; ring
    have e2 : Complex.exp (Complex.I * (u.angle + (m * h + h) * v.angular : ℝ)) =
        Complex.exp (Complex.I * (u.angle + m * h * v.angular : ℝ)) * Complex.exp (Complex.I * (h * v.angular : ℝ)) := by
      rw [← Complex.exp_add]; congr 1; push_cast; ring
    rw [List.replicate_succ', drive_snoc, e, error_step hw (m * h) h (drive_angle v h u m), mul_add, drive_error hw h u m, e2]
    ring

/-- C104 (the integration): Euler steps of the size `h` and a last one that is not longer follow the circle, for ever: the
heading is exact and the distance is at most two and a half times what is covered in one step. -/
private theorem drive_circle {v : Control ℝ} (hw : v.angular ≠ 0) {h r : ℝ} (hh : 0 < h) (r0 : 0 ≤ r) (rh : r ≤ h)
    (hs : |v.angular| * h ≤ 1) (u : UState ℝ) (m : Nat) :
    (drive v (List.replicate m h ++ [r]) u).angle = (goRound u v (m * h + r)).angle ∧
    Spec.dist (drive v (List.replicate m h ++ [r]) u).position (goRound u v (m * h + r)).position ≤ 5 / 2 * (speedOf v * h) := by
  have hp : 0 < |v.angular| := abs_pos.mpr hw
  have hv : 0 ≤ speedOf v := Real.sqrt_nonneg _
  have hd : |h * v.angular| ≤ 1 := by rw [abs_mul, abs_of_pos hh, mul_comm]; exact hs
  have hr : |r * v.angular| ≤ 1 := by
    rw [abs_mul, abs_of_nonneg r0]
    nlinarith
  constructor
  · rw [drive_snoc]
    show (drive v (List.replicate m h) u).angle + r * v.angular = u.angle + (m * h + r) * v.angular
    rw [drive_angle]; ring
  · rw [dist_cx, drive_snoc, error_step hw (m * h) r (drive_angle v h u m)]
    have unit : ∀ x : ℝ, ‖Complex.exp (Complex.I * x)‖ = 1 := fun x => by rw [mul_comm]; exact Complex.norm_exp_ofReal_mul_I x
    have e1 : ‖cx (drive v (List.replicate m h) u).position - cx (goRound u v (m * h)).position‖ ≤
        3 / 5 * Real.pi * (speedOf v * h) := by
      have k := congrArg norm (drive_error hw h u m)
      rw [norm_mul, norm_mul] at k
      have k1 := chord hd
      have k2 := one_error hw hd
      rw [abs_of_pos hh] at k2
      have k3 : ‖Complex.exp (Complex.I * (u.angle + m * h * v.angular : ℝ)) - Complex.exp (Complex.I * (u.angle : ℝ))‖ ≤ 2 :=
        (norm_sub_le _ _).trans (by rw [unit, unit]; norm_num)
      set D := ‖cx (drive v (List.replicate m h) u).position - cx (goRound u v (m * h)).position‖
      have D0 : 0 ≤ D := norm_nonneg _
      have hpi := Real.pi_pos
      have pos : 0 < |h * v.angular| := abs_pos.mpr (mul_ne_zero hh.ne' hw)
      have k4 : 2 / Real.pi * |h * v.angular| * D ≤ 2 * (3 / 5 * speedOf v * h * |h * v.angular|) :=
        calc _ ≤ _ := mul_le_mul_of_nonneg_right k1 D0
          _ = _ := k
          _ ≤ _ := mul_le_mul k3 k2 (norm_nonneg _) (by norm_num)
      have k5 : |h * v.angular| * (2 / Real.pi * D) ≤ |h * v.angular| * (2 * (3 / 5 * speedOf v * h)) := by nlinarith
      have k6 := le_of_mul_le_mul_left k5 pos
      have k7 : Real.pi * (2 / Real.pi * D) ≤ Real.pi * (2 * (3 / 5 * speedOf v * h)) := mul_le_mul_of_nonneg_left k6 hpi.le
      have k8 : Real.pi * (2 / Real.pi * D) = 2 * D := by field_simp
      rw [k8] at k7
      linarith
    have e2 := one_error hw hr
    rw [abs_of_nonneg r0] at e2
    have e3 : 3 / 5 * speedOf v * r * |r * v.angular| ≤ 3 / 5 * (speedOf v * h) := by
      have a : r * |r * v.angular| ≤ h * 1 := mul_le_mul rh hr (abs_nonneg _) hh.le
      have := mul_le_mul_of_nonneg_left a (mul_nonneg (by norm_num : (0 : ℝ) ≤ 3 / 5) hv)
      linarith
    refine (norm_add_le _ _).trans ?_
    rw [norm_mul, unit, one_mul]
    have hpi : Real.pi ≤ 3.15 := Real.pi_lt_d2.le
    have hvh : 0 ≤ speedOf v * h := mul_nonneg hv hh.le
    have : 3 / 5 * Real.pi * (speedOf v * h) ≤ 3 / 5 * 3.15 * (speedOf v * h) :=
      mul_le_mul_of_nonneg_right (by linarith) hvh
    refine (add_le_add (e1.trans this) (e2.trans e3)).trans ?_
    have h4 : (3 / 5 * 3.15 : ℝ) = 189 / 100 := by norm_num
    rw [h4]
    linarith

/-- C104: the circle is the motion with the commanded velocities: at the beginning it is the given state, its heading changes at
the commanded rate, and its velocity is the commanded one in its own frame (what `ControlledUnicycle::dynamics` returns). -/
theorem C104_circle (u : UState ℝ) (v : Control ℝ) (hw : v.angular ≠ 0) :
    goRound u v 0 = u ∧ ∀ s,
      HasDerivAt (fun s => (goRound u v s).position.x) (dynamics (goRound u v s) v).position.x s ∧
      HasDerivAt (fun s => (goRound u v s).position.y) (dynamics (goRound u v s) v).position.y s ∧
      HasDerivAt (fun s => (goRound u v s).angle) v.angular s ∧
      Spec.dist (goRound u v s).position (centre u v) = speedOf v / |v.angular| := by
  refine ⟨goRound_zero u, fun s => ?_⟩
  have ha : HasDerivAt (fun s => u.angle + s * v.angular) v.angular s := by
    simpa using ((hasDerivAt_id s).mul_const v.angular).const_add u.angle
  have hc := ha.cos
  have hsn := ha.sin
  refine ⟨?_, ?_, ha, ?_⟩
  · have := ((hc.mul_const (v.lateral / v.angular)).const_add (centre u v).x).sub (hsn.mul_const (-(v.forward / v.angular)))
    refine this.congr_deriv ?_
    simp only [dynamics, goRound, cos_real, sin_real]
    field_simp
    ring
  · have := ((hsn.mul_const (v.lateral / v.angular)).const_add (centre u v).y).add (hc.mul_const (-(v.forward / v.angular)))
    refine this.congr_deriv ?_
    simp only [dynamics, goRound, cos_real, sin_real]
    field_simp
    ring
  · rw [dist_cx, cx_goRound, add_sub_cancel_left, norm_mul, norm_mul, norm_neg, Complex.norm_I, one_mul, norm_div, speed_cx,
      Complex.norm_real, Real.norm_eq_abs, mul_comm Complex.I, Complex.norm_exp_ofReal_mul_I, one_mul]

variable {p p' : Planner ℝ} {integ : Integrator ℝ} {fuel : Nat} {durations : ℝ → ℝ → List ℝ} {garbage : ℝ} {left right left' right' : FootPrint ℝ} {t0 t1 : ℝ} {d : Plan ℝ}

/-- C104: with a constant command that turns, the planned unicycle follows the commanded circle during the whole horizon, however
long: at every instant its heading is exactly, and its position up to two and a half times the distance covered in an integration
step, that of the circle after a time which is the one since the command is executed, up to one and a half integration steps. -/
theorem C104_motion (hc : p.controller = .direct) (hw : p.ctrl.direct.desired.angular ≠ 0)
    (hl : WithinLimits p p.ctrl.direct.desired) (hs : FixedStep durations) (hh : 0 < p.integratorStep)
    (hsmall : |p.ctrl.direct.desired.angular| * p.integratorStep ≤ 1)
    (hi : ∀ q u a b, q.controller = .direct → integ q u a b = euler durations garbage q u a b)
    (hd : PlanOf p integ left right t0 t1 left' right' d) :
    ∃ u, InitialState p (leftFoot p left) (rightFoot p right) t0 left.steps.getLast? right.steps.getLast? u ∧
      ∀ τ, t0 ≤ τ → τ ≤ t1 → ∃ s, 0 ≤ s ∧ (d.sol τ).angle = (goRound u p.ctrl.direct.desired s).angle ∧
        Spec.dist (d.sol τ).position (goRound u p.ctrl.direct.desired s).position ≤
          5 / 2 * (speedOf p.ctrl.direct.desired * p.integratorStep) ∧
        |s - max 0 (τ - executedFrom p t0 (decide (¬ (left.steps = [] ∧ right.steps = []))) d.q.firstStep)| ≤
          3 / 2 * p.integratorStep := by
  obtain ⟨u, hu, hm⟩ := constant_command hc hl hs hh hi hd
  refine ⟨u, hu, fun τ a b => ?_⟩
  obtain ⟨m, r, r0, rh, e, bound⟩ := hm τ a b
  obtain ⟨c1, c2⟩ := drive_circle hw hh r0 rh hsmall u m
  rw [← e] at c1 c2
  exact ⟨m * p.integratorStep + r, add_nonneg (mul_nonneg (Nat.cast_nonneg _) hh.le) r0, c1, c2, bound⟩

/-- C104: every contact that is added is beside a pose on the circle, up to two and a half times the distance covered in an
integration step, with the heading of the circle there (and the yaw of the foot); an optimised one is where the unicycle is at the
landing, up to one and a half integration steps. -/
theorem C104_landings (hp : Timed p) (hL : NonNeg left) (hR : NonNeg right) (hc : p.controller = .direct)
    (hw : p.ctrl.direct.desired.angular ≠ 0) (hl : WithinLimits p p.ctrl.direct.desired)
    (hpar : p.ctrl.direct.desired.lateral = 0 ∨ FeetParallel p left right) (hs : FixedStep durations) (hh : 0 < p.integratorStep)
    (hsmall : |p.ctrl.direct.desired.angular| * p.integratorStep ≤ 1)
    (hi : ∀ q u a b, q.controller = .direct → integ q u a b = euler durations garbage q u a b)
    (h : p.computeNewSteps integ fuel left right t0 t1 = .done true p' left' right') :
    ∃ d u, PlanOf p integ left right t0 t1 left' right' d ∧
      InitialState p (leftFoot p left) (rightFoot p right) t0 left.steps.getLast? right.steps.getLast? u ∧
      ∀ e ∈ d.log, ∃ s x, 0 ≤ s ∧
        e.step = stepOf (if e.left then leftFoot p left else rightFoot p right)
          ⟨x, (goRound u p.ctrl.direct.desired s).angle⟩ e.step.impactTime ∧
        Spec.dist x (goRound u p.ctrl.direct.desired s).position ≤ 5 / 2 * (speedOf p.ctrl.direct.desired * p.integratorStep) ∧
        (e.kind = .optimised → |s - max 0 (e.step.impactTime - executedFrom p t0 (decide (¬ (left.steps = [] ∧ right.steps = [])))
          d.q.firstStep)| ≤ 3 / 2 * p.integratorStep) := by
  obtain ⟨d, hd⟩ := exists_plan hp hL hR h
  obtain ⟨u, hu, hm⟩ := C104_motion hc hw hl hs hh hsmall hi hd
  refine ⟨d, u, hd, hu, fun e he => ?_⟩
  have tol : 0 ≤ 5 / 2 * (speedOf p.ctrl.direct.desired * p.integratorStep) :=
    mul_nonneg (by norm_num) (mul_nonneg (Real.sqrt_nonneg _) hh.le)
  obtain ⟨w, τ, ⟨s, s0, ha, hx, hb⟩, hstep, hopt⟩ := landings_on (f := fun w τ => ∃ s, 0 ≤ s ∧
      w.angle = (goRound u p.ctrl.direct.desired s).angle ∧
      Spec.dist w.position (goRound u p.ctrl.direct.desired s).position ≤ 5 / 2 * (speedOf p.ctrl.direct.desired * p.integratorStep) ∧
      (t0 ≤ τ → τ ≤ t1 → |s - max 0 (τ - executedFrom p t0 (decide (¬ (left.steps = [] ∧ right.steps = []))) d.q.firstStep)| ≤
        3 / 2 * p.integratorStep)) hp (start_base hc hpar hd hu)
    ⟨t0 - 1, 0, le_rfl, by rw [goRound_zero], by rw [goRound_zero, dist_cx, sub_self, norm_zero]; exact tol,
      fun h => by linarith⟩ (fun τ a b => by
      obtain ⟨s, h1, h2, h3, h4⟩ := hm τ a b
      exact ⟨s, h1, h2, h3, fun _ _ => h4⟩) hd e he
  obtain ⟨-, -, f3, f4⟩ := foot_eq hd
  refine ⟨s, w.position, s0, ?_, hx, fun hk => ?_⟩
  · rw [← ha]
    rw [hstep, stepOf_time]
    cases e.left <;> simp [f3, f4]
  · obtain ⟨rfl, a, b⟩ := hopt hk
    exact hb a b

/-- C104: walking on a circle (without lateral velocity) each foot has its own ring around the common centre, half the nominal
width inside or outside the circle of the unicycle; all contacts added are on the ring of their foot, up to two and a half times
the distance covered in an integration step. -/
theorem C104_rings (hp : Timed p) (hL : NonNeg left) (hR : NonNeg right) (hc : p.controller = .direct)
    (hw : p.ctrl.direct.desired.angular ≠ 0) (hlat : p.ctrl.direct.desired.lateral = 0)
    (hl : WithinLimits p p.ctrl.direct.desired) (hs : FixedStep durations) (hh : 0 < p.integratorStep)
    (hsmall : |p.ctrl.direct.desired.angular| * p.integratorStep ≤ 1)
    (hi : ∀ q u a b, q.controller = .direct → integ q u a b = euler durations garbage q u a b)
    (h : p.computeNewSteps integ fuel left right t0 t1 = .done true p' left' right') :
    ∃ d u, PlanOf p integ left right t0 t1 left' right' d ∧
      InitialState p (leftFoot p left) (rightFoot p right) t0 left.steps.getLast? right.steps.getLast? u ∧
      ∀ e ∈ d.log, |Spec.dist e.step.position (centre u p.ctrl.direct.desired) -
        abs (p.ctrl.direct.desired.forward / p.ctrl.direct.desired.angular - (if e.left then 1 else -1) * (p.nominalWidth / 2))| ≤
          5 / 2 * (speedOf p.ctrl.direct.desired * p.integratorStep) := by
  obtain ⟨d, u, hd, hu, hlog⟩ := C104_landings hp hL hR hc hw hl (.inl hlat) hs hh hsmall hi h
  refine ⟨d, u, hd, hu, fun e he => ?_⟩
  obtain ⟨s, x, -, e1, e2, -⟩ := hlog e he
  set v := p.ctrl.direct.desired with hv
  set ρ : ℝ := (if e.left then 1 else -1) * (p.nominalWidth / 2) with hρ
  set θ := u.angle + s * v.angular with hθ
  have hstep : cx e.step.position = cx x + Complex.exp (Complex.I * θ) * cx ⟨0, ρ⟩ := by
    have hrot : ∀ y : Vec2 ℝ, cx (x + rot θ y) = cx x + Complex.exp (Complex.I * θ) * cx y := by
      intro y
      rw [exp_turn]
      apply Complex.ext <;> simp [cx, rot] <;> ring
    rw [e1, ← hrot]
    cases hl' : e.left
    · simp only [stepOf, Bool.false_eq_true, if_false, rightFoot, hρ, hl']
      rw [show -1 * (p.nominalWidth / 2) = -p.nominalWidth / 2 by ring]
      rfl
    · simp only [stepOf, if_true, leftFoot, hρ, hl', one_mul]
      rfl
  have hround : cx (goRound u v s).position = cx (centre u v) + Complex.exp (Complex.I * θ) * cx ⟨0, -(v.forward / v.angular)⟩ := by
    rw [goRound, cx_inFrame, hlat, zero_div]
  have key : cx e.step.position - cx (centre u v) = (cx x - cx (goRound u v s).position) +
      Complex.exp (Complex.I * θ) * (cx ⟨0, ρ⟩ + cx ⟨0, -(v.forward / v.angular)⟩) := by
    rw [hstep, hround]; ring
  have hnorm : ‖Complex.exp (Complex.I * θ) * (cx ⟨0, ρ⟩ + cx ⟨0, -(v.forward / v.angular)⟩)‖ = |v.forward / v.angular - ρ| := by
    rw [norm_mul, mul_comm Complex.I, Complex.norm_exp_ofReal_mul_I, one_mul]
    have : cx ⟨0, ρ⟩ + cx ⟨0, -(v.forward / v.angular)⟩ = Complex.I * ((ρ - v.forward / v.angular : ℝ) : ℂ) := by
      apply Complex.ext <;> simp [cx, sub_eq_add_neg]
    rw [this, norm_mul, Complex.norm_I, one_mul, Complex.norm_real, Real.norm_eq_abs, abs_sub_comm]
  rw [dist_cx, key, ← hnorm]
  rw [dist_cx] at e2
  refine (abs_norm_sub_norm_le _ _).trans ?_
  rw [add_sub_cancel_right]
  exact e2

/-! ## Example -/

private theorem turning_within : WithinLimits (drivenDemo ⟨1 / 50, 1 / 20, 0⟩) (drivenDemo ⟨1 / 50, 1 / 20, 0⟩).ctrl.direct.desired := by
  have hpi := Real.pi_gt_three
  have hsp : (1 : ℝ) / 25 ≤ speedLimit (drivenDemo ⟨1 / 50, 1 / 20, 0⟩) := by
    have : (2 / 15 : ℝ) ≤ Real.sqrt ((1 / 5) ^ 2 - (7 / 50) ^ 2) := Real.le_sqrt_of_sq_le (by norm_num)
    simp only [speedLimit, drivenDemo, realDemo, Planner.new, sqrt_real]
    linarith
  have hturn : (1 : ℝ) / 20 ≤ turnLimit (drivenDemo ⟨1 / 50, 1 / 20, 0⟩) := by
    simp only [turnLimit, drivenDemo, realDemo, Planner.new, deg2rad, pi_real]
    norm_num
    linarith
  have hg : (drivenDemo ⟨1 / 50, 1 / 20, 0⟩).ctrl.directBase.turnGain = 0 := rfl
  have hb : (drivenDemo ⟨1 / 50, 1 / 20, 0⟩).ctrl.directBase.backFactor = 1 := rfl
  have hsd : (drivenDemo ⟨1 / 50, 1 / 20, 0⟩).ctrl.directBase.sideFactor = 1 := rfl
  have hv : (drivenDemo ⟨1 / 50, 1 / 20, 0⟩).ctrl.direct.desired = ⟨1 / 50, 1 / 20, 0⟩ := rfl
  rw [hv]
  constructor
  · linarith
  · rw [hg]
  · rw [hb]; norm_num
  · rw [hsd]; norm_num
  · rw [abs_of_pos (by norm_num)]; exact hturn
  · rw [hg, zero_mul, add_zero, div_one]
    show (1 / 50 : ℝ) ≤ _
    linarith
  · rw [hg, hb, zero_mul, add_zero, div_one, one_mul]
    show _ ≤ (1 / 50 : ℝ)
    linarith
  · rw [hsd, abs_zero, one_mul]; linarith

/-- Non-vacuity of C104: the default planner told to walk on a circle of radius 40 cm: a plan is made, the left contacts are 33 cm
and the right ones 47 cm from the centre, up to half a millimetre. -/
example : ∃ d l' r' u, PlanOf (drivenDemo ⟨1 / 50, 1 / 20, 0⟩) drivenInteg
      ⟨[⟨⟨0, 7 / 100⟩, 0, 0, "left"⟩], "left"⟩ ⟨[⟨⟨0, -7 / 100⟩, 0, 0, "right"⟩], "right"⟩ 0 20 l' r' d ∧
    ∀ e ∈ d.log, |Spec.dist e.step.position (centre u ⟨1 / 50, 1 / 20, 0⟩) - (if e.left then 33 / 100 else 47 / 100)| ≤ 1 / 2000 := by
  obtain ⟨fuel, p', l', r', h⟩ := drivenDemo_plans ⟨1 / 50, 1 / 20, 0⟩ "left" "right"
  have n1 : NonNeg (⟨[⟨⟨0, 7 / 100⟩, 0, 0, "left"⟩], "left"⟩ : FootPrint ℝ) := by
    intro s hs; simp only [List.mem_singleton] at hs; rw [hs]
  have n2 : NonNeg (⟨[⟨⟨0, -7 / 100⟩, 0, 0, "right"⟩], "right"⟩ : FootPrint ℝ) := by
    intro s hs; simp only [List.mem_singleton] at hs; rw [hs]
  have hstep : (drivenDemo ⟨1 / 50, 1 / 20, 0⟩).integratorStep = 1 / 100 := rfl
  have hwid : (drivenDemo ⟨1 / 50, 1 / 20, 0⟩).nominalWidth = 7 / 50 := rfl
  obtain ⟨d, u, hd, -, hlog⟩ := C104_rings (drivenDemo_timed ⟨1 / 50, 1 / 20, 0⟩) n1 n2 rfl
    (by simp [drivenDemo]) rfl turning_within uniformSteps_fixed (by rw [hstep]; norm_num)
    (by rw [hstep]; simp only [drivenDemo]; rw [abs_of_pos] <;> norm_num) drivenInteg_direct h
  refine ⟨d, l', r', u, hd, fun e he => ?_⟩
  have := hlog e he
  have hsp : speedOf (drivenDemo ⟨1 / 50, 1 / 20, 0⟩).ctrl.direct.desired = 1 / 50 := by
    simp only [speedOf, drivenDemo]
    rw [show ((1 : ℝ) / 50) ^ 2 + 0 ^ 2 = (1 / 50) ^ 2 by ring, Real.sqrt_sq (by norm_num)]
  have hv : (drivenDemo ⟨1 / 50, 1 / 20, 0⟩).ctrl.direct.desired = ⟨1 / 50, 1 / 20, 0⟩ := rfl
  rw [hsp, hstep, hwid, hv] at this
  have e2 : abs ((1 / 50 : ℝ) / (1 / 20) - (if e.left then 1 else -1) * (7 / 50 / 2)) = if e.left then 33 / 100 else 47 / 100 := by
    cases e.left <;> norm_num
  simp only at this
  rw [e2] at this
  norm_num at this ⊢
  exact this

end Planner
end Uni
