import Mathlib.Analysis.SpecialFunctions.Trigonometric.Bounds
import Verif.Lemmas.Striding

/-! # C122, C123: a robot that is told to walk walks, one that is told to turn turns -/

set_option autoImplicit false
set_option linter.unusedSectionVars false

namespace Uni
open Spec
namespace Planner

variable {p : Planner ℝ} {integ : Integrator ℝ} {fuel : Nat} {durations : ℝ → ℝ → List ℝ} {garbage : ℝ}
  {left right left' right' : FootPrint ℝ} {t0 t1 v T : ℝ} {d : Plan ℝ} {cmd : Control ℝ}

theorem step_state {F : Foot ℝ} {s : Step ℝ} {u : UState ℝ} (h : stateFor F s = u) :
    s.position = u.position + rot u.angle F.distance ∧ s.angle = u.angle + F.yawOffset := by
  subst h
  unfold stateFor
  constructor
  · ext <;> simp
  · simp

private theorem norm_rot_real (θ : ℝ) (x : Vec2 ℝ) : (rot θ x).norm = Real.sqrt (x.x ^ 2 + x.y ^ 2) := by
  have hn : (rot θ x).normSq = x.x ^ 2 + x.y ^ 2 := by
    simp only [rot, Vec2.normSq, cos_real, sin_real]
    have := Real.sin_sq_add_cos_sq θ
    linear_combination (x.x ^ 2 + x.y ^ 2) * this
  rw [Vec2.norm, hn, sqrt_real]

/-! ## Straight on -/

private theorem goOn_straight (hz : cmd.angular = 0) (u : UState ℝ) (s : ℝ) :
    goOn u cmd s = ⟨u.position + rot u.angle ⟨s * cmd.forward, s * cmd.lateral⟩, u.angle⟩ := by
  unfold goOn
  ext <;> simp [rot, hz] <;> ring

/-- When a step of a foot that is behind is tiny. -/
private theorem tiny_straight {F : Foot ℝ} {l : Step ℝ} {u : UState ℝ} {a b : ℝ} (hz : cmd.angular = 0) (hab : a ≤ b)
    (h : stateFor F l = goOn u cmd a) :
    tinyFor F (some l) (goOn u cmd b) = (decide (speedOf cmd * (b - a) < F.minimumStep) && decide (0 < F.minimumAngle)) := by
  obtain ⟨h1, h2⟩ := step_state h
  have e : (goOn u cmd b).position + rot (goOn u cmd b).angle F.distance - l.position =
      rot u.angle ⟨(b - a) * cmd.forward, (b - a) * cmd.lateral⟩ := by
    rw [h1, goOn_straight hz, goOn_straight hz]
    ext <;> simp [rot] <;> ring
  have e2 : l.angle - F.yawOffset - (goOn u cmd b).angle = 0 := by
    rw [h2, goOn_straight hz, goOn_straight hz]; ring
  have e3 : (rot u.angle ⟨(b - a) * cmd.forward, (b - a) * cmd.lateral⟩).norm = speedOf cmd * (b - a) := by
    rw [norm_rot_real]
    show Real.sqrt (((b - a) * cmd.forward) ^ 2 + ((b - a) * cmd.lateral) ^ 2) = _
    rw [show ((b - a) * cmd.forward) ^ 2 + ((b - a) * cmd.lateral) ^ 2 = (cmd.forward ^ 2 + cmd.lateral ^ 2) * (b - a) ^ 2 by ring,
      Real.sqrt_mul (by positivity), Real.sqrt_sq (by linarith)]
    rfl
  simp only [tinyFor, e, e2, e3, abs_zero]

/-- The constraints, given the geometry of a step: the new foot `y` beside and `x` ahead of the other one, seen from it or (with the same
distance) from the new foot. -/
theorem satisfied (hfree : ∀ x, p.problem.freeSpace.isPointInside x = true) {D : StepData ℝ} {φ : ℝ}
    (hd : D.deltaAngle = |φ|)
    (hlen : ∀ m, p.problem.maxLength = some m → D.rPl.x ^ 2 + D.rPl.y ^ 2 < m ^ 2 ∧ 0 ≤ m)
    (hwid : ∀ m, p.problem.minWidth = some m → m < D.rPl.y)
    (hang : ∀ m, p.problem.maxAngle = some m → |φ| < m)
    (hback : ∀ m, p.problem.maxLengthBackward = some m → 0 < m ∧ (D.newRelative.x < 0 → D.newRelative.x ^ 2 + D.newRelative.y ^ 2 < m ^ 2)) :
    p.problem.areConstraintsSatisfied D = true := by
  simp only [Problem.areConstraintsSatisfied, Bool.and_eq_true]
  refine ⟨⟨⟨⟨?_, ?_⟩, ?_⟩, ?_⟩, ?_⟩
  · unfold Problem.lengthOk
    cases hm : p.problem.maxLength with
    | none => rfl
    | some m =>
      simp only [decide_eq_true_eq, sqrt_real]
      rw [Real.sqrt_lt (by positivity) (hlen m hm).2]
      exact (hlen m hm).1
  · unfold Problem.widthOk
    cases hm : p.problem.minWidth with
    | none => rfl
    | some m => simpa only [decide_eq_true_eq] using hwid m hm
  · unfold Problem.angleOk
    cases hm : p.problem.maxAngle with
    | none => rfl
    | some m => simpa only [hd, abs_abs, decide_eq_true_eq] using hang m hm
  · unfold Problem.ellipseOk
    simp only [hfree, if_true]
    norm_num
  · unfold Problem.backwardOk
    cases hm : p.problem.maxLengthBackward with
    | none => rfl
    | some m =>
      simp only [decide_eq_true_eq, sqrt_real]
      split_ifs with hx
      · rw [Real.sqrt_lt (by positivity) (hback m hm).1.le]
        exact (hback m hm).2 hx
      · exact (hback m hm).1

/-- The geometry of a step while the unicycle goes straight on. -/
private theorem data_straight (hz : cmd.angular = 0) (hl : p.leftYaw = 0) (hr : p.rightYaw = 0) (fl fr : FootPrint ℝ) (left : Bool)
    (prev : Step ℝ) (u : UState ℝ) (a b dur : ℝ) (hprev : stateFor (if left then rightFoot p fr else leftFoot p fl) prev = goOn u cmd a) :
    ∃ D, dataOf (leftFoot p fl) (rightFoot p fr) left prev (goOn u cmd b) dur = D ∧ D.deltaAngle = |(0 : ℝ)| ∧
      D.newRelative.x = (b - a) * cmd.forward ∧
      (D.rPl.y = p.nominalWidth + (b - a) * cmd.lateral ∨ D.rPl.y = p.nominalWidth - (b - a) * cmd.lateral) ∧
      D.rPl.x ^ 2 = ((b - a) * cmd.forward) ^ 2 ∧ D.newRelative.y ^ 2 = D.rPl.y ^ 2 := by
  obtain ⟨h1, h2⟩ := step_state hprev
  refine ⟨_, rfl, ?_⟩
  cases left
  · simp only [Bool.false_eq_true, if_false, leftFoot, hl, add_zero] at h1 h2
    rw [goOn_straight hz] at h1 h2
    have e : u.position + rot u.angle ⟨a * cmd.forward, a * cmd.lateral⟩ + rot u.angle ⟨0, p.nominalWidth / 2⟩ -
        (u.position + rot u.angle ⟨b * cmd.forward, b * cmd.lateral⟩ + rot u.angle ⟨0, -p.nominalWidth / 2⟩) =
        rot u.angle ⟨-((b - a) * cmd.forward), p.nominalWidth - (b - a) * cmd.lateral⟩ := by
      ext <;> simp [rot] <;> ring
    have e' : u.position + rot u.angle ⟨b * cmd.forward, b * cmd.lateral⟩ + rot u.angle ⟨0, -p.nominalWidth / 2⟩ -
        (u.position + rot u.angle ⟨a * cmd.forward, a * cmd.lateral⟩ + rot u.angle ⟨0, p.nominalWidth / 2⟩) =
        rot u.angle ⟨(b - a) * cmd.forward, -(p.nominalWidth - (b - a) * cmd.lateral)⟩ := by
      ext <;> simp [rot] <;> ring
    have x1 : (dataOf (leftFoot p fl) (rightFoot p fr) false prev (goOn u cmd b) dur).rPl =
        ⟨-((b - a) * cmd.forward), p.nominalWidth - (b - a) * cmd.lateral⟩ := by
      simp only [dataOf, Bool.false_eq_true, if_false, h1, rightFoot]
      rw [goOn_straight hz, e, rotT_rot]
    have x2 : (dataOf (leftFoot p fl) (rightFoot p fr) false prev (goOn u cmd b) dur).newRelative =
        ⟨(b - a) * cmd.forward, -(p.nominalWidth - (b - a) * cmd.lateral)⟩ := by
      simp only [dataOf, Bool.false_eq_true, if_false, h1, h2, rightFoot]
      rw [goOn_straight hz, e', rotT_rot]
    refine ⟨?_, ?_, ?_, ?_, ?_⟩
    · simp only [dataOf, Bool.false_eq_true, if_false, h2, leftFoot, hl]
      rw [goOn_straight hz]; simp
    · rw [x2]
    · rw [x1]; exact .inr rfl
    · rw [x1]; ring
    · rw [x1, x2]; ring
  · simp only [if_true, rightFoot, hr, add_zero] at h1 h2
    rw [goOn_straight hz] at h1 h2
    have e : u.position + rot u.angle ⟨b * cmd.forward, b * cmd.lateral⟩ + rot u.angle ⟨0, p.nominalWidth / 2⟩ -
        (u.position + rot u.angle ⟨a * cmd.forward, a * cmd.lateral⟩ + rot u.angle ⟨0, -p.nominalWidth / 2⟩) =
        rot u.angle ⟨(b - a) * cmd.forward, p.nominalWidth + (b - a) * cmd.lateral⟩ := by
      ext <;> simp [rot] <;> ring
    have x1 : (dataOf (leftFoot p fl) (rightFoot p fr) true prev (goOn u cmd b) dur).rPl =
        ⟨(b - a) * cmd.forward, p.nominalWidth + (b - a) * cmd.lateral⟩ := by
      simp only [dataOf, if_true, h1, h2, leftFoot]
      rw [goOn_straight hz, e, rotT_rot]
    have x2 : (dataOf (leftFoot p fl) (rightFoot p fr) true prev (goOn u cmd b) dur).newRelative =
        ⟨(b - a) * cmd.forward, p.nominalWidth + (b - a) * cmd.lateral⟩ := by
      simp only [dataOf, if_true, h1, h2, leftFoot]
      rw [goOn_straight hz, e, rotT_rot]
    refine ⟨?_, ?_, ?_, ?_, ?_⟩
    · simp only [dataOf, if_true, h2, rightFoot, hr]
      rw [goOn_straight hz]; simp
    · rw [x2]
    · rw [x1]; exact .inl rfl
    · rw [x1]
    · rw [x1, x2]

/-- If the minimum length or the minimum angle is zero, no step is tiny. -/
theorem never_tiny {F : Foot ℝ} {fp : FootPrint ℝ} (hF : F = leftFoot p fp ∨ F = rightFoot p fp) (h : p.minLength ≤ 0 ∨ p.minAngle ≤ 0)
    {l : Step ℝ} {u : UState ℝ} : tinyFor F (some l) u = false := by
  have h1 : F.minimumStep = p.minLength := by rcases hF with rfl | rfl <;> rfl
  have h2 : F.minimumAngle = p.minAngle := by rcases hF with rfl | rfl <;> rfl
  rw [tinyFor, h1, h2, Bool.and_eq_false_iff, decide_eq_false_iff_not, decide_eq_false_iff_not]
  refine h.imp (fun h => not_lt.mpr (h.trans ?_)) fun h => not_lt.mpr (h.trans (abs_nonneg _))
  unfold Vec2.norm
  rw [sqrt_real]
  exact Real.sqrt_nonneg _

theorem steadily_straight (hd : Driven p cmd) (hz : cmd.angular = 0) (hv : 0 < speedOf cmd ∨ p.minLength ≤ 0 ∨ p.minAngle ≤ 0)
    (hf : StraightFits p cmd (max T (p.minLength / speedOf cmd) + p.dT + 3 * p.integratorStep)) :
    Steadily p cmd T (p.minLength / speedOf cmd) := by
  have hmin : ∀ (F : Foot ℝ) (fp : FootPrint ℝ), F = leftFoot p fp ∨ F = rightFoot p fp → F.minimumStep = p.minLength := by
    rintro F fp (rfl | rfl) <;> rfl
  refine ⟨hd.controller, hd.command, hd.limits, hd.step, hd.period, hd.slow, ?_, ?_, ?_⟩ <;>
    simp only [track_plain hd.step (show Plain cmd from .inl hz)]
  · intro F fp hF l u a b hab hl ht
    rcases hv with hv | hv
    · rw [tiny_straight hz hab hl, Bool.and_eq_true, decide_eq_true_eq, hmin F fp hF] at ht
      rw [lt_div_iff₀ hv, mul_comm]
      exact ht.1
    · rw [never_tiny hF hv] at ht; cases ht
  · intro F fp hF l u a b b' hab hbb hl ht
    rcases hv with hv | hv
    swap
    · exact never_tiny hF hv
    rw [tiny_straight hz hab hl, Bool.and_eq_false_iff, decide_eq_false_iff_not, decide_eq_false_iff_not] at ht
    rw [tiny_straight hz (hab.trans hbb) hl, Bool.and_eq_false_iff, decide_eq_false_iff_not, decide_eq_false_iff_not]
    exact ht.imp_left fun h h' => h (lt_of_le_of_lt (mul_le_mul_of_nonneg_left (by linarith) hv.le) h')
  · intro fl fr lf prev u a b dur hprev hab hle
    obtain ⟨D, hD, d1, d2, d3, d4, d5⟩ := data_straight hz hd.leftYaw hd.rightYaw fl fr lf prev u a b dur hprev
    rw [hD]
    set S := max T (p.minLength / speedOf cmd) + p.dT + 3 * p.integratorStep with hS
    have hs0 : 0 ≤ b - a := by linarith
    have hw := hd.wide
    have hS0 : 0 ≤ S := by linarith
    have hlat : |(b - a) * cmd.lateral| ≤ S * |cmd.lateral| := by
      rw [abs_mul, abs_of_nonneg hs0]
      exact mul_le_mul_of_nonneg_right hle (abs_nonneg _)
    have hlat' := abs_le.mp hlat
    have hfw : ((b - a) * cmd.forward) ^ 2 ≤ (S * cmd.forward) ^ 2 := by
      rw [mul_pow, mul_pow]
      exact mul_le_mul_of_nonneg_right (pow_le_pow_left₀ hs0 hle 2) (sq_nonneg _)
    have hy : D.rPl.y ^ 2 ≤ (p.nominalWidth + S * |cmd.lateral|) ^ 2 := by
      apply sq_le_sq'
      · rcases d3 with h | h <;> rw [h] <;> linarith [hlat'.1, hlat'.2]
      · rcases d3 with h | h <;> rw [h] <;> linarith [hlat'.1, hlat'.2]
    refine satisfied hd.free d1 (fun m hm => ⟨?_, (hf.length m hm).1⟩) (fun m hm => ?_) (fun m hm => ?_) (fun m hm => ⟨(hf.backward m hm).1, fun hx => ?_⟩)
    · linarith [(hf.length m hm).2]
    · have := hf.width m hm
      rcases d3 with h | h <;> rw [h] <;> linarith [hlat'.1, hlat'.2]
    · simpa using hf.angle m hm
    · rw [d2] at hx ⊢
      rw [d5]
      have : cmd.forward < 0 := by
        by_contra h
        exact absurd hx (not_lt.mpr (mul_nonneg hs0 (not_lt.mp h)))
      linarith [(hf.backward m hm).2 this]

/-- C122: a robot that is told to walk straight on (forward, backward, sideways or in between), with a velocity at which a step of the
minimum duration is possible (of the nominal duration, if this is the first plan), keeps walking up to the end of the horizon. -/
theorem C122_walks (hp : Timed p) (hL : NonNeg left) (hR : NonNeg right) (hd : Driven p cmd) (hz : cmd.angular = 0) (hv : 0 < speedOf cmd)
    (hf : StraightFits p cmd (max (if left.steps = [] ∧ right.steps = [] then p.nominalTime else p.minTime) (p.minLength / speedOf cmd) +
      p.dT + 3 * p.integratorStep))
    (hpar : cmd.lateral = 0 ∨ FeetParallel p left right) (hs : FixedStep durations)
    (hi : ∀ q u a b, q.controller = .direct → integ q u a b = euler durations garbage q u a b) {p' : Planner ℝ}
    (h : p.computeNewSteps integ fuel left right t0 t1 = .done true p' left' right') :
    ∃ d u start, PlanOf p integ left right t0 t1 left' right' d ∧
      InitialState p (leftFoot p left) (rightFoot p right) t0 left.steps.getLast? right.steps.getLast? u ∧
      start = executedFrom p t0 (decide (¬ (left.steps = [] ∧ right.steps = []))) d.q.firstStep ∧
      (NotAhead p left right (goOn u cmd) → KeepsWalking p (p.minLength / speedOf cmd) start t0 t1 d) := by
  obtain ⟨d, u, start, k1, k2, k3, k4⟩ := steadily_walks hp hL hR (steadily_straight hd hz (.inl hv) hf) hpar hs hi h
  refine ⟨d, u, start, k1, k2, k3, fun hn => k4 ?_⟩
  rwa [show track u cmd p.integratorStep = goOn u cmd from funext fun s => track_plain hd.step (.inl hz) s]

/-- A step ahead that is too long violates the constraints. -/
private theorem too_long {q : Planner ℝ} {m : ℝ} (hq : q.problem.maxLength = some m) {w : ℝ} {L R : Foot ℝ}
    (hL : L.distance = ⟨0, w / 2⟩) (hR : R.distance = ⟨0, -w / 2⟩) (yR : R.yawOffset = 0)
    {left : Bool} {prev : Step ℝ} {u : UState ℝ} {b dur : ℝ} (hprev : stateFor (if left then R else L) prev = u)
    (hlen : m ^ 2 ≤ (v * b) ^ 2 + w ^ 2) :
    q.problem.areConstraintsSatisfied (dataOf L R left prev (goOn u ⟨v, 0, 0⟩ b) dur) = false := by
  obtain ⟨h1, h2⟩ := step_state hprev
  have key : (dataOf L R left prev (goOn u ⟨v, 0, 0⟩ b) dur).rPl.x ^ 2 + (dataOf L R left prev (goOn u ⟨v, 0, 0⟩ b) dur).rPl.y ^ 2 =
      (v * b) ^ 2 + w ^ 2 := by
    cases left
    · simp only [Bool.false_eq_true, if_false, hL] at h1 h2
      simp only [dataOf, Bool.false_eq_true, if_false, h1, hR]
      rw [goOn_straight rfl]
      have : u.position + rot u.angle ⟨0, w / 2⟩ - (u.position + rot u.angle ⟨b * v, b * 0⟩ + rot u.angle ⟨0, -w / 2⟩) =
          rot u.angle ⟨-(v * b), w⟩ := by
        ext <;> simp [rot] <;> ring
      rw [this, rotT_rot]
      ring
    · simp only [if_true, yR, add_zero, hR] at h1 h2
      simp only [dataOf, if_true, h1, h2, hL]
      rw [goOn_straight rfl]
      have : u.position + rot u.angle ⟨b * v, b * 0⟩ + rot u.angle ⟨0, w / 2⟩ - (u.position + rot u.angle ⟨0, -w / 2⟩) =
          rot u.angle ⟨v * b, w⟩ := by
        ext <;> simp [rot] <;> ring
      rw [this, rotT_rot]
  have hl : q.problem.lengthOk (dataOf L R left prev (goOn u ⟨v, 0, 0⟩ b) dur) = false := by
    simp only [Problem.lengthOk, hq, decide_eq_false_iff_not, not_lt, sqrt_real]
    rw [key]
    exact Real.le_sqrt_of_sq_le hlen
  simp only [Problem.areConstraintsSatisfied, hl, Bool.false_and]

/-- C122: but if this is the first plan and no step of the nominal duration is possible at this velocity, no step is taken at all: the
robot is kept from stepping for the nominal duration, and (as opposed to later plans) the unicycle is not kept from moving meanwhile. -/
theorem C122_first_plan (hp : Timed p) (hc : p.controller = .direct) (hcom : p.ctrl.direct.desired = ⟨v, 0, 0⟩) (hv : 0 ≤ v)
    (hl : WithinLimits p p.ctrl.direct.desired) (hh : 0 < p.integratorStep) (hs : FixedStep durations)
    (hi : ∀ q u a b, q.controller = .direct → integ q u a b = euler durations garbage q u a b)
    (hyr : p.rightYaw = 0) (hm : 0 < p.minLength) (ha : 0 < p.minAngle) {m : ℝ} (hmax : p.problem.maxLength = some m)
    (hn : 3 / 2 * p.integratorStep ≤ p.nominalTime)
    (hlong : m ^ 2 ≤ (v * (p.nominalTime - 3 / 2 * p.integratorStep)) ^ 2 + p.nominalWidth ^ 2)
    (hact : p.ctrl.direct.deactivationEnd ≤ t0) (ht : t0 + p.nominalTime ≤ t1) {p' : Planner ℝ} {nl nr : String}
    (h : p.computeNewSteps integ fuel ⟨[], nl⟩ ⟨[], nr⟩ t0 t1 = .done true p' left' right') :
    ∃ d, PlanOf p integ ⟨[], nl⟩ ⟨[], nr⟩ t0 t1 left' right' d ∧ d.log = [] := by
  obtain ⟨d, hd⟩ := exists_plan hp (by intro s hs; cases hs) (by intro s hs; cases hs) h
  obtain ⟨u, hu, σ, hmono, hmot⟩ := constant_progress hc (by rw [hcom]; exact Or.inl rfl) hl hs hh hi hd
  refine ⟨d, hd, ?_⟩
  rw [hcom] at hmot
  have hE : executedFrom p t0 (decide (¬ ((⟨[], nl⟩ : FootPrint ℝ).steps = [] ∧ (⟨[], nr⟩ : FootPrint ℝ).steps = []))) d.q.firstStep = t0 := by
    simp [executedFrom, hact]
  rw [hE] at hmot
  have hq := hd.begins.eq
  have hbase := start_base hc (Or.inl (by rw [hcom])) hd hu
  have hfs : d.q.firstStep = true := by
    have := hd.begins.first
    generalize d.q.firstStep = b at this
    generalize d.q.swingLeft = b' at this
    cases this; rfl
  have eL : d.left = leftFoot p d.l0 := by show leftFoot d.q d.l0 = _; rw [hq]; rfl
  have eR : d.right = rightFoot p d.r0 := by show rightFoot d.q d.r0 = _; rw [hq]; rfl
  have hprob : d.q.problem.maxLength = some m := by rw [hq]; exact hmax
  -- whatever is reached after the nominal duration is too far away
  have hfar : ∀ τ dur, t0 + p.nominalTime ≤ τ → τ ≤ t1 →
      d.q.problem.areConstraintsSatisfied (dataOf d.left d.right d.q.swingLeft d.prev (d.sol τ) dur) = false := by
    intro τ dur h1 h2
    have h0 : t0 ≤ τ := by linarith [hp.nominal_nonneg]
    obtain ⟨-, m2, m3⟩ := hmot τ h0 h2
    rw [m2]
    refine too_long hprob (w := p.nominalWidth) (by rw [eL]; rfl) (by rw [eR]; rfl) (by rw [eR]; exact hyr) hbase ?_
    refine hlong.trans (add_le_add_left (pow_le_pow_left₀ (mul_nonneg hv (by linarith)) (mul_le_mul_of_nonneg_left ?_ hv) 2) _)
    have := (abs_le.mp m3).1
    linarith [le_max_right 0 (τ - t0)]
  -- and both feet are beside the unicycle
  obtain ⟨l, hl1, hl2⟩ : ∃ l, d.start.last = some l ∧ stateFor (if d.q.swingLeft then d.left else d.right) l = u := by
    show ∃ l, (if d.q.swingLeft then d.l0 else d.r0).steps.getLast? = some l ∧ _
    obtain ⟨f1, f2, -, -⟩ := foot_eq hd
    have hlast := hd.begins.last
    rcases hd.begins.steps with ⟨hne, -, -⟩ | ⟨e1, e2, w, hw, e3, e4⟩
    · exact absurd ⟨rfl, rfl⟩ hne
    · rw [e3, e4] at hlast ⊢
      cases hsw : d.q.swingLeft <;>
        simp only [hsw, Bool.false_eq_true, if_false, if_true, List.getLast?_singleton, Option.some.injEq] at hlast hbase ⊢
      · rw [← hlast, f1, state_step] at hbase
        exact ⟨_, rfl, by rw [f2, state_step, hbase]⟩
      · rw [← hlast, f2, state_step] at hbase
        exact ⟨_, rfl, by rw [f1, state_step, hbase]⟩
  have hclose : tinyFor (if d.q.swingLeft then d.left else d.right) d.start.last (stateFor (if d.q.swingLeft then d.right else d.left) d.prev) = true := by
    rw [hbase, hl1]
    refine tiny_here hl2 ?_ ?_ <;> split_ifs <;> simp only [eL, eR] <;> assumption
  have hrun := hd.run
  have hter := hd.terminal
  show d.decided ++ d.terminal = []
  generalize hdec : d.decided = dec at hrun
  generalize hst : d.start = c at hrun
  generalize hfin : d.final = c' at hrun
  cases hrun with
  | stop _ _ =>
    rw [List.nil_append]
    split_ifs at hter
    · rw [hfin, ← hst] at hter
      generalize d.terminal = T at hter
      cases hter with
      | both hcan => exact absurd (hcan.1.symm.trans (hfar t1 _ ht le_rfl)) (by simp)
      | close _ h' => exact absurd (hclose.symm.trans h') (by simp)
      | skip _ _ => rfl
    · exact hter
  | land _ e log _ he _ =>
    exfalso
    rw [← hst] at he
    have hgate : ∀ k, (searchFrom d.q d.sol d.left d.right d.start).Gate k →
        t0 + p.nominalTime ≤ (searchFrom d.q d.sol d.left d.right d.start).time k := by
      intro k hk
      have h2 : d.q.initTime + (if d.q.firstStep then d.q.nominalTime else 0) < (searchFrom d.q d.sol d.left d.right d.start).time k := hk.2
      rw [hfs, if_pos rfl, hd.initTime, hd.nominalTime] at h2
      exact h2.le
    cases he with
    | optimised n k hopt =>
      have hk := hopt.2.2.2.2.1
      have hle : (searchFrom d.q d.sol d.left d.right d.start).time k ≤ t1 := by
        have := (hopt.1 k hopt.2.2.2.1).1
        rw [show (searchFrom d.q d.sol d.left d.right d.start).endTime = d.q.endTime from rfl, hd.endTime] at this
        exact this
      exact absurd (hk.2.2.2.2.symm.trans (hfar _ _ (hgate k hk.1) hle)) (by simp)
    | parallel n h' => exact absurd (hclose.symm.trans h'.2.2.2.2) (by simp)

/-! ## Turning on the spot -/

private theorem goOn_turn (h1 : cmd.forward = 0) (h2 : cmd.lateral = 0) (u : UState ℝ) (s : ℝ) :
    goOn u cmd s = ⟨u.position, u.angle + s * cmd.angular⟩ := by
  unfold goOn
  ext <;> simp [rot, h1, h2]

private theorem tiny_turn {F : Foot ℝ} {l : Step ℝ} {u : UState ℝ} {a b w : ℝ} (h1 : cmd.forward = 0) (h2 : cmd.lateral = 0) (hab : a ≤ b)
    (hF : F.distance.x = 0) (hF' : F.distance.y ^ 2 = (w / 2) ^ 2) (h : stateFor F l = goOn u cmd a) :
    tinyFor F (some l) (goOn u cmd b) =
      (decide (Real.sqrt (w ^ 2 / 2 * (1 - Real.cos (|cmd.angular| * (b - a)))) < F.minimumStep) &&
        decide (|cmd.angular| * (b - a) < F.minimumAngle)) := by
  obtain ⟨k1, k2⟩ := step_state h
  have e2 : |l.angle - F.yawOffset - (goOn u cmd b).angle| = |cmd.angular| * (b - a) := by
    rw [k2, goOn_turn h1 h2, goOn_turn h1 h2]
    show |u.angle + a * cmd.angular + F.yawOffset - F.yawOffset - (u.angle + b * cmd.angular)| = _
    rw [show u.angle + a * cmd.angular + F.yawOffset - F.yawOffset - (u.angle + b * cmd.angular) = -(cmd.angular * (b - a)) by ring, abs_neg,
      abs_mul, abs_of_nonneg (show 0 ≤ b - a by linarith)]
  have e3 : ((goOn u cmd b).position + rot (goOn u cmd b).angle F.distance - l.position).norm =
      Real.sqrt (w ^ 2 / 2 * (1 - Real.cos (|cmd.angular| * (b - a)))) := by
    rw [k1, goOn_turn h1 h2, goOn_turn h1 h2, Vec2.norm, sqrt_real]
    congr 1
    have hc : Real.cos (|cmd.angular| * (b - a)) = Real.cos ((u.angle + b * cmd.angular) - (u.angle + a * cmd.angular)) := by
      rw [← Real.cos_abs ((u.angle + b * cmd.angular) - _)]
      congr 1
      rw [show u.angle + b * cmd.angular - (u.angle + a * cmd.angular) = cmd.angular * (b - a) by ring, abs_mul,
        abs_of_nonneg (show 0 ≤ b - a by linarith)]
    rw [hc, Real.cos_sub]
    simp only [rot, Vec2.normSq, cos_real, sin_real, hF, Vec2.sub_x, Vec2.sub_y, Vec2.add_x, Vec2.add_y]
    have s1 := Real.sin_sq_add_cos_sq (u.angle + b * cmd.angular)
    have s2 := Real.sin_sq_add_cos_sq (u.angle + a * cmd.angular)
    linear_combination F.distance.y ^ 2 * s1 + F.distance.y ^ 2 * s2 +
      (2 - 2 * (Real.cos (u.angle + b * cmd.angular) * Real.cos (u.angle + a * cmd.angular) +
        Real.sin (u.angle + b * cmd.angular) * Real.sin (u.angle + a * cmd.angular))) * hF'
  simp only [tinyFor, e2, e3]

private theorem sq_rotT (θ : ℝ) (x : Vec2 ℝ) : (rotT θ x).x ^ 2 + (rotT θ x).y ^ 2 = x.x ^ 2 + x.y ^ 2 := by
  simp only [rotT, cos_real, sin_real]
  have := Real.sin_sq_add_cos_sq θ
  linear_combination (x.x ^ 2 + x.y ^ 2) * this

/-- The geometry of a step while the unicycle turns on the spot. -/
private theorem data_turn (h1 : cmd.forward = 0) (h2 : cmd.lateral = 0) (hl : p.leftYaw = 0) (hr : p.rightYaw = 0) (fl fr : FootPrint ℝ)
    (left : Bool) (prev : Step ℝ) (u : UState ℝ) (a b dur : ℝ)
    (hprev : stateFor (if left then rightFoot p fr else leftFoot p fl) prev = goOn u cmd a) :
    ∃ D, dataOf (leftFoot p fl) (rightFoot p fr) left prev (goOn u cmd b) dur = D ∧ D.deltaAngle = |(b - a) * cmd.angular| ∧
      D.rPl.y = p.nominalWidth / 2 * (1 + Real.cos ((b - a) * cmd.angular)) ∧
      D.rPl.x ^ 2 + D.rPl.y ^ 2 = p.nominalWidth ^ 2 / 2 * (1 + Real.cos ((b - a) * cmd.angular)) ∧
      D.newRelative.x ^ 2 + D.newRelative.y ^ 2 = p.nominalWidth ^ 2 / 2 * (1 + Real.cos ((b - a) * cmd.angular)) := by
  obtain ⟨k1, k2⟩ := step_state hprev
  refine ⟨_, rfl, ?_⟩
  have sB := Real.sin_sq_add_cos_sq (u.angle + b * cmd.angular)
  have sA := Real.sin_sq_add_cos_sq (u.angle + a * cmd.angular)
  have hc : Real.cos ((b - a) * cmd.angular) = Real.cos (u.angle + b * cmd.angular) * Real.cos (u.angle + a * cmd.angular) +
      Real.sin (u.angle + b * cmd.angular) * Real.sin (u.angle + a * cmd.angular) := by
    rw [← Real.cos_sub]; congr 1; ring
  cases left
  · simp only [Bool.false_eq_true, if_false, leftFoot, hl, add_zero] at k1 k2
    rw [goOn_turn h1 h2] at k1 k2
    refine ⟨?_, ?_, ?_, ?_⟩
    · simp only [dataOf, Bool.false_eq_true, if_false, k2, leftFoot, hl]
      rw [goOn_turn h1 h2, ← abs_neg]
      congr 1; ring
    · simp only [dataOf, Bool.false_eq_true, if_false, k1, rightFoot]
      rw [goOn_turn h1 h2, hc]
      simp only [rot, rotT, cos_real, sin_real, Vec2.sub_x, Vec2.sub_y, Vec2.add_x, Vec2.add_y]
      linear_combination p.nominalWidth / 2 * sB
    · simp only [dataOf, Bool.false_eq_true, if_false, k1, rightFoot]
      rw [goOn_turn h1 h2, hc, sq_rotT]
      simp only [rot, cos_real, sin_real, Vec2.sub_x, Vec2.sub_y, Vec2.add_x, Vec2.add_y]
      linear_combination p.nominalWidth ^ 2 / 4 * sA + p.nominalWidth ^ 2 / 4 * sB
    · simp only [dataOf, Bool.false_eq_true, if_false, k1, k2, rightFoot]
      rw [goOn_turn h1 h2, hc, sq_rotT]
      simp only [rot, cos_real, sin_real, Vec2.sub_x, Vec2.sub_y, Vec2.add_x, Vec2.add_y]
      linear_combination p.nominalWidth ^ 2 / 4 * sA + p.nominalWidth ^ 2 / 4 * sB
  · simp only [if_true, rightFoot, hr, add_zero] at k1 k2
    rw [goOn_turn h1 h2] at k1 k2
    refine ⟨?_, ?_, ?_, ?_⟩
    · simp only [dataOf, if_true, k2, rightFoot, hr]
      rw [goOn_turn h1 h2, ← abs_neg]
      congr 1; ring
    · simp only [dataOf, if_true, k1, k2, leftFoot]
      rw [goOn_turn h1 h2, hc]
      simp only [rot, rotT, cos_real, sin_real, Vec2.sub_x, Vec2.sub_y, Vec2.add_x, Vec2.add_y]
      linear_combination p.nominalWidth / 2 * sA
    · simp only [dataOf, if_true, k1, k2, leftFoot]
      rw [goOn_turn h1 h2, hc, sq_rotT]
      simp only [rot, cos_real, sin_real, Vec2.sub_x, Vec2.sub_y, Vec2.add_x, Vec2.add_y]
      linear_combination p.nominalWidth ^ 2 / 4 * sA + p.nominalWidth ^ 2 / 4 * sB
    · simp only [dataOf, if_true, k1, k2, leftFoot]
      rw [goOn_turn h1 h2, hc, sq_rotT]
      simp only [rot, cos_real, sin_real, Vec2.sub_x, Vec2.sub_y, Vec2.add_x, Vec2.add_y]
      linear_combination p.nominalWidth ^ 2 / 4 * sA + p.nominalWidth ^ 2 / 4 * sB

private theorem steadily_turn (hd : Driven p cmd) (h1 : cmd.forward = 0) (h2 : cmd.lateral = 0) (hω : cmd.angular ≠ 0)
    (hf : TurnFits p (|cmd.angular| * (max T (p.minAngle / |cmd.angular|) + p.dT + 3 * p.integratorStep))) :
    Steadily p cmd T (p.minAngle / |cmd.angular|) := by
  have hpos : 0 < |cmd.angular| := abs_pos.mpr hω
  have hfoot : ∀ (F : Foot ℝ) (fp : FootPrint ℝ), F = leftFoot p fp ∨ F = rightFoot p fp → F.minimumAngle = p.minAngle ∧ F.distance.x = 0 ∧
      F.distance.y ^ 2 = (p.nominalWidth / 2) ^ 2 := by
    rintro F fp (rfl | rfl)
    · exact ⟨rfl, rfl, rfl⟩
    · refine ⟨rfl, rfl, ?_⟩
      show (-p.nominalWidth / 2) ^ 2 = _
      ring
  have hdt := hd.period
  have hh := hd.step
  set S := max T (p.minAngle / |cmd.angular|) + p.dT + 3 * p.integratorStep with hS
  have hmin : p.minAngle ≤ Real.pi := by
    refine le_trans ?_ hf.half
    rw [← div_le_iff₀' hpos]
    linarith [le_max_right T (p.minAngle / |cmd.angular|)]
  refine ⟨hd.controller, hd.command, hd.limits, hd.step, hd.period, hd.slow, ?_, ?_, ?_⟩ <;>
    simp only [track_plain hd.step (show Plain cmd from .inr ⟨h1, h2⟩)]
  · intro F fp hF l u a b hab hl ht
    obtain ⟨f1, f2, f3⟩ := hfoot F fp hF
    rw [tiny_turn h1 h2 hab f2 f3 hl, Bool.and_eq_true, decide_eq_true_eq, decide_eq_true_eq, f1] at ht
    rw [lt_div_iff₀ hpos, mul_comm]
    exact ht.2
  · intro F fp hF l u a b b' hab hbb hl ht
    obtain ⟨f1, f2, f3⟩ := hfoot F fp hF
    rw [tiny_turn h1 h2 hab f2 f3 hl, Bool.and_eq_false_iff, decide_eq_false_iff_not, decide_eq_false_iff_not, f1] at ht
    rw [tiny_turn h1 h2 (hab.trans hbb) f2 f3 hl, Bool.and_eq_false_iff, decide_eq_false_iff_not, decide_eq_false_iff_not, f1]
    have hle : |cmd.angular| * (b - a) ≤ |cmd.angular| * (b' - a) := mul_le_mul_of_nonneg_left (by linarith) hpos.le
    have h0 : 0 ≤ |cmd.angular| * (b - a) := mul_nonneg hpos.le (by linarith)
    by_cases hbig : |cmd.angular| * (b' - a) < p.minAngle
    · refine .inl fun h' => ?_
      rcases ht with h | h
      · refine h (lt_of_le_of_lt (Real.sqrt_le_sqrt (mul_le_mul_of_nonneg_left ?_ (by positivity))) h')
        linarith [Real.cos_le_cos_of_nonneg_of_le_pi h0 (hbig.le.trans hmin) hle]
      · exact h (hle.trans_lt hbig)
    · exact .inr hbig
  · intro fl fr lf prev u a b dur hprev hab hle
    obtain ⟨D, hD, d1, d2, d3, d4⟩ := data_turn h1 h2 hd.leftYaw hd.rightYaw fl fr lf prev u a b dur hprev
    rw [hD]
    have hw := hd.wide
    have habs : |(b - a) * cmd.angular| = |cmd.angular| * (b - a) := by
      rw [abs_mul, abs_of_nonneg (show 0 ≤ b - a by linarith), mul_comm]
    have hφ : |(b - a) * cmd.angular| ≤ |cmd.angular| * S := by rw [habs]; exact mul_le_mul_of_nonneg_left hle hpos.le
    have hcos : Real.cos (|cmd.angular| * S) ≤ Real.cos ((b - a) * cmd.angular) := by
      rw [← Real.cos_abs ((b - a) * cmd.angular)]
      exact Real.cos_le_cos_of_nonneg_of_le_pi (abs_nonneg _) hf.half hφ
    have hsq : p.nominalWidth ^ 2 / 2 * (1 + Real.cos ((b - a) * cmd.angular)) ≤ p.nominalWidth ^ 2 := by
      have := mul_le_mul_of_nonneg_left (Real.cos_le_one ((b - a) * cmd.angular)) (show 0 ≤ p.nominalWidth ^ 2 / 2 by positivity)
      linarith
    refine satisfied hd.free d1 (fun m hm => ⟨?_, ?_⟩) (fun m hm => ?_) (fun m hm => ?_) (fun m hm => ⟨?_, fun _ => ?_⟩)
    · rw [d3]
      exact hsq.trans_lt (pow_lt_pow_left₀ (hf.length m hm) hw (by norm_num))
    · linarith [hf.length m hm]
    · rw [d2]
      refine lt_of_lt_of_le (hf.width m hm) (mul_le_mul_of_nonneg_left (by linarith) (by linarith))
    · exact hφ.trans_lt (hf.angle m hm)
    · linarith [hf.backward m hm]
    · rw [d4]
      exact hsq.trans_lt (pow_lt_pow_left₀ (hf.backward m hm) hw (by norm_num))

/-- C123: a robot that is told to turn on the spot, with a velocity at which a step of the minimum duration is possible (of the nominal
duration, if this is the first plan), keeps stepping up to the end of the horizon. -/
theorem C123_turns (hp : Timed p) (hL : NonNeg left) (hR : NonNeg right) (hd : Driven p cmd) (h1 : cmd.forward = 0) (h2 : cmd.lateral = 0)
    (hω : cmd.angular ≠ 0)
    (hf : TurnFits p (|cmd.angular| * (max (if left.steps = [] ∧ right.steps = [] then p.nominalTime else p.minTime)
      (p.minAngle / |cmd.angular|) + p.dT + 3 * p.integratorStep)))
    (hs : FixedStep durations)
    (hi : ∀ q u a b, q.controller = .direct → integ q u a b = euler durations garbage q u a b) {p' : Planner ℝ}
    (h : p.computeNewSteps integ fuel left right t0 t1 = .done true p' left' right') :
    ∃ d u start, PlanOf p integ left right t0 t1 left' right' d ∧
      InitialState p (leftFoot p left) (rightFoot p right) t0 left.steps.getLast? right.steps.getLast? u ∧
      start = executedFrom p t0 (decide (¬ (left.steps = [] ∧ right.steps = []))) d.q.firstStep ∧
      (NotAhead p left right (goOn u cmd) → KeepsWalking p (p.minAngle / |cmd.angular|) start t0 t1 d) := by
  obtain ⟨d, u, start, k1, k2, k3, k4⟩ := steadily_walks hp hL hR (steadily_turn hd h1 h2 hω hf) (.inl h2) hs hi h
  refine ⟨d, u, start, k1, k2, k3, fun hn => k4 ?_⟩
  rwa [show track u cmd p.integratorStep = goOn u cmd from funext fun s => track_plain hd.step (.inr ⟨h1, h2⟩) s]

/-! ## Examples -/

theorem forwardDemo_speed {v : ℝ} (h : v ≤ 1 / 25) : v ≤ speedLimit realDemo := by
  have : (7 / 50 : ℝ) ≤ Real.sqrt ((1 / 5) ^ 2 - (7 / 50) ^ 2) := Real.le_sqrt_of_sq_le (by norm_num)
  simp only [speedLimit, realDemo, Planner.new, sqrt_real]
  linarith

theorem drivenDemo_driven {c : Control ℝ} (h : WithinLimits (drivenDemo c) c) : Driven (drivenDemo c) c := by
  refine ⟨rfl, rfl, h, ?_, ?_, ?_, rfl, rfl, ?_, fun x => rfl⟩ <;> simp only [drivenDemo, realDemo, Planner.new] <;> norm_num

/-- The default planner, feet side by side: the unicycle starts in the origin, neither foot is ahead, and if the robot keeps walking it
takes steps. -/
theorem drivenDemo_keeps {c : Control ℝ} {l' r' : FootPrint ℝ} {u : UState ℝ} {μ start : ℝ} {γ : ℝ → UState ℝ} (hγ : γ 0 = u) (hμ : μ ≤ 14)
    (hd : PlanOf (drivenDemo c) drivenInteg ⟨[⟨⟨0, 7 / 100⟩, 0, 0, "left"⟩], "left"⟩ ⟨[⟨⟨0, -7 / 100⟩, 0, 0, "right"⟩], "right"⟩ 0 20 l' r' d)
    (hu : InitialState (drivenDemo c) (leftFoot (drivenDemo c) ⟨[⟨⟨0, 7 / 100⟩, 0, 0, "left"⟩], "left"⟩)
      (rightFoot (drivenDemo c) ⟨[⟨⟨0, -7 / 100⟩, 0, 0, "right"⟩], "right"⟩) 0
      (FootPrint.steps ⟨[⟨⟨0, 7 / 100⟩, 0, 0, "left"⟩], "left"⟩).getLast? (FootPrint.steps ⟨[⟨⟨0, -7 / 100⟩, 0, 0, "right"⟩], "right"⟩).getLast? u)
    (hs : start = executedFrom (drivenDemo c) 0 (decide (¬ ((⟨[⟨⟨0, 7 / 100⟩, 0, 0, "left"⟩], "left"⟩ : FootPrint ℝ).steps = [] ∧
      (⟨[⟨⟨0, -7 / 100⟩, 0, 0, "right"⟩], "right"⟩ : FootPrint ℝ).steps = []))) d.q.firstStep) :
    NotAhead (drivenDemo c) ⟨[⟨⟨0, 7 / 100⟩, 0, 0, "left"⟩], "left"⟩ ⟨[⟨⟨0, -7 / 100⟩, 0, 0, "right"⟩], "right"⟩ γ ∧
      (KeepsWalking (drivenDemo c) μ start 0 20 d → d.decided ≠ []) := by
  have hu0 : u = ⟨0, 0⟩ := by
    have key : ∀ a b : Option (Step ℝ), a = some ⟨⟨0, 7 / 100⟩, 0, 0, "left"⟩ → b = some ⟨⟨0, -7 / 100⟩, 0, 0, "right"⟩ →
        InitialState (drivenDemo c) (leftFoot (drivenDemo c) ⟨[⟨⟨0, 7 / 100⟩, 0, 0, "left"⟩], "left"⟩)
          (rightFoot (drivenDemo c) ⟨[⟨⟨0, -7 / 100⟩, 0, 0, "right"⟩], "right"⟩) 0 a b u → u = ⟨0, 0⟩ := by
      intro a b ha hb hu
      cases hu with
      | empty => cases ha
      | noLeft => cases ha
      | noRight => cases hb
      | leftOlder l r he => cases ha; cases hb; exact absurd he (lt_irrefl _)
      | rightOlder l r he => cases ha; cases hb; exact absurd he (lt_irrefl _)
      | together l r he =>
        cases ha; cases hb
        ext <;> simp [drivenDemo, realDemo, Planner.new, stateFor, leftFoot, rightFoot, rot] <;> norm_num
    exact key _ _ rfl rfl hu
  subst hu0
  have hfs : d.q.firstStep = true := hd.starts_together (Or.inr ⟨_, _, rfl, rfl, rfl⟩)
  refine ⟨⟨?_, ?_⟩, fun hall hnil => ?_⟩
  · intro l hl
    simp only [List.getLast?_singleton, Option.some.injEq] at hl
    subst hl
    refine ⟨0, le_rfl, ?_⟩
    rw [hγ]
    ext <;> simp [drivenDemo, realDemo, Planner.new, stateFor, leftFoot, rot] <;> norm_num
  · intro l hl
    simp only [List.getLast?_singleton, Option.some.injEq] at hl
    subst hl
    refine ⟨0, le_rfl, ?_⟩
    rw [hγ]
    ext <;> simp [drivenDemo, realDemo, Planner.new, stateFor, rightFoot, rot] <;> norm_num
  · have a3 := hall.2.2
    have hrun := hd.run
    have hprev : d.final.prev.impactTime ≤ 0 := by
      have hb := hd.begins.prevTime
      rw [hnil] at hrun
      generalize hst : d.start = c at hrun
      generalize d.final = c' at hrun ⊢
      cases hrun with
      | stop _ _ => rw [← hst]; exact hb
    rw [hs, hfs] at a3
    simp only [waits, max_eq_left hprev] at a3
    simp only [executedFrom, drivenDemo, realDemo, Planner.new] at a3
    rw [max_eq_left (a := max _ _) (hprev.trans (le_max_left _ _))] at a3
    norm_num at a3
    have : max 0 (μ + 3 / 100 + 1) ≤ 15 + 3 / 100 := max_le (by norm_num) (by linarith)
    linarith

/-- Non-vacuity of C122: the default planner, feet side by side, horizon of twenty seconds, 4 cm/s: there are landings, all chosen by the
optimisation up to the very end. -/
example : ∃ d l' r', PlanOf (forwardDemo (1 / 25)) drivenInteg
      ⟨[⟨⟨0, 7 / 100⟩, 0, 0, "left"⟩], "left"⟩ ⟨[⟨⟨0, -7 / 100⟩, 0, 0, "right"⟩], "right"⟩ 0 20 l' r' d ∧
      d.decided ≠ [] ∧ ∀ e ∈ d.decided, e.kind = .optimised ∨ e.step.impactTime = 20 := by
  obtain ⟨fuel, p', l', r', h⟩ := drivenDemo_plans ⟨1 / 25, 0, 0⟩ "left" "right"
  have hpi := Real.pi_pos
  have hsp : speedOf ⟨1 / 25, 0, 0⟩ = 1 / 25 := by
    simp only [speedOf]
    rw [show ((1 / 25 : ℝ)) ^ 2 + 0 ^ 2 = (1 / 25) ^ 2 by ring, Real.sqrt_sq (by norm_num)]
  obtain ⟨d, u, start, hd, hu, hs, hall⟩ := C122_walks (cmd := ⟨1 / 25, 0, 0⟩) (drivenDemo_timed ⟨1 / 25, 0, 0⟩)
    (by intro s hs; simp only [List.mem_singleton] at hs; rw [hs]) (by intro s hs; simp only [List.mem_singleton] at hs; rw [hs])
    (drivenDemo_driven (forwardDemo_within (by norm_num) (forwardDemo_speed le_rfl) _ rfl)) rfl (by rw [hsp]; norm_num)
    (by
      rw [if_neg (by simp), hsp]
      have hS : max (drivenDemo ⟨1 / 25, 0, 0⟩).minTime ((drivenDemo ⟨1 / 25, 0, 0⟩).minLength / (1 / 25)) + (drivenDemo ⟨1 / 25, 0, 0⟩).dT +
          3 * (drivenDemo ⟨1 / 25, 0, 0⟩).integratorStep = 3 + 1 / 25 := by
        simp only [drivenDemo, realDemo, Planner.new]
        rw [max_eq_left (by norm_num)]; norm_num
      rw [hS]
      refine ⟨?_, ?_, ?_, ?_⟩ <;> intro m hm <;> simp only [drivenDemo, realDemo, Planner.new, Problem.new, Option.some.injEq, reduceCtorEq] at hm ⊢
      · rw [← hm]; norm_num
      · rw [← hm]; norm_num
      · rw [← hm]; simp only [deg2rad, pi_real]; positivity) (.inl rfl) uniformSteps_fixed drivenInteg_direct h
  obtain ⟨k1, k2⟩ := drivenDemo_keeps (goOn_zero u _) (μ := (drivenDemo ⟨1 / 25, 0, 0⟩).minLength / speedOf ⟨1 / 25, 0, 0⟩)
    (by rw [hsp]; norm_num [drivenDemo, realDemo, Planner.new]) hd hu hs
  exact ⟨d, l', r', hd, k2 (hall k1), fun e he => ((hall k1).1 e he).imp_right fun h => h.2⟩

/-- Non-vacuity of C123: the same planner, told to turn on the spot. -/
example : ∃ d l' r', PlanOf (drivenDemo ⟨0, 1 / 10, 0⟩) drivenInteg
      ⟨[⟨⟨0, 7 / 100⟩, 0, 0, "left"⟩], "left"⟩ ⟨[⟨⟨0, -7 / 100⟩, 0, 0, "right"⟩], "right"⟩ 0 20 l' r' d ∧
      d.decided ≠ [] ∧ ∀ e ∈ d.decided, e.kind = .optimised ∨ e.step.impactTime = 20 := by
  obtain ⟨fuel, p', l', r', h⟩ := drivenDemo_plans ⟨0, 1 / 10, 0⟩ "left" "right"
  have hpi := Real.two_le_pi
  have hpi' := Real.pi_le_four
  have hab : |(1 / 10 : ℝ)| = 1 / 10 := abs_of_pos (by norm_num)
  have hsl : 0 ≤ speedLimit realDemo := (by norm_num : (0 : ℝ) ≤ 1 / 25).trans (forwardDemo_speed le_rfl)
  have hwl : WithinLimits (drivenDemo ⟨0, 1 / 10, 0⟩) ⟨0, 1 / 10, 0⟩ := by
    have hs : speedLimit (drivenDemo ⟨0, 1 / 10, 0⟩) = speedLimit realDemo := rfl
    have hb : (drivenDemo (⟨0, 1 / 10, 0⟩ : Control ℝ)).ctrl.directBase.backFactor = 1 := rfl
    have hsd : (drivenDemo (⟨0, 1 / 10, 0⟩ : Control ℝ)).ctrl.directBase.sideFactor = 1 := rfl
    have hg : 0 ≤ (drivenDemo (⟨0, 1 / 10, 0⟩ : Control ℝ)).ctrl.directBase.turnGain := by
      simp [drivenDemo, realDemo, Planner.new, BaseCtrl.new]
    have hq : 0 ≤ speedLimit realDemo / (1 + (drivenDemo (⟨0, 1 / 10, 0⟩ : Control ℝ)).ctrl.directBase.turnGain * |(1 / 10 : ℝ)|) :=
      div_nonneg hsl (by positivity)
    constructor
    · rw [hs]; exact hsl
    · exact hg
    · rw [hb]; norm_num
    · rw [hsd]; norm_num
    · simp only [hab, turnLimit, drivenDemo, realDemo, Planner.new, deg2rad, pi_real]; linarith
    · rw [hs]; exact hq
    · rw [hs, hb, one_mul]; exact neg_nonpos.mpr hq
    · rw [hs, hsd, one_mul, abs_zero]; exact hsl
  obtain ⟨d, u, start, hd, hu, hs, hall⟩ := C123_turns (cmd := ⟨0, 1 / 10, 0⟩) (drivenDemo_timed ⟨0, 1 / 10, 0⟩)
    (by intro s hs; simp only [List.mem_singleton] at hs; rw [hs]) (by intro s hs; simp only [List.mem_singleton] at hs; rw [hs])
    (drivenDemo_driven hwl) rfl rfl (by norm_num)
    (by
      rw [if_neg (by simp), hab]
      have hS : 1 / 10 * (max (drivenDemo ⟨0, 1 / 10, 0⟩).minTime ((drivenDemo ⟨0, 1 / 10, 0⟩).minAngle / (1 / 10)) +
          (drivenDemo ⟨0, 1 / 10, 0⟩).dT + 3 * (drivenDemo ⟨0, 1 / 10, 0⟩).integratorStep) = 38 / 125 := by
        simp only [drivenDemo, realDemo, Planner.new, deg2rad, pi_real]
        rw [max_eq_left (by linarith)]; norm_num
      rw [hS]
      refine ⟨by linarith, ?_, ?_, ?_, ?_⟩ <;> intro m hm <;>
        simp only [drivenDemo, realDemo, Planner.new, Problem.new, Option.some.injEq, reduceCtorEq] at hm ⊢
      · rw [← hm]; norm_num
      · have := Real.one_sub_sq_div_two_le_cos (x := 38 / 125)
        rw [← hm]
        norm_num at this ⊢
        linarith
      · rw [← hm]; simp only [deg2rad, pi_real]; linarith) uniformSteps_fixed drivenInteg_direct h
  obtain ⟨k1, k2⟩ := drivenDemo_keeps (goOn_zero u _) (μ := (drivenDemo ⟨0, 1 / 10, 0⟩).minAngle / |(1 / 10 : ℝ)|)
    (by rw [hab]; simp only [drivenDemo, realDemo, Planner.new, deg2rad, pi_real]; linarith) hd hu hs
  exact ⟨d, l', r', hd, k2 (hall k1), fun e he => ((hall k1).1 e he).imp_right fun h => h.2⟩

/-- Non-vacuity of the exception: the same planner, asked for its first plan, at the highest velocity. -/
example : ∃ d l' r', PlanOf (forwardDemo (speedLimit realDemo)) drivenInteg ⟨[], "left"⟩ ⟨[], "right"⟩ 0 20 l' r' d ∧ d.log = [] := by
  have hpi := Real.pi_pos
  have hsp : (1 / 25 : ℝ) ≤ speedLimit realDemo := forwardDemo_speed le_rfl
  obtain ⟨fuel, p', l', r', h⟩ : ∃ fuel p' l' r', (forwardDemo (speedLimit realDemo)).computeNewSteps drivenInteg fuel ⟨[], "left"⟩ ⟨[], "right"⟩ 0 20 =
      .done true p' l' r' := by
    have h : ¬ Refused (forwardDemo (speedLimit realDemo)) drivenInteg ⟨[], "left"⟩ ⟨[], "right"⟩ 0 20 := by
      rintro (h | h | h | h | h | ⟨s, h, h'⟩ | h | ⟨h, -⟩ | ⟨q, u, h⟩)
      · apply h
        refine ⟨?_, ?_, ?_⟩ <;> simp only [forwardDemo, drivenDemo, realDemo, Planner.new, deg2rad, pi_real]
        · norm_num
        · norm_num
        · linarith
      · apply h
        refine ⟨?_, ?_, fun h => by cases h⟩
        · simp only [speedLimit, forwardDemo, drivenDemo, realDemo, Planner.new, sqrt_real]
          positivity
        · simp only [turnLimit, forwardDemo, drivenDemo, realDemo, Planner.new, deg2rad, pi_real]
          positivity
      · simp only [forwardDemo, drivenDemo, realDemo, Planner.new, deg2rad, pi_real] at h
        rcases h with h | h
        · norm_num at h
        · linarith
      · norm_num at h
      · norm_num at h
      · simp only [List.getLast?_nil] at h
        rcases h with h | h <;> cases h
      · simp only [forwardDemo, drivenDemo, realDemo, Planner.new] at h
        norm_num at h
      · cases h
        rename_i h1 _
        cases h1
      · cases h
    exact ⟨_, C58_valid_requests_succeed (by simp [forwardDemo, drivenDemo, realDemo, Planner.new])
      (by simp [forwardDemo, drivenDemo, realDemo, Planner.new]) h (by simp) (by intro w h; cases h) (Nat.lt_succ_self _)⟩
  obtain ⟨d, hd, hlog⟩ := C122_first_plan (v := speedLimit realDemo) (m := 1 / 5) (drivenDemo_timed ⟨speedLimit realDemo, 0, 0⟩) rfl rfl (by linarith)
    (forwardDemo_within (by linarith) le_rfl _ rfl) (by simp [drivenDemo, realDemo, Planner.new]) uniformSteps_fixed drivenInteg_direct
    rfl (by simp [drivenDemo, realDemo, Planner.new])
    (by simp only [drivenDemo, realDemo, Planner.new, deg2rad, pi_real]; positivity) rfl
    (by norm_num [drivenDemo, realDemo, Planner.new])
    (by
      have := pow_le_pow_left₀ (by norm_num) hsp 2
      simp only [drivenDemo, realDemo, Planner.new] at this ⊢
      norm_num at this ⊢
      nlinarith)
    (by simp [drivenDemo, realDemo, Planner.new, DirectCtrl.new]) (by norm_num [drivenDemo, realDemo, Planner.new]) h
  exact ⟨d, l', r', hd, hlog⟩

end Planner
end Uni
