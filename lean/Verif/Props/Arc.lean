import Verif.Props.Forward

/-! # C124: a robot that is told to walk along a curve walks along it -/

set_option autoImplicit false
set_option linter.unusedSectionVars false

namespace Uni
open Spec
namespace Planner

variable {p : Planner ℝ} {integ : Integrator ℝ} {fuel : Nat} {durations : ℝ → ℝ → List ℝ} {garbage : ℝ}
  {left right left' right' : FootPrint ℝ} {t0 t1 T : ℝ} {cmd : Control ℝ}

/-- How far the foot beside the unicycle moves, seen from the unicycle, while this turns. -/
private theorem arm {d : Vec2 ℝ} {w : ℝ} (hx : d.x = 0) (hy : d.y ^ 2 = w ^ 2) (θ θ' : ℝ) :
    ((rot θ' d).x - (rot θ d).x) ^ 2 + ((rot θ' d).y - (rot θ d).y) ^ 2 ≤ (w * |θ' - θ|) ^ 2 := by
  have h1 := Real.one_sub_sq_div_two_le_cos (x := θ' - θ)
  have h2 := Real.sin_sq_add_cos_sq θ
  have h3 := Real.sin_sq_add_cos_sq θ'
  rw [mul_pow, sq_abs, ← hy]
  rw [Real.cos_sub] at h1
  simp only [rot, hx, cos_real, sin_real]
  have h4 := mul_le_mul_of_nonneg_left h1 (sq_nonneg d.y)
  nlinarith

private theorem cauchy {a b c d r s : ℝ} (hr : 0 ≤ r) (hs : 0 ≤ s) (h1 : a ^ 2 + b ^ 2 ≤ r ^ 2) (h2 : c ^ 2 + d ^ 2 ≤ s ^ 2) :
    |a * c + b * d| ≤ r * s := by
  apply abs_le_of_sq_le_sq _ (mul_nonneg hr hs)
  have h3 := mul_le_mul h1 h2 (by positivity) (by positivity)
  nlinarith [sq_nonneg (a * d - b * c)]

/-- The square of how far a foot is from where it stood. -/
private noncomputable def away (u : UState ℝ) (cmd : Control ℝ) (h : ℝ) (e : Vec2 ℝ) (a b : ℝ) : ℝ :=
  ((track u cmd h b).position.x - (track u cmd h a).position.x + ((rot (track u cmd h b).angle e).x - (rot (track u cmd h a).angle e).x)) ^ 2 +
  ((track u cmd h b).position.y - (track u cmd h a).position.y + ((rot (track u cmd h b).angle e).y - (rot (track u cmd h a).angle e).y)) ^ 2

private theorem tiny_curve {F : Foot ℝ} {l : Step ℝ} {u : UState ℝ} {a b h : ℝ} (hh : 0 < h) (hab : a ≤ b)
    (hl : stateFor F l = track u cmd h a) :
    tinyFor F (some l) (track u cmd h b) =
      (decide (Real.sqrt (away u cmd h F.distance a b) < F.minimumStep) && decide (|cmd.angular| * (b - a) < F.minimumAngle)) := by
  obtain ⟨h1, h2⟩ := step_state hl
  have e1 : ((track u cmd h b).position + rot (track u cmd h b).angle F.distance - l.position).norm =
      Real.sqrt (away u cmd h F.distance a b) := by
    rw [Vec2.norm, sqrt_real, h1]
    congr 1
    simp only [Vec2.normSq, away, Vec2.sub_x, Vec2.sub_y, Vec2.add_x, Vec2.add_y]
    ring
  have e2 : |l.angle - F.yawOffset - (track u cmd h b).angle| = |cmd.angular| * (b - a) := by
    rw [h2, track_angle hh, track_angle hh, show u.angle + a * cmd.angular + F.yawOffset - F.yawOffset - (u.angle + b * cmd.angular) =
      -(cmd.angular * (b - a)) by ring, abs_neg, abs_mul, abs_of_nonneg (show 0 ≤ b - a by linarith)]
  simp only [tinyFor, e1, e2]

/-- Two displacements, each of the unicycle and of the foot with respect to it. -/
private theorem add_up {X Y A B X' Y' A' B' c v o w d d' : ℝ} (hd : 0 ≤ d) (hd' : 0 ≤ d') (dot : c * v ^ 2 * d * d' ≤ X * X' + Y * Y')
    (p1 : -(v * (w / 2 * (o * d')) * d) ≤ A' * X + B' * Y) (p2 : -(v * (w / 2 * (o * d)) * d') ≤ A * X' + B * Y')
    (p3 : -(w / 2 * (o * d) * (w / 2 * (o * d'))) ≤ A * A' + B * B') (hc : (o * w / 2) ^ 2 ≤ v * (c * v - o * w)) :
    (X + A) ^ 2 + (Y + B) ^ 2 ≤ ((X + A) + (X' + A')) ^ 2 + ((Y + B) + (Y' + B')) ^ 2 := by
  have hk := mul_nonneg (mul_nonneg (sub_nonneg.mpr hc) hd) hd'
  have : 0 ≤ (X + A) * (X' + A') + (Y + B) * (Y' + B') := by linarith
  linarith [sq_nonneg (X' + A'), sq_nonneg (Y' + B')]

private theorem at_least {X Y A B c v o w d : ℝ} (self : c * v ^ 2 * d * d ≤ X * X + Y * Y)
    (p : -(v * (w / 2 * (o * d)) * d) ≤ A * X + B * Y) : v * (c * v - o * w) * d ^ 2 ≤ (X + A) ^ 2 + (Y + B) ^ 2 := by
  linarith [sq_nonneg A, sq_nonneg B]

/-- A foot moves away. -/
private theorem away_grows {u : UState ℝ} {e : Vec2 ℝ} {h w α a b b' : ℝ} (hh : 0 < h) (hl : cmd.lateral = 0) (hw : 0 ≤ w) (hx : e.x = 0)
    (hy : e.y ^ 2 = (w / 2) ^ 2) (hα : α ≤ Real.pi / 2) (hab : a ≤ b) (hbb : b ≤ b') (hs : |cmd.angular| * (b' - a + h) ≤ α)
    (hcurve : (|cmd.angular| * w / 2) ^ 2 ≤ |cmd.forward| * (Real.cos α * |cmd.forward| - |cmd.angular| * w)) :
    away u cmd h e a b ≤ away u cmd h e a b' ∧
      |cmd.forward| * (Real.cos α * |cmd.forward| - |cmd.angular| * w) * (b - a) ^ 2 ≤ away u cmd h e a b := by
  have hδ : 0 ≤ b - a := by linarith
  have hδ' : 0 ≤ b' - b := by linarith
  have hω := abs_nonneg cmd.angular
  have hf := abs_nonneg cmd.forward
  have hg : 0 ≤ |cmd.angular| * w / 2 := by positivity
  have hsq : cmd.forward ^ 2 = |cmd.forward| ^ 2 := (sq_abs _).symm
  have turn : ∀ s s', s ≤ s' → |(track u cmd h s').angle - (track u cmd h s).angle| = |cmd.angular| * (s' - s) := by
    intro s s' hs
    rw [track_angle hh, track_angle hh, show u.angle + s' * cmd.angular - (u.angle + s * cmd.angular) = cmd.angular * (s' - s) by ring, abs_mul,
      abs_of_nonneg (sub_nonneg.mpr hs)]
  have r1 := arm hx hy (track u cmd h a).angle (track u cmd h b).angle
  have r2 := arm hx hy (track u cmd h b).angle (track u cmd h b').angle
  rw [turn a b hab] at r1
  rw [turn b b' hbb] at r2
  have q1 : 0 ≤ w / 2 * (|cmd.angular| * (b - a)) := by positivity
  have q2 : 0 ≤ w / 2 * (|cmd.angular| * (b' - b)) := by positivity
  have dot := track_dot (u := u) (v := cmd) (lo := a) (hi := b') hh hl hab hbb le_rfl hbb hab le_rfl hα hs
  have self := track_dot (u := u) (v := cmd) (lo := a) (hi := b') hh hl hab hab le_rfl hbb le_rfl hbb hα hs
  have p1 := (abs_le.mp (track_le (u := u) (v := cmd) (r := w / 2 * (|cmd.angular| * (b' - b))) hh hl hab q2 r2)).1
  have p2 := (abs_le.mp (track_le (u := u) (v := cmd) (r := w / 2 * (|cmd.angular| * (b - a))) hh hl hbb q1 r1)).1
  have p3 := (abs_le.mp (cauchy q1 q2 r1 r2)).1
  have p4 := (abs_le.mp (track_le (u := u) (v := cmd) (r := w / 2 * (|cmd.angular| * (b - a))) hh hl hab q1 r1)).1
  rw [hsq] at dot self
  constructor
  · refine (add_up hδ hδ' dot p1 p2 p3 hcurve).trans (le_of_eq ?_)
    unfold away
    ring
  · exact at_least self p4

/-- The geometry of a step while the unicycle goes along a curve. -/
private theorem data_curve (hl : cmd.lateral = 0) (hly : p.leftYaw = 0) (hry : p.rightYaw = 0) (hw : 0 ≤ p.nominalWidth)
    (hh : 0 < p.integratorStep) (fl fr : FootPrint ℝ) (left : Bool) (prev : Step ℝ) (u : UState ℝ) {a b α : ℝ} (dur : ℝ) (hab : a ≤ b)
    (hα : α ≤ Real.pi / 2) (hs : |cmd.angular| * (b - a + p.integratorStep) ≤ α)
    (hprev : stateFor (if left then rightFoot p fr else leftFoot p fl) prev = track u cmd p.integratorStep a) :
    ∃ D, dataOf (leftFoot p fl) (rightFoot p fr) left prev (track u cmd p.integratorStep b) dur = D ∧
      D.deltaAngle = |(b - a) * cmd.angular| ∧
      |D.rPl.x| ≤ (b - a) * (|cmd.forward| + |cmd.angular| * p.nominalWidth / 2) ∧
      |D.rPl.y - p.nominalWidth / 2 * (1 + Real.cos ((b - a) * cmd.angular))| ≤ (b - a) * |cmd.forward| * Real.sin α ∧
      |D.newRelative.x| ≤ (b - a) * (|cmd.forward| + |cmd.angular| * p.nominalWidth / 2) ∧
      |D.newRelative.y| ≤ p.nominalWidth / 2 * (1 + Real.cos ((b - a) * cmd.angular)) + (b - a) * |cmd.forward| * Real.sin α ∧
      Real.cos α * cmd.forward ^ 2 * (b - a) - |cmd.forward| * (|cmd.angular| * p.nominalWidth / 2 * (b - a)) ≤
        cmd.forward * D.newRelative.x := by
  obtain ⟨h1, h2⟩ := step_state hprev
  set h := p.integratorStep with hhdef
  set w := p.nominalWidth with hwdef
  have hδ : 0 ≤ b - a := by linarith
  set θ := (track u cmd h a).angle with hθ
  set θ' := (track u cmd h b).angle with hθ'
  have eθ : θ = u.angle + a * cmd.angular := track_angle hh a
  have eθ' : θ' = u.angle + b * cmd.angular := track_angle hh b
  have hφ : θ' - θ = (b - a) * cmd.angular := by rw [eθ, eθ']; ring
  -- the directions at both ends are close to all the headings
  have near : ∀ s, a ≤ s → s ≤ b → ∀ (n : ℤ) x, a ≤ x → x ≤ b → n * h ≤ x → x ≤ (n + 1) * h →
      |u.angle + n * h * cmd.angular - (u.angle + s * cmd.angular)| ≤ α := by
    intro s s1 s2 n x x1 x2 n1 n2
    refine le_trans ?_ hs
    rw [show u.angle + n * h * cmd.angular - (u.angle + s * cmd.angular) = cmd.angular * (n * h - s) by ring, abs_mul]
    exact mul_le_mul_of_nonneg_left (abs_le.mpr ⟨by linarith, by linarith⟩) (abs_nonneg _)
  obtain ⟨c1, c2⟩ := track_cone (u := u) (v := cmd) (β := θ) hh hl hab hα (by rw [eθ]; exact near a le_rfl hab)
  obtain ⟨-, c4⟩ := track_cone (u := u) (v := cmd) (β := θ') hh hl hab hα (by rw [eθ']; exact near b hab le_rfl)
  have unit : ∀ β : ℝ, Real.cos β ^ 2 + Real.sin β ^ 2 ≤ 1 ^ 2 := fun β => by rw [Real.cos_sq_add_sin_sq]; norm_num
  have l1 := track_le (u := u) (v := cmd) hh hl hab zero_le_one (unit θ)
  have l2 := track_le (u := u) (v := cmd) hh hl hab zero_le_one (unit θ')
  have hsin : |w / 2 * Real.sin (θ' - θ)| ≤ |cmd.angular| * w / 2 * (b - a) := by
    rw [abs_mul, abs_of_nonneg (show 0 ≤ w / 2 by linarith)]
    have : |Real.sin (θ' - θ)| ≤ |cmd.angular| * (b - a) := by
      refine Real.abs_sin_le_abs.trans ?_
      rw [hφ, abs_mul, abs_of_nonneg hδ, mul_comm]
    have := mul_le_mul_of_nonneg_left this (show 0 ≤ w / 2 by linarith)
    linarith
  have hcos : 0 ≤ w / 2 * (1 + Real.cos (θ' - θ)) := mul_nonneg (by linarith) (by linarith [Real.neg_one_le_cos (θ' - θ)])
  rw [← hφ]
  set X := (track u cmd h b).position.x - (track u cmd h a).position.x with hX
  set Y := (track u cmd h b).position.y - (track u cmd h a).position.y with hY
  have s1 := Real.sin_sq_add_cos_sq θ
  have s2 := Real.sin_sq_add_cos_sq θ'
  have hsin' := abs_le.mp hsin
  have c2' := abs_le.mp c2
  have c4' := abs_le.mp c4
  have l1' := abs_le.mp l1
  have l2' := abs_le.mp l2
  have hfs : |cmd.forward * (w / 2 * Real.sin (θ' - θ))| ≤ |cmd.forward| * (|cmd.angular| * w / 2 * (b - a)) := by
    rw [abs_mul]
    exact mul_le_mul_of_nonneg_left hsin (abs_nonneg _)
  have hfs' := abs_le.mp hfs
  refine ⟨_, rfl, ?_⟩
  cases left
  · simp only [Bool.false_eq_true, if_false, leftFoot, hly, add_zero, ← hwdef, ← hθ] at h1 h2
    have e1 : (dataOf (leftFoot p fl) (rightFoot p fr) false prev (track u cmd h b) dur).rPl.x =
        -(Real.cos θ' * X + Real.sin θ' * Y) + w / 2 * Real.sin (θ' - θ) := by
      simp only [dataOf, Bool.false_eq_true, if_false, h1, rightFoot, ← hwdef, ← hθ', rot, rotT, cos_real, sin_real, Vec2.sub_x, Vec2.sub_y,
        Vec2.add_x, Vec2.add_y, hX, hY, Real.sin_sub]
      ring
    have e2 : (dataOf (leftFoot p fl) (rightFoot p fr) false prev (track u cmd h b) dur).rPl.y =
        -(-(Real.sin θ' * X) + Real.cos θ' * Y) + w / 2 * (1 + Real.cos (θ' - θ)) := by
      simp only [dataOf, Bool.false_eq_true, if_false, h1, rightFoot, ← hwdef, ← hθ', rot, rotT, cos_real, sin_real, Vec2.sub_x, Vec2.sub_y,
        Vec2.add_x, Vec2.add_y, hX, hY, Real.cos_sub]
      linear_combination w / 2 * s2
    have e3 : (dataOf (leftFoot p fl) (rightFoot p fr) false prev (track u cmd h b) dur).newRelative.x =
        Real.cos θ * X + Real.sin θ * Y + w / 2 * Real.sin (θ' - θ) := by
      simp only [dataOf, Bool.false_eq_true, if_false, h1, h2, rightFoot, ← hwdef, ← hθ', rot, rotT, cos_real, sin_real, Vec2.sub_x, Vec2.sub_y,
        Vec2.add_x, Vec2.add_y, hX, hY, Real.sin_sub]
      ring
    have e4 : (dataOf (leftFoot p fl) (rightFoot p fr) false prev (track u cmd h b) dur).newRelative.y =
        (-(Real.sin θ * X) + Real.cos θ * Y) - w / 2 * (1 + Real.cos (θ' - θ)) := by
      simp only [dataOf, Bool.false_eq_true, if_false, h1, h2, rightFoot, ← hwdef, ← hθ', rot, rotT, cos_real, sin_real, Vec2.sub_x, Vec2.sub_y,
        Vec2.add_x, Vec2.add_y, hX, hY, Real.cos_sub]
      linear_combination -w / 2 * s1
    refine ⟨?_, ?_, ?_, ?_, ?_, ?_⟩
    · simp only [dataOf, Bool.false_eq_true, if_false, h2, leftFoot, hly, ← hθ']
      rw [← abs_neg]; congr 1; ring
    · rw [e1, abs_le]; constructor <;> linarith
    · rw [e2, abs_le]; constructor <;> linarith
    · rw [e3, abs_le]; constructor <;> linarith
    · rw [e4, abs_le]; constructor <;> linarith
    · rw [e3, mul_add]; linarith
  · simp only [if_true, rightFoot, hry, add_zero, ← hwdef, ← hθ] at h1 h2
    have e1 : (dataOf (leftFoot p fl) (rightFoot p fr) true prev (track u cmd h b) dur).newRelative.x =
        Real.cos θ * X + Real.sin θ * Y - w / 2 * Real.sin (θ' - θ) := by
      simp only [dataOf, if_true, h1, h2, leftFoot, ← hwdef, ← hθ', rot, rotT, cos_real, sin_real, Vec2.sub_x, Vec2.sub_y,
        Vec2.add_x, Vec2.add_y, hX, hY, Real.sin_sub]
      ring
    have e2 : (dataOf (leftFoot p fl) (rightFoot p fr) true prev (track u cmd h b) dur).newRelative.y =
        -(Real.sin θ * X) + Real.cos θ * Y + w / 2 * (1 + Real.cos (θ' - θ)) := by
      simp only [dataOf, if_true, h1, h2, leftFoot, ← hwdef, ← hθ', rot, rotT, cos_real, sin_real, Vec2.sub_x, Vec2.sub_y,
        Vec2.add_x, Vec2.add_y, hX, hY, Real.cos_sub]
      linear_combination w / 2 * s1
    have e3 : (dataOf (leftFoot p fl) (rightFoot p fr) true prev (track u cmd h b) dur).rPl =
        (dataOf (leftFoot p fl) (rightFoot p fr) true prev (track u cmd h b) dur).newRelative := by
      simp only [dataOf, if_true]
    refine ⟨?_, ?_, ?_, ?_, ?_, ?_⟩
    · simp only [dataOf, if_true, h2, rightFoot, hry, ← hθ']
      rw [← abs_neg]; congr 1; ring
    · rw [e3, e1, abs_le]; constructor <;> linarith
    · rw [e3, e2, abs_le]; constructor <;> linarith
    · rw [e1, abs_le]; constructor <;> linarith
    · rw [e2, abs_le]; constructor <;> linarith
    · rw [e1, mul_sub]; linarith

private theorem steadily_curve (hd : Driven p cmd) (hl : cmd.lateral = 0) {α : ℝ}
    (hf : CurveFits p cmd α (max T (p.minLength / footSpeed p cmd α) + p.dT + 3 * p.integratorStep)) :
    Steadily p cmd T (p.minLength / footSpeed p cmd α) := by
  have hh := hd.step
  have hw := hd.wide
  have hω := abs_nonneg cmd.angular
  have hpi := Real.pi_pos
  set κ := |cmd.forward| * (Real.cos α * |cmd.forward| - |cmd.angular| * p.nominalWidth) with hκ
  have hκ0 : 0 < κ := lt_of_le_of_lt (sq_nonneg _) hf.curve
  have hspeed : footSpeed p cmd α = Real.sqrt κ := rfl
  have hs0 : 0 < footSpeed p cmd α := by rw [hspeed]; exact Real.sqrt_pos.mpr hκ0
  have hfoot : ∀ (F : Foot ℝ) (fp : FootPrint ℝ), F = leftFoot p fp ∨ F = rightFoot p fp → F.minimumAngle = p.minAngle ∧
      F.minimumStep = p.minLength ∧ F.distance.x = 0 ∧ F.distance.y ^ 2 = (p.nominalWidth / 2) ^ 2 := by
    rintro F fp (rfl | rfl)
    · exact ⟨rfl, rfl, rfl, rfl⟩
    · refine ⟨rfl, rfl, rfl, ?_⟩
      show (-p.nominalWidth / 2) ^ 2 = _
      ring
  have hnear : ∀ {a b : ℝ}, |cmd.angular| * (b - a) < p.minAngle → |cmd.angular| * (b - a + p.integratorStep) ≤ α := fun h => by
    rw [mul_add]; linarith [hf.little]
  refine ⟨hd.controller, hd.command, hd.limits, hd.step, hd.period, hd.slow, ?_, ?_, ?_⟩
  · intro F fp hF l u a b hab hst ht
    obtain ⟨f1, f2, f3, f4⟩ := hfoot F fp hF
    rw [tiny_curve hh hab hst, Bool.and_eq_true, decide_eq_true_eq, decide_eq_true_eq, f1, f2] at ht
    have := (away_grows (u := u) hh hl hw f3 f4 hf.acute hab le_rfl (hnear ht.2) hf.curve.le).2
    rw [lt_div_iff₀ hs0, mul_comm, hspeed]
    refine lt_of_le_of_lt ?_ ht.1
    rw [← Real.sqrt_sq (show 0 ≤ b - a by linarith), ← Real.sqrt_mul hκ0.le]
    exact Real.sqrt_le_sqrt this
  · intro F fp hF l u a b b' hab hbb hst ht
    obtain ⟨f1, f2, f3, f4⟩ := hfoot F fp hF
    rw [← Bool.not_eq_true] at ht ⊢
    intro h'
    apply ht
    rw [tiny_curve hh (hab.trans hbb) hst, Bool.and_eq_true, decide_eq_true_eq, decide_eq_true_eq, f1] at h'
    rw [tiny_curve hh hab hst, Bool.and_eq_true, decide_eq_true_eq, decide_eq_true_eq, f1]
    refine ⟨lt_of_le_of_lt (Real.sqrt_le_sqrt ?_) h'.1, lt_of_le_of_lt (mul_le_mul_of_nonneg_left (by linarith) hω) h'.2⟩
    exact (away_grows (u := u) hh hl hw f3 f4 hf.acute hab hbb (hnear h'.2) hf.curve.le).1
  · intro fl fr lf prev u a b dur hprev hab hle
    set S := max T (p.minLength / footSpeed p cmd α) + p.dT + 3 * p.integratorStep with hS
    have hδ : 0 ≤ b - a := by linarith
    have hα0 : 0 ≤ α := le_trans (mul_nonneg hω (by linarith)) hf.turn
    have hsa : 0 ≤ Real.sin α := Real.sin_nonneg_of_nonneg_of_le_pi hα0 (by linarith [hf.acute])
    have hturn : |cmd.angular| * (b - a + p.integratorStep) ≤ α :=
      (mul_le_mul_of_nonneg_left (by linarith) hω).trans hf.turn
    obtain ⟨D, hD, d1, d2, d3, d4, d5, d6⟩ := data_curve hl hd.leftYaw hd.rightYaw hw hh fl fr lf prev u dur hab hf.acute hturn hprev
    rw [hD]
    have hφ : |(b - a) * cmd.angular| ≤ |cmd.angular| * S := by
      rw [abs_mul, abs_of_nonneg hδ, mul_comm]; exact mul_le_mul_of_nonneg_left hle hω
    have hφα : |(b - a) * cmd.angular| ≤ α := hφ.trans (by linarith [hf.turn, mul_nonneg hω hh.le])
    have hcos : Real.cos α ≤ Real.cos ((b - a) * cmd.angular) := by
      rw [← Real.cos_abs ((b - a) * cmd.angular)]
      exact Real.cos_le_cos_of_nonneg_of_le_pi (abs_nonneg _) (by linarith [hf.acute]) hφα
    have hcos1 := Real.cos_le_one ((b - a) * cmd.angular)
    have hcos0 := Real.neg_one_le_cos ((b - a) * cmd.angular)
    have hx : (b - a) * (|cmd.forward| + |cmd.angular| * p.nominalWidth / 2) ≤ S * (|cmd.forward| + |cmd.angular| * p.nominalWidth / 2) :=
      mul_le_mul_of_nonneg_right hle (by positivity)
    have hy : (b - a) * |cmd.forward| * Real.sin α ≤ S * |cmd.forward| * Real.sin α :=
      mul_le_mul_of_nonneg_right (mul_le_mul_of_nonneg_right hle (abs_nonneg _)) hsa
    have hwid := mul_le_mul_of_nonneg_left hcos (show 0 ≤ p.nominalWidth / 2 by linarith)
    have hwid1 := mul_le_mul_of_nonneg_left hcos1 (show 0 ≤ p.nominalWidth / 2 by linarith)
    have hwid0 := mul_le_mul_of_nonneg_left hcos0 (show 0 ≤ p.nominalWidth / 2 by linarith)
    have e3 := abs_le.mp d3
    have b1 : |D.rPl.y| ≤ p.nominalWidth + S * |cmd.forward| * Real.sin α := by
      rw [abs_le]; constructor <;> linarith [e3.1, e3.2]
    have bound : ∀ x y : ℝ, |x| ≤ S * (|cmd.forward| + |cmd.angular| * p.nominalWidth / 2) →
        |y| ≤ p.nominalWidth + S * |cmd.forward| * Real.sin α →
        x ^ 2 + y ^ 2 ≤ (S * (|cmd.forward| + |cmd.angular| * p.nominalWidth / 2)) ^ 2 + (p.nominalWidth + S * |cmd.forward| * Real.sin α) ^ 2 :=
      fun x y h1 h2 => add_le_add (sq_le_sq' (abs_le.mp h1).1 (abs_le.mp h1).2) (sq_le_sq' (abs_le.mp h2).1 (abs_le.mp h2).2)
    refine satisfied hd.free d1 (fun m hm => ⟨?_, (hf.length m hm).1⟩) (fun m hm => ?_) (fun m hm => ?_)
      (fun m hm => ⟨(hf.backward m hm).1, fun hneg => ?_⟩)
    · exact (bound _ _ (d2.trans hx) b1).trans_lt (hf.length m hm).2
    · linarith [hf.width m hm, e3.1]
    · exact hφ.trans_lt (hf.angle m hm)
    · have hback : cmd.forward < 0 := by
        by_contra hpos
        have hpos : 0 ≤ cmd.forward := not_lt.mp hpos
        have hf0 : 0 < cmd.forward := by
          refine lt_of_le_of_ne hpos fun h0 => ?_
          rw [hκ, ← h0] at hκ0
          simp at hκ0
        have k1 : cmd.forward * D.newRelative.x < 0 := mul_neg_of_pos_of_neg hf0 hneg
        rw [abs_of_pos hf0] at hκ d6
        have k2 : 0 ≤ κ * (b - a) := mul_nonneg hκ0.le hδ
        have k3 : 0 ≤ cmd.forward * (|cmd.angular| * p.nominalWidth / 2 * (b - a)) := by positivity
        rw [hκ] at k2
        linarith
      exact (bound _ _ (d4.trans hx) (d5.trans (by linarith))).trans_lt ((hf.backward m hm).2 hback)

/-- C124: a robot that is told to walk along a curve, forward or backward, with velocities at which a step of the minimum duration is
possible (of the nominal duration, if this is the first plan), keeps walking up to the end of the horizon. -/
theorem C124_curve (hp : Timed p) (hL : NonNeg left) (hR : NonNeg right) (hd : Driven p cmd) (hl : cmd.lateral = 0) {α : ℝ}
    (hf : CurveFits p cmd α (max (if left.steps = [] ∧ right.steps = [] then p.nominalTime else p.minTime)
      (p.minLength / footSpeed p cmd α) + p.dT + 3 * p.integratorStep))
    (hs : FixedStep durations)
    (hi : ∀ q u a b, q.controller = .direct → integ q u a b = euler durations garbage q u a b) {p' : Planner ℝ}
    (h : p.computeNewSteps integ fuel left right t0 t1 = .done true p' left' right') :
    ∃ d u start, PlanOf p integ left right t0 t1 left' right' d ∧
      InitialState p (leftFoot p left) (rightFoot p right) t0 left.steps.getLast? right.steps.getLast? u ∧
      start = executedFrom p t0 (decide (¬ (left.steps = [] ∧ right.steps = []))) d.q.firstStep ∧
      (NotAhead p left right (track u cmd p.integratorStep) → KeepsWalking p (p.minLength / footSpeed p cmd α) start t0 t1 d) :=
  steadily_walks hp hL hR (steadily_curve hd hl hf) (.inl hl) hs hi h

/-- C124: the corners of this way are where the unicycle is after whole integration steps from `u`, and between the corners it goes
straight on, with the commanded velocity; its heading is that of the commanded motion. -/
theorem C124_way (u : UState ℝ) (v : Control ℝ) {h : ℝ} (hh : 0 < h) :
    track u v h 0 = u ∧ (∀ s, (track u v h s).angle = u.angle + s * v.angular) ∧
    ∀ (n : ℤ) (s : ℝ), 0 ≤ s → s ≤ h → track u v h (n * h + s) = goOn (track u v h (n * h)) v s := by
  refine ⟨track_zero hh, track_angle hh, fun n s s0 s1 => ?_⟩
  rw [track_edge (n := n) hh (by linarith) (by linarith), track_edge (n := n) (s := n * h) hh le_rfl (by linarith), sub_self, goOn_zero]
  congr 1; ring

/-- Non-vacuity of C124: the default planner, feet side by side, told to walk on a circle of radius 1.25 m. -/
example : ∃ d l' r', PlanOf (drivenDemo ⟨1 / 40, 1 / 50, 0⟩) drivenInteg
      ⟨[⟨⟨0, 7 / 100⟩, 0, 0, "left"⟩], "left"⟩ ⟨[⟨⟨0, -7 / 100⟩, 0, 0, "right"⟩], "right"⟩ 0 20 l' r' d ∧
      d.decided ≠ [] ∧ ∀ e ∈ d.decided, e.kind = .optimised ∨ e.step.impactTime = 20 := by
  obtain ⟨fuel, p', l', r', h⟩ := drivenDemo_plans ⟨1 / 40, 1 / 50, 0⟩ "left" "right"
  have hpi := Real.two_le_pi
  have hpi' := Real.pi_le_four
  have hab : |(1 / 50 : ℝ)| = 1 / 50 := abs_of_pos (by norm_num)
  have haf : |(1 / 40 : ℝ)| = 1 / 40 := abs_of_pos (by norm_num)
  have hsl : 1 / 25 ≤ speedLimit realDemo := forwardDemo_speed le_rfl
  have hwl : WithinLimits (drivenDemo ⟨1 / 40, 1 / 50, 0⟩) ⟨1 / 40, 1 / 50, 0⟩ := by
    have hs : speedLimit (drivenDemo ⟨1 / 40, 1 / 50, 0⟩) = speedLimit realDemo := rfl
    have hb : (drivenDemo (⟨1 / 40, 1 / 50, 0⟩ : Control ℝ)).ctrl.directBase.backFactor = 1 := rfl
    have hsd : (drivenDemo (⟨1 / 40, 1 / 50, 0⟩ : Control ℝ)).ctrl.directBase.sideFactor = 1 := rfl
    have hg : (drivenDemo (⟨1 / 40, 1 / 50, 0⟩ : Control ℝ)).ctrl.directBase.turnGain = 0 := rfl
    constructor
    · rw [hs]; linarith
    · rw [hg]
    · rw [hb]; norm_num
    · rw [hsd]; norm_num
    · simp only [hab, turnLimit, drivenDemo, realDemo, Planner.new, deg2rad, pi_real]; linarith
    · rw [hs, hg, zero_mul, add_zero, div_one]; show (1 / 40 : ℝ) ≤ _; linarith
    · rw [hs, hb, hg, zero_mul, add_zero, div_one, one_mul]; show _ ≤ (1 / 40 : ℝ); linarith
    · rw [hs, hsd, abs_zero, one_mul]; linarith
  have hc := Real.one_sub_sq_div_two_le_cos (x := 1 / 8)
  have hsn : Real.sin (1 / 8) ≤ 1 / 8 := Real.sin_le (by norm_num)
  have hsn0 : 0 ≤ Real.sin (1 / 8) := Real.sin_nonneg_of_nonneg_of_le_pi (by norm_num) (by linarith)
  have hk : (1 / 50 : ℝ) ≤ footSpeed (drivenDemo ⟨1 / 40, 1 / 50, 0⟩) ⟨1 / 40, 1 / 50, 0⟩ (1 / 8) := by
    refine Real.le_sqrt_of_sq_le ?_
    simp only [hab, haf, drivenDemo, realDemo, Planner.new]
    norm_num at hc ⊢
    linarith
  have hμ : (drivenDemo ⟨1 / 40, 1 / 50, 0⟩).minLength / footSpeed (drivenDemo ⟨1 / 40, 1 / 50, 0⟩) ⟨1 / 40, 1 / 50, 0⟩ (1 / 8) ≤ 5 / 2 := by
    rw [div_le_iff₀ (by linarith)]
    have : (drivenDemo (⟨1 / 40, 1 / 50, 0⟩ : Control ℝ)).minLength = 1 / 20 := rfl
    rw [this]
    linarith
  obtain ⟨d, u, start, hd, hu, hs, hall⟩ := C124_curve (cmd := ⟨1 / 40, 1 / 50, 0⟩) (α := 1 / 8) (drivenDemo_timed ⟨1 / 40, 1 / 50, 0⟩)
    (by intro s hs; simp only [List.mem_singleton] at hs; rw [hs]) (by intro s hs; simp only [List.mem_singleton] at hs; rw [hs])
    (drivenDemo_driven hwl) rfl
    (by
      rw [if_neg (by simp)]
      have hS : max (drivenDemo (⟨1 / 40, 1 / 50, 0⟩ : Control ℝ)).minTime
          ((drivenDemo ⟨1 / 40, 1 / 50, 0⟩).minLength / footSpeed (drivenDemo ⟨1 / 40, 1 / 50, 0⟩) ⟨1 / 40, 1 / 50, 0⟩ (1 / 8)) +
          (drivenDemo (⟨1 / 40, 1 / 50, 0⟩ : Control ℝ)).dT + 3 * (drivenDemo (⟨1 / 40, 1 / 50, 0⟩ : Control ℝ)).integratorStep = 76 / 25 := by
        rw [max_eq_left (hμ.trans (by norm_num [drivenDemo, realDemo, Planner.new]))]
        norm_num [drivenDemo, realDemo, Planner.new]
      rw [hS]
      refine ⟨by linarith, ?_, ?_, ?_, ?_, ?_, ?_, ?_⟩
      · simp only [hab, drivenDemo, realDemo, Planner.new]; norm_num
      · simp only [hab, drivenDemo, realDemo, Planner.new, deg2rad, pi_real]; linarith
      · simp only [hab, haf, drivenDemo, realDemo, Planner.new]; norm_num at hc ⊢; linarith
      all_goals
        intro m hm
        simp only [drivenDemo, realDemo, Planner.new, Problem.new, Option.some.injEq, reduceCtorEq] at hm ⊢
      · rw [← hm, hab, haf]
        refine ⟨by norm_num, ?_⟩
        have : (7 / 50 + 76 / 25 * (1 / 40) * Real.sin (1 / 8)) ^ 2 ≤ (3 / 20) ^ 2 := pow_le_pow_left₀ (by positivity) (by linarith) 2
        norm_num at this ⊢
        linarith
      · rw [← hm, haf]; norm_num at hc hsn ⊢; linarith
      · rw [← hm, hab]; simp only [deg2rad, pi_real]; linarith)
    uniformSteps_fixed drivenInteg_direct h
  obtain ⟨k1, k2⟩ := drivenDemo_keeps
    (γ := track u ⟨1 / 40, 1 / 50, 0⟩ (drivenDemo ⟨1 / 40, 1 / 50, 0⟩).integratorStep)
    (track_zero (by norm_num [drivenDemo, realDemo, Planner.new]))
    (μ := (drivenDemo ⟨1 / 40, 1 / 50, 0⟩).minLength / footSpeed (drivenDemo ⟨1 / 40, 1 / 50, 0⟩) ⟨1 / 40, 1 / 50, 0⟩ (1 / 8))
    (by linarith) hd hu hs
  exact ⟨d, l', r', hd, k2 (hall k1), fun e he => ((hall k1).1 e he).imp_right fun h => h.2⟩

end Planner
end Uni
