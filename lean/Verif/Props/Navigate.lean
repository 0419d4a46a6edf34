import Verif.Props.Navigation
import Verif.Lemmas.Navigate
import Mathlib.Algebra.Order.Archimedean.Basic

/-! # C78, C79: where the navigation controller goes -/

set_option autoImplicit false
set_option linter.unusedSectionVars false

namespace Uni.NavCtrl
open Real

/-! ## C78 -/

section
variable {K : Type*} [Field K] [LinearOrder K] [IsStrictOrderedRing K] [Trig K]

theorem run_times {c c' : NavCtrl K} {o : Op K} (h : c.run o = .ok c') :
    ((∀ T, o ≠ .setInactiveUntil T) → c'.deactivationEnd = c.deactivationEnd) ∧
    ((∀ t u, o ≠ .setFeedback t u) → c'.time = c.time ∧ c'.state = c.state) := by
  have next : ∀ {d d' : NavCtrl K}, d.nextPose = .ok (some d') →
      d'.deactivationEnd = d.deactivationEnd ∧ d'.time = d.time ∧ d'.state = d.state := by
    intro d d' hd
    unfold nextPose at hd
    split at hd
    · cases hd
    · cases hd; exact ⟨rfl, rfl, rfl⟩
    · split at hd
      · cases hd
      · split_ifs at hd <;> cases hd <;> exact ⟨rfl, rfl, rfl⟩
  cases o with
  | setInactiveUntil T => cases h; exact ⟨fun g => absurd rfl (g T), fun _ => ⟨rfl, rfl⟩⟩
  | setFeedback t u => cases h; exact ⟨fun _ => rfl, fun g => absurd rfl (g t u)⟩
  | setConstantControl v => cases h; exact ⟨fun _ => rfl, fun _ => ⟨rfl, rfl⟩⟩
  | setSlowWhenSidewaysFactor g => cases h; exact ⟨fun _ => rfl, fun _ => ⟨rfl, rfl⟩⟩
  | setSlowWhenTurnGain g => cases h; exact ⟨fun _ => rfl, fun _ => ⟨rfl, rfl⟩⟩
  | setSlowWhenBackwardFactor g => cases h; exact ⟨fun _ => rfl, fun _ => ⟨rfl, rfl⟩⟩
  | setNavigationPath p =>
    cases h
    simp only [setNavigationPath]
    split_ifs <;> exact ⟨fun _ => rfl, fun _ => ⟨rfl, rfl⟩⟩
  | setTimeStep x =>
    cases h
    simp only [setTimeStep]
    split_ifs <;> exact ⟨fun _ => rfl, fun _ => ⟨rfl, rfl⟩⟩
  | setSaturations x y =>
    cases h
    simp only [setSaturations, setMaxVelocities]
    split
    · exact ⟨fun _ => rfl, fun _ => ⟨rfl, rfl⟩⟩
    · split_ifs <;> exact ⟨fun _ => rfl, fun _ => ⟨rfl, rfl⟩⟩
  | control =>
    simp only [NavCtrl.run, Out.bind_eq_ok] at h
    obtain ⟨r, h1, h2⟩ := h
    cases h2
    simp only [doUnicycleControl] at h1
    split_ifs at h1
    · cases h1; exact ⟨fun _ => rfl, fun _ => ⟨rfl, rfl⟩⟩
    · simp only [Out.bind_eq_ok] at h1
      obtain ⟨d, h3, h4⟩ := h1
      cases h4
      simp only [computeDesiredVelocities, Out.bind_eq_ok] at h3
      obtain ⟨o, h5, h6⟩ := h3
      cases o with
      | none => cases h6; exact ⟨fun _ => rfl, fun _ => ⟨rfl, rfl⟩⟩
      | some e =>
        obtain ⟨g1, g2, g3⟩ := next h5
        simp only at h6
        split at h6
        · cases h6
        · split at h6
          · simp only [Out.bind_eq_ok] at h6
            obtain ⟨r, -, h7⟩ := h6
            cases h7
            exact ⟨fun _ => g1, fun _ => ⟨g2, g3⟩⟩
          · cases h6

theorem runAll_append (c : NavCtrl K) (os os' : List (Op K)) :
    c.runAll (os ++ os') = (do let d ← c.runAll os; d.runAll os') := by
  induction os generalizing c with
  | nil => rfl
  | cons o os ih =>
    simp only [List.cons_append, NavCtrl.runAll]
    cases h : c.run o with
    | ok d => simp [ih]
    | fail => rfl
    | ub w => rfl

/-- **C78.** Before the instant given with the last `setInactiveUntil` (its absolute value) the controller asks for no
velocity, whatever the history; from then on for the velocities computed from the last feedback. -/
theorem C78_until (before mid after : List (Op K)) (T t : K) (u : UState K) (hmid : ∀ o ∈ mid, ∀ T', o ≠ Op.setInactiveUntil T')
    (hafter : ∀ o ∈ after, (∀ T', o ≠ Op.setInactiveUntil T') ∧ ∀ t' u', o ≠ Op.setFeedback t' u') (c₀ c : NavCtrl K)
    (h : c₀.runAll (before ++ Op.setInactiveUntil T :: mid ++ Op.setFeedback t u :: after) = .ok c) :
    (t < |T| → c.doUnicycleControl = .ok (⟨0, 0, 0⟩, c)) ∧
    (|T| ≤ t → c.doUnicycleControl = (do let d ← c.computeDesiredVelocities; Out.ok (d.desired, d))) ∧
    ∃ s, c.state = some s ∧ s.position = u.position ∧ ∃ k : ℤ, s.angle = u.angle + 2 * Trig.pi * k := by
  have keep : ∀ (os : List (Op K)) (d d' : NavCtrl K), d.runAll os = .ok d' →
      ((∀ o ∈ os, ∀ T, o ≠ .setInactiveUntil T) → d'.deactivationEnd = d.deactivationEnd) ∧
      ((∀ o ∈ os, ∀ t u, o ≠ .setFeedback t u) → d'.time = d.time ∧ d'.state = d.state) := by
    intro os
    induction os with
    | nil => intro d d' hd; cases hd; exact ⟨fun _ => rfl, fun _ => ⟨rfl, rfl⟩⟩
    | cons o os ih =>
      intro d d' hd
      simp only [NavCtrl.runAll, Out.bind_eq_ok] at hd
      obtain ⟨e, h1, h2⟩ := hd
      obtain ⟨a1, a2⟩ := run_times h1
      obtain ⟨b1, b2⟩ := ih e d' h2
      refine ⟨fun g => ?_, fun g => ?_⟩
      · rw [b1 (fun o ho => g o (by simp [ho])), a1 (g o (by simp))]
      · obtain ⟨x, y⟩ := b2 (fun o ho => g o (by simp [ho]))
        obtain ⟨x', y'⟩ := a2 (g o (by simp))
        exact ⟨by rw [x, x'], by rw [y, y']⟩
  rw [List.append_assoc, runAll_append] at h
  simp only [Out.bind_eq_ok, List.cons_append, NavCtrl.runAll, NavCtrl.run, Out.bind_ok] at h
  obtain ⟨d, -, h⟩ := h
  rw [runAll_append] at h
  simp only [Out.bind_eq_ok, NavCtrl.runAll, NavCtrl.run, Out.bind_ok] at h
  obtain ⟨e, h1, h2⟩ := h
  have k1 := (keep _ _ _ h1).1 hmid
  have k2 := (keep _ _ _ h2).1 (fun o ho => (hafter o ho).1)
  obtain ⟨k3, k4⟩ := (keep _ _ _ h2).2 (fun o ho => (hafter o ho).2)
  have hT : c.deactivationEnd = |T| := by rw [k2]; exact k1
  have ht : c.time = t := k3
  refine ⟨fun g => ?_, fun g => ?_, _, k4, rfl, wrapOnce_mod u.angle⟩
  · simp only [doUnicycleControl, hT, ht, if_pos g]
  · simp only [doUnicycleControl, hT, ht, if_neg (not_lt.mpr g)]

end

/-- **C78.** When the controller is active and has not arrived, it tracks a pose `g` of the path.  It turns on the spot, or
asks for a velocity directed from the unicycle to `g` (in the frame of the robot, up to components below the tolerance,
which are dropped), of a size between the smaller speed limit and the diagonal of the limits.  It turns at the maximal
rate, and in the direction of the shorter way if the feedback is within three half turns of zero and the heading of the pose
within half a turn. -/
theorem C78_towards {c c' : NavCtrl ℝ} {v l a t : ℝ} {u : Control ℝ} (s : UState ℝ) (hmax : c.maxVel = some (v, l, a))
    (hv : 0 < v) (hl : 0 < l) (ha : 0 < a) (hact : c.deactivationEnd ≤ t)
    (h : (c.setFeedback t s).doUnicycleControl = .ok (u, c')) (hna : ¬ c.Arrived) :
    ∃ g, c'.path = c.path ∧ c.path[c'.poseIndex]? = some g ∧ |u.angular| = a ∧
      ((u.forward = 0 ∧ u.lateral = 0) ∨ ∃ (speed k : ℝ) (r : Vec2 ℝ), min v l ≤ speed ∧ speed ^ 2 ≤ v ^ 2 + l ^ 2 ∧
        r.normSq = speed ^ 2 ∧ 0 ≤ k ∧ g.position - s.position = k * rot s.angle r ∧
        (u.forward = r.x ∨ (u.forward = 0 ∧ |r.x| < zeroTolerance)) ∧
        (u.lateral = r.y ∨ (u.lateral = 0 ∧ |r.y| < zeroTolerance))) ∧
      (|s.angle| ≤ 3 * π → |g.angle| ≤ π → ∃ (δ : ℝ) (k : ℤ), δ = g.angle - s.angle + 2 * π * k ∧ |δ| ≤ π ∧
        u.angular = (if 0 ≤ δ then a else -a)) := by
  have hna' : ¬ (c.setFeedback t s).Arrived := hna
  have hact' : ¬ (c.setFeedback t s).time < (c.setFeedback t s).deactivationEnd := not_lt.mpr hact
  simp only [doUnicycleControl, if_neg hact', Out.bind_eq_ok] at h
  obtain ⟨d, h1, h2⟩ := h
  cases h2
  simp only [computeDesiredVelocities, Out.bind_eq_ok] at h1
  obtain ⟨o, h3, h4⟩ := h1
  have hnext : o ≠ none ∧ ∀ e, o = some e → e.path = c.path ∧ e.maxVel = c.maxVel ∧ e.state = some ⟨s.position, wrapOnce s.angle⟩ := by
    unfold nextPose at h3
    split at h3
    · cases h3
    · cases h3
      exact ⟨by simp, fun e he => by cases he; exact ⟨rfl, rfl, rfl⟩⟩
    · rename_i hn
      split at h3
      · cases h3
      · rename_i e he
        split_ifs at h3 with g1 g2
        · exact absurd ⟨hn, ⟨e, he, g1⟩, fun h0 => g2.1 (by rw [h0]; rfl), g2.2⟩ hna'
        · cases h3
          exact ⟨by simp, fun e he => by cases he; exact ⟨rfl, rfl, rfl⟩⟩
        · cases h3
          exact ⟨by simp, fun e he => by cases he; exact ⟨rfl, rfl, rfl⟩⟩
  cases o with
  | none => exact absurd rfl hnext.1
  | some e =>
    obtain ⟨e1, e2, e3⟩ := hnext.2 e rfl
    simp only at h4
    split at h4
    · cases h4
    · rename_i g hg
      rw [e2, e3, hmax] at h4
      simp only [Out.bind_eq_ok] at h4
      obtain ⟨⟨eta, u⟩, h5, h6⟩ := h4
      cases h6
      obtain ⟨speed, r, haim⟩ := velocitiesTo_aim hv hl h5
      have hsp : 0 < speed := lt_of_lt_of_le (lt_min hv hl) haim.slow
      have hclip : ∀ x : ℝ, clip x = x ∨ (clip x = 0 ∧ |x| < zeroTolerance) := by
        intro x
        unfold clip
        split_ifs with hx
        · exact Or.inr ⟨rfl, hx⟩
        · exact Or.inl rfl
      refine ⟨g, e1, by rw [← e1]; exact hg, ?_, ?_, ?_⟩
      · rw [haim.turn]
        split_ifs
        · exact abs_of_pos ha
        · rw [abs_neg]; exact abs_of_pos ha
      · rcases haim.move with ⟨-, m1, m2⟩ | ⟨-, m1, m2⟩
        · exact Or.inl ⟨m1, m2⟩
        · refine Or.inr ⟨speed, Real.sqrt (g.position - s.position).normSq / speed, r, haim.slow, haim.fast, haim.size,
            div_nonneg (Real.sqrt_nonneg _) hsp.le, ?_, by rw [m1]; exact hclip _, by rw [m2]; exact hclip _⟩
          have := haim.dir
          simp only [rot, cos_real, sin_real, cos_wrapOnce, sin_wrapOnce] at this ⊢
          exact this
      · intro hs hg'
        have w1 : |wrapOnce s.angle| ≤ π := wrapOnce_abs (K := ℝ) hs
        have w2 : |g.angle - wrapOnce s.angle| ≤ 3 * π := by
          have := abs_sub g.angle (wrapOnce s.angle)
          have := Real.pi_pos
          linarith
        obtain ⟨k, hk⟩ := headingError_mod g.angle s.angle
        rw [pi_real] at hk
        exact ⟨headingError g.angle s.angle, k, hk, wrapOnce_abs (K := ℝ) w2, haim.turn⟩

/-- **C78 (violated): the shorter way.**  The heading of the feedback is corrected by one turn at most: after two turns and a
half the controller turns right although the pose is slightly to the left. -/
theorem C78_long_way_violation : ∃ (s g : UState ℝ) (eta : ℝ) (u : Control ℝ), |g.angle| ≤ π ∧
    g.angle = s.angle + 1 / 2 - 2 * π * 3 ∧
    velocitiesTo ⟨s.position, wrapOnce s.angle⟩ g (1, 1, 1) = .ok (eta, u) ∧ u.angular = -1 := by
  have hp := Real.two_le_pi
  obtain ⟨⟨eta, u⟩, hvel⟩ := velocitiesTo_ok (K := ℝ) one_pos one_pos one_pos
    ⟨0, wrapOnce (5 * π + 1 / 4)⟩ ⟨0, -π + 3 / 4⟩
  obtain ⟨speed, r, haim⟩ := velocitiesTo_aim one_pos one_pos hvel
  refine ⟨⟨0, 5 * π + 1 / 4⟩, ⟨0, -π + 3 / 4⟩, eta, u, abs_le.mpr ⟨by simp only; linarith, by simp only; linarith⟩,
    by simp only; ring, hvel, ?_⟩
  rw [haim.turn]
  have e1 : wrapOnce (5 * π + 1 / 4) = 3 * π + 1 / 4 := by
    unfold wrapOnce
    rw [pi_real, if_pos (by linarith)]; ring
  have e2 : wrapOnce (-π + 3 / 4 - (3 * π + 1 / 4)) = -2 * π + 1 / 2 := by
    unfold wrapOnce
    rw [pi_real, if_neg (by linarith), if_pos (by linarith)]; ring
  simp only [e1, e2]
  rw [if_neg (by linarith)]

/-- **C78 (violated): an aligned unicycle is not turned.**  Whatever the goal, if the heading is the right one the controller
asks for the maximal angular velocity. -/
theorem C78_aligned_violation (s g : UState ℝ) (v l a eta : ℝ) (u : Control ℝ) (hv : 0 < v) (hl : 0 < l)
    (hs : s.angle = g.angle) (h : velocitiesTo s g (v, l, a) = .ok (eta, u)) : u.angular = a := by
  obtain ⟨speed, r, haim⟩ := velocitiesTo_aim hv hl h
  have hp := Real.pi_pos
  have : wrapOnce (g.angle - s.angle) = (0 : ℝ) := by
    unfold wrapOnce
    rw [hs, sub_self, pi_real, if_neg (by linarith), if_neg (by linarith)]
  rw [haim.turn, this, if_pos (le_refl _)]

section
private local instance navTrig : Trig ℚ := ⟨fun _ => 1, fun _ => 0, fun x => x, fun x => 1 + x, fun x => x, fun _ _ => 0, 22 / 7⟩

/-- Non-vacuity of C78: an active controller that has not arrived; the history of `C78_until`. -/
example : (match (((new : NavCtrl ℚ).setSaturations 1 1).2.setNavigationPath [⟨0, 0⟩, ⟨⟨1, 0⟩, 0⟩]).2.runAll
      [.setInactiveUntil 2, .setFeedback 1 ⟨0, 7⟩] with
      | .ok c => decide (c.time < c.deactivationEnd) && decide (c.state.map (·.angle) = some (7 - 44 / 7))
      | _ => false) = true ∧
    (match ((((new : NavCtrl ℚ).setSaturations 1 1).2.setNavigationPath [⟨0, 0⟩, ⟨⟨1, 0⟩, 0⟩]).2.setFeedback 1
        ⟨0, 0⟩).doUnicycleControl with
      | .ok (u, _) => u.forward == 1 && u.angular == 1
      | _ => false) = true := by decide +kernel

end

/-! ## C79: liveness -/

section Liveness
variable {v l a h : ℝ}

/-- The next evaluation tracks pose `i`. -/
def Next (c : NavCtrl ℝ) (i : Nat) : Prop :=
  (c.newPath = some true ∧ c.poseIndex = i) ∨
  (c.newPath = some false ∧ ∃ e, c.eta = some e ∧
    ((e < c.dt ∧ c.poseIndex ≠ c.path.length - 1 ∧ c.poseIndex + 1 = i) ∨ (c.dt ≤ e ∧ c.poseIndex = i)))

/-- Same path, settings and activation. -/
structure Same (c c' : NavCtrl ℝ) : Prop where
  base : c'.base = c.base
  vel : c'.maxVel = c.maxVel
  dt : c'.dt = c.dt
  stop : c'.deactivationEnd = c.deactivationEnd
  path : c'.path = c.path

/-- Distance in position and heading, weighted so that every step towards a pose decreases it by one. -/
noncomputable def far (b : BaseCtrl ℝ) (a h : ℝ) (g s : UState ℝ) : ℝ :=
  2 * (g.position - s.position).normSq / (h * crawl b a) ^ 2 + |headingError g.angle s.angle| / (h * a)

/-- `s` is at pose `g` up to the motion of a step. -/
def Near (v l a h : ℝ) (g s : UState ℝ) : Prop :=
  (g.position - s.position).normSq ≤ 2 * h ^ 2 * (v ^ 2 + l ^ 2) ∧ ∃ k : ℤ, |g.angle - s.angle + 2 * π * k| ≤ h * a

theorem far_nonneg {c : NavCtrl ℝ} (hc : Limits c v l a) (hh : 0 < h) (g s : UState ℝ) : 0 ≤ far c.base a h g s := by
  have := hc.crawl_pos
  have := hc.apos
  have : 0 ≤ (g.position - s.position).normSq := by
    simp only [Vec2.normSq]; nlinarith [mul_self_nonneg (g.position - s.position).x, mul_self_nonneg (g.position - s.position).y]
  unfold far
  positivity

/-- One step towards pose `i`. -/
theorem step_towards {c : NavCtrl ℝ} (hc : Limits c v l a) (hh : 0 < h) (hha : h * a ≤ π) {t : ℝ}
    (ht : c.deactivationEnd ≤ t) {i : Nat} (hi : Next c i) {g : UState ℝ} (hg : c.path[i]? = some g)
    (hga : |g.angle| ≤ π) (s : UState ℝ) :
    ∃ s' c' e, c.unicycleStep h t s = .ok (s', c') ∧ Same c c' ∧ c'.newPath = some false ∧ c'.eta = some e ∧
      c'.poseIndex = i ∧ (h ≤ e → far c.base a h g s' + 1 ≤ far c.base a h g s) ∧ (e < h → Near v l a h g s') := by
  have hv : 0 < v := lt_of_lt_of_le (by have := tol_pos; linarith) hc.vpos
  have hl : 0 < l := lt_of_lt_of_le (by have := tol_pos; linarith) hc.lpos
  have ha := hc.apos
  obtain ⟨⟨e, u⟩, hvel⟩ := velocitiesTo_ok hv hl ha (⟨s.position, wrapOnce s.angle⟩ : UState ℝ) g
  obtain ⟨speed, r, haim⟩ := velocitiesTo_aim hv hl hvel
  have hsp : 0 < speed := lt_of_lt_of_le (lt_min hv hl) haim.slow
  have hua : |u.angular| = a := by
    rw [haim.turn]
    split_ifs
    · exact abs_of_pos ha
    · rw [abs_neg]; exact abs_of_pos ha
  obtain ⟨u', hu', w1, w2, w3, w4, w5⟩ := hc.doControl hua
  have hpath : ∃ d, (c.setFeedback t s).nextPose = .ok (some d) ∧ Same c d ∧ d.newPath = some false ∧ d.poseIndex = i ∧
      d.state = some ⟨s.position, wrapOnce s.angle⟩ := by
    rcases hi with ⟨h1, h2⟩ | ⟨h1, e, h2, h3⟩
    · refine ⟨{ c.setFeedback t s with newPath := some false }, ?_, ⟨rfl, rfl, rfl, rfl, rfl⟩, rfl, h2, rfl⟩
      simp [nextPose, setFeedback, h1]
    · rcases h3 with ⟨h3, h4, h5⟩ | ⟨h3, h4⟩
      · refine ⟨{ c.setFeedback t s with poseIndex := c.poseIndex + 1 }, ?_, ⟨rfl, rfl, rfl, rfl, rfl⟩, h1, h5, rfl⟩
        simp [nextPose, setFeedback, h1, h2, h3, h4]
      · refine ⟨c.setFeedback t s, ?_, ⟨rfl, rfl, rfl, rfl, rfl⟩, h1, h4, rfl⟩
        simp [nextPose, setFeedback, h1, h2, not_lt.mpr h3]
  obtain ⟨d, hd, hsame, hnew, hdi, hds⟩ := hpath
  have hctrl : (c.setFeedback t s).doUnicycleControl = .ok (u, { d with eta := some e, desired := u }) := by
    have hact : ¬ (c.setFeedback t s).time < (c.setFeedback t s).deactivationEnd := not_lt.mpr ht
    simp only [doUnicycleControl, if_neg hact, computeDesiredVelocities, hd, Out.bind_ok, hdi, hsame.path, hg, hsame.vel,
      hc.vel, hds, hvel]
  have herr : wrapOnce (g.angle - wrapOnce s.angle) = headingError g.angle s.angle := rfl
  have hturn : u'.angular = if 0 ≤ headingError g.angle s.angle then a else -a := by
    rw [w1, haim.turn]; rfl
  have hhead := turn_step hc hga hh.le hha hturn
  have hcr := hc.crawl_pos
  have h2 : 0 < (h * crawl c.base a) ^ 2 := by positivity
  have hha0 : 0 < h * a := by positivity
  refine ⟨eulerStep h s u', { d with eta := some e, desired := u }, e, ?_, ⟨hsame.base, hsame.vel, hsame.dt, hsame.stop,
    hsame.path⟩, hnew, rfl, hdi, ?_, ?_⟩
  · simp only [unicycleStep, hctrl, Out.bind_ok, hsame.base, hu']
  · intro he
    have heta := haim.eta
    rcases haim.move with ⟨m1, m2, m3⟩ | ⟨m1, m2, m3⟩
    · -- turning on the spot
      simp only [herr] at m1 heta
      rw [max_eq_right m1.le] at heta
      have z1 : u'.forward = 0 := by obtain ⟨k, -, -, hk⟩ := w2; rw [hk, m2, mul_zero]
      have z2 : u'.lateral = 0 := by obtain ⟨k, -, -, hk⟩ := w3; rw [hk, m3, mul_zero]
      have hpos : (eulerStep h s u').position = s.position := by
        ext <;> simp [eulerStep, dynamics, z1, z2]
      have hbig : h * a ≤ |headingError g.angle s.angle| := by
        rw [heta] at he; exact (le_div_iff₀ ha).mp he
      rw [abs_of_nonneg (sub_nonneg.mpr hbig)] at hhead
      have : far c.base a h g (eulerStep h s u') + 1 = far c.base a h g s := by
        unfold far
        rw [hpos, hhead]
        field_simp
        ring
      exact this.le
    · simp only [herr] at m1 heta
      rw [max_eq_left m1] at heta
      have hk : h ≤ Real.sqrt (g.position - s.position).normSq / speed := by rw [heta] at he; exact he
      have hm := (move_step hc hh haim ⟨m2, m3⟩ w2 w3 w4 w5).1 hk
      have hle : |headingError g.angle (eulerStep h s u').angle| ≤ |headingError g.angle s.angle| + h * a := by
        rw [hhead]
        exact abs_le.mpr ⟨by linarith [abs_nonneg (headingError g.angle s.angle)], by linarith⟩
      have e1 : 2 * (g.position - (eulerStep h s u').position).normSq / (h * crawl c.base a) ^ 2 + 2 ≤
          2 * (g.position - s.position).normSq / (h * crawl c.base a) ^ 2 := by
        rw [div_add' _ _ _ h2.ne', div_le_div_iff_of_pos_right h2]
        linarith
      have e2 : |headingError g.angle (eulerStep h s u').angle| / (h * a) ≤
          |headingError g.angle s.angle| / (h * a) + 1 := by
        rw [div_add' _ _ _ hha0.ne', div_le_div_iff_of_pos_right hha0]
        linarith
      unfold far
      linarith
  · intro he
    have heta := haim.eta
    simp only [herr] at heta
    have k1 : Real.sqrt (g.position - s.position).normSq / speed < h := lt_of_le_of_lt (le_max_left _ _) (heta ▸ he)
    have k2 : |headingError g.angle s.angle| / a < h := lt_of_le_of_lt (le_max_right _ _) (heta ▸ he)
    have k3 : (g.position - s.position).normSq ≤ h ^ 2 * speed ^ 2 := by
      have hn : 0 ≤ (g.position - s.position).normSq := by
        simp only [Vec2.normSq]
        nlinarith [mul_self_nonneg (g.position - s.position).x, mul_self_nonneg (g.position - s.position).y]
      have := (div_lt_iff₀ hsp).mp k1
      have h3 := pow_le_pow_left₀ (Real.sqrt_nonneg _) this.le 2
      rw [Real.sq_sqrt hn, mul_pow] at h3
      exact h3
    have k4 : h ^ 2 * speed ^ 2 ≤ h ^ 2 * (v ^ 2 + l ^ 2) := mul_le_mul_of_nonneg_left haim.fast (by positivity)
    have k5 : (g.position - (eulerStep h s u').position).normSq ≤ (g.position - s.position).normSq + h ^ 2 * speed ^ 2 := by
      rcases haim.move with ⟨m1, m2, m3⟩ | ⟨m1, m2, m3⟩
      · have z1 : u'.forward = 0 := by obtain ⟨k, -, -, hk⟩ := w2; rw [hk, m2, mul_zero]
        have z2 : u'.lateral = 0 := by obtain ⟨k, -, -, hk⟩ := w3; rw [hk, m3, mul_zero]
        have hpos : (eulerStep h s u').position = s.position := by
          ext <;> simp [eulerStep, dynamics, z1, z2]
        rw [hpos]
        have : 0 ≤ h ^ 2 * speed ^ 2 := by positivity
        linarith
      · exact (move_step hc hh haim ⟨m2, m3⟩ w2 w3 w4 w5).2
    refine ⟨by linarith, ?_⟩
    obtain ⟨k, hk⟩ := headingError_mod g.angle (eulerStep h s u').angle
    refine ⟨k, ?_⟩
    rw [pi_real] at hk
    rw [← hk, hhead]
    have := (div_lt_iff₀ ha).mp k2
    exact abs_le.mpr ⟨by linarith [abs_nonneg (headingError g.angle s.angle)], by linarith⟩

theorem Limits.same {c c' : NavCtrl ℝ} (hc : Limits c v l a) (hs : Same c c') : Limits c' v l a := by
  obtain ⟨h1, h2, h3, h4, h5, h6, h7, h8, h9⟩ := hc
  refine ⟨by rw [hs.vel, h1], by rw [hs.base, h2], by rw [hs.base]; exact h3, by rw [hs.base]; exact h4,
    by rw [hs.base]; exact h5, by rw [hs.base]; exact h6, h7, h8, h9⟩

/-- From any state of the unicycle the rest of the path is followed to its end. -/
theorem follow (hh : 0 < h) (hha : h * a ≤ π) (path : List (UState ℝ)) (hang : ∀ g ∈ path, |g.angle| ≤ π) :
    ∀ (m i : Nat), i + m + 1 = path.length → ∀ (n : Nat) (t : ℝ) (s : UState ℝ) (c : NavCtrl ℝ), Limits c v l a →
      c.path = path → c.dt = h → c.deactivationEnd ≤ t → Next c i →
      (∀ g, path[i]? = some g → far c.base a h g s ≤ n) →
      ∃ k s' c' g, navigate h k t s c = .ok (s', c') ∧ c'.Arrived ∧ Same c c' ∧ path.getLast? = some g ∧ Near v l a h g s' := by
  intro m
  induction m with
  | zero =>
    intro i him n
    induction n with
    | zero =>
      intro t s c hc hp hdt hst hnext hfar
      have hi : i < path.length := by omega
      have hgi : path[i]? = some path[i] := List.getElem?_eq_getElem hi
      obtain ⟨s', c', e, e1, e2, e3, e4, e5, e6, e7⟩ := step_towards hc hh hha hst hnext (by rw [hp]; exact hgi)
        (hang _ (List.getElem_mem hi)) s
      have hlt : e < h := by
        by_contra hge
        have := e6 (not_lt.mp hge)
        have g1 := hfar _ hgi
        have g2 := far_nonneg hc hh path[i] s'
        norm_num at g1
        linarith
      refine ⟨1, s', c', path[i], by simp [navigate, e1], ⟨e3, ⟨e, e4, by rw [e2.dt, hdt]; exact hlt⟩, ?_, ?_⟩, e2, ?_, e7 hlt⟩
      · rw [e2.path, hp]; intro h0; rw [h0] at hi; simp at hi
      · rw [e5, e2.path, hp]; omega
      · rw [List.getLast?_eq_getElem?, ← hgi]; congr 1; omega
    | succ n ih =>
      intro t s c hc hp hdt hst hnext hfar
      have hi : i < path.length := by omega
      have hgi : path[i]? = some path[i] := List.getElem?_eq_getElem hi
      obtain ⟨s', c', e, e1, e2, e3, e4, e5, e6, e7⟩ := step_towards hc hh hha hst hnext (by rw [hp]; exact hgi)
        (hang _ (List.getElem_mem hi)) s
      by_cases hlt : e < h
      · refine ⟨1, s', c', path[i], by simp [navigate, e1], ⟨e3, ⟨e, e4, by rw [e2.dt, hdt]; exact hlt⟩, ?_, ?_⟩, e2, ?_, e7 hlt⟩
        · rw [e2.path, hp]; intro h0; rw [h0] at hi; simp at hi
        · rw [e5, e2.path, hp]; omega
        · rw [List.getLast?_eq_getElem?, ← hgi]; congr 1; omega
      · have hge := not_lt.mp hlt
        obtain ⟨k, s'', c'', g, f1, f2, f3, f4, f5⟩ := ih (t + h) s' c' (hc.same e2) (by rw [e2.path, hp]) (by rw [e2.dt, hdt])
          (by rw [e2.stop]; linarith) (Or.inr ⟨e3, e, e4, Or.inr ⟨by rw [e2.dt, hdt]; exact hge, e5⟩⟩)
          (by
            intro g hg
            have g1 := hfar g hg
            rw [hgi] at hg; cases hg
            have := e6 hge
            rw [e2.base]
            push_cast at g1
            linarith)
        exact ⟨k + 1, s'', c'', g, by simp [navigate, e1, f1], f2, ⟨by rw [f3.base, e2.base], by rw [f3.vel, e2.vel],
          by rw [f3.dt, e2.dt], by rw [f3.stop, e2.stop], by rw [f3.path, e2.path]⟩, f4, f5⟩
  | succ m ihm =>
    intro i him n
    induction n with
    | zero =>
      intro t s c hc hp hdt hst hnext hfar
      have hi : i < path.length := by omega
      have hgi : path[i]? = some path[i] := List.getElem?_eq_getElem hi
      obtain ⟨s', c', e, e1, e2, e3, e4, e5, e6, e7⟩ := step_towards hc hh hha hst hnext (by rw [hp]; exact hgi)
        (hang _ (List.getElem_mem hi)) s
      have hlt : e < h := by
        by_contra hge
        have := e6 (not_lt.mp hge)
        have g1 := hfar _ hgi
        have g2 := far_nonneg hc hh path[i] s'
        norm_num at g1
        linarith
      have hi' : i + 1 < path.length := by omega
      obtain ⟨N, hN⟩ := exists_nat_ge (far c'.base a h path[i + 1] s')
      obtain ⟨k, s'', c'', g, f1, f2, f3, f4, f5⟩ := ihm (i + 1) (by omega) N (t + h) s' c' (hc.same e2) (by rw [e2.path, hp])
        (by rw [e2.dt, hdt]) (by rw [e2.stop]; linarith)
        (Or.inr ⟨e3, e, e4, Or.inl ⟨by rw [e2.dt, hdt]; exact hlt, by rw [e5, e2.path, hp]; omega, by rw [e5]⟩⟩)
        (by intro g hg; rw [List.getElem?_eq_getElem hi'] at hg; cases hg; exact hN)
      exact ⟨k + 1, s'', c'', g, by simp [navigate, e1, f1], f2, ⟨by rw [f3.base, e2.base], by rw [f3.vel, e2.vel],
        by rw [f3.dt, e2.dt], by rw [f3.stop, e2.stop], by rw [f3.path, e2.path]⟩, f4, f5⟩
    | succ n ih =>
      intro t s c hc hp hdt hst hnext hfar
      have hi : i < path.length := by omega
      have hgi : path[i]? = some path[i] := List.getElem?_eq_getElem hi
      obtain ⟨s', c', e, e1, e2, e3, e4, e5, e6, e7⟩ := step_towards hc hh hha hst hnext (by rw [hp]; exact hgi)
        (hang _ (List.getElem_mem hi)) s
      by_cases hlt : e < h
      · have hi' : i + 1 < path.length := by omega
        obtain ⟨N, hN⟩ := exists_nat_ge (far c'.base a h path[i + 1] s')
        obtain ⟨k, s'', c'', g, f1, f2, f3, f4, f5⟩ := ihm (i + 1) (by omega) N (t + h) s' c' (hc.same e2) (by rw [e2.path, hp])
          (by rw [e2.dt, hdt]) (by rw [e2.stop]; linarith)
          (Or.inr ⟨e3, e, e4, Or.inl ⟨by rw [e2.dt, hdt]; exact hlt, by rw [e5, e2.path, hp]; omega, by rw [e5]⟩⟩)
          (by intro g hg; rw [List.getElem?_eq_getElem hi'] at hg; cases hg; exact hN)
        exact ⟨k + 1, s'', c'', g, by simp [navigate, e1, f1], f2, ⟨by rw [f3.base, e2.base], by rw [f3.vel, e2.vel],
          by rw [f3.dt, e2.dt], by rw [f3.stop, e2.stop], by rw [f3.path, e2.path]⟩, f4, f5⟩
      · have hge := not_lt.mp hlt
        obtain ⟨k, s'', c'', g, f1, f2, f3, f4, f5⟩ := ih (t + h) s' c' (hc.same e2) (by rw [e2.path, hp]) (by rw [e2.dt, hdt])
          (by rw [e2.stop]; linarith) (Or.inr ⟨e3, e, e4, Or.inr ⟨by rw [e2.dt, hdt]; exact hge, e5⟩⟩)
          (by
            intro g hg
            have g1 := hfar g hg
            rw [hgi] at hg; cases hg
            have := e6 hge
            rw [e2.base]
            push_cast at g1
            linarith)
        exact ⟨k + 1, s'', c'', g, by simp [navigate, e1, f1], f2, ⟨by rw [f3.base, e2.base], by rw [f3.vel, e2.vel],
          by rw [f3.dt, e2.dt], by rw [f3.stop, e2.stop], by rw [f3.path, e2.path]⟩, f4, f5⟩

/-- The settings after `setSaturations` has been accepted. -/
theorem limits_of_accepted {c₀ : NavCtrl ℝ} {L A : ℝ} (hsat : (c₀.setSaturations L A).1 = true) (h1 : 0 ≤ c₀.base.turnGain)
    (h2 : 0 < c₀.base.backFactor) (hL : 2 * zeroTolerance ≤ L) (hl : 2 * zeroTolerance ≤ L * c₀.base.sideFactor) :
    Limits (c₀.setSaturations L A).2 L (L * c₀.base.sideFactor) (A / (1 + c₀.base.turnGain)) ∧
      Same { c₀ with base := (c₀.setSaturations L A).2.base, maxVel := (c₀.setSaturations L A).2.maxVel }
        (c₀.setSaturations L A).2 := by
  have ht := tol_pos
  have hL0 : 0 < L := by linarith
  have hl0 : 0 < L * c₀.base.sideFactor := by linarith
  have hg : (0 : ℝ) < 1 + c₀.base.turnGain := by linarith
  simp only [setSaturations, BaseCtrl.setSaturations] at hsat ⊢
  by_cases hn : L < 0 ∨ A < 0
  · simp [hn] at hsat
  · rw [if_neg hn] at hsat ⊢
    have hA : 0 ≤ A := not_lt.mp fun h => hn (Or.inr h)
    simp only [BaseCtrl.getSaturationLimits, setMaxVelocities] at hsat ⊢
    have hz : ¬ (|L| < zeroTolerance ∨ |L * c₀.base.sideFactor| < zeroTolerance ∨
        |A / (1 + c₀.base.turnGain)| < zeroTolerance) := by
      intro hz
      simp only [hz, if_true] at hsat
      cases hsat
    simp only [hz, if_false]
    have hz3 : zeroTolerance ≤ |A / (1 + c₀.base.turnGain)| := not_lt.mp fun h => hz (Or.inr (Or.inr h))
    have ha0 : 0 ≤ A / (1 + c₀.base.turnGain) := div_nonneg hA hg.le
    have ha : 0 < A / (1 + c₀.base.turnGain) := by
      rw [abs_of_nonneg ha0] at hz3
      linarith
    refine ⟨⟨?_, rfl, rfl, rfl, h1, h2, hL, hl, ha⟩, ⟨rfl, rfl, rfl, rfl, rfl⟩⟩
    simp only [abs_of_pos hL0, abs_of_pos hl0, abs_of_pos ha]

/-- **C79.** Once the saturations and a path (headings in [-π, π]) have been accepted, the unicycle driven by the controller
in steps of the length known to the controller reaches the last pose of the path after a finite number of steps, wherever it
starts: the controller then considers the last pose as reached, and position and heading are those of the last pose, up to
the motion of one step.  The factor of the backward speed must not be zero, and a step must not turn more than half a turn. -/
theorem C79_arrives (c₀ : NavCtrl ℝ) (L A : ℝ) (path : List (UState ℝ)) (t : ℝ) (s : UState ℝ)
    (hsat : (c₀.setSaturations L A).1 = true) (hturn : 0 ≤ c₀.base.turnGain) (hback : 0 < c₀.base.backFactor)
    (hL : 2 * zeroTolerance ≤ L) (hl : 2 * zeroTolerance ≤ L * c₀.base.sideFactor)
    (hpath : ((c₀.setSaturations L A).2.setNavigationPath path).1 = true) (hang : ∀ g ∈ path, |g.angle| ≤ π)
    (hdt : 0 < c₀.dt) (hstep : c₀.dt * (A / (1 + c₀.base.turnGain)) ≤ π) (hact : c₀.deactivationEnd ≤ t) :
    ∃ n s' c' g, navigate c₀.dt n t s ((c₀.setSaturations L A).2.setNavigationPath path).2 = .ok (s', c') ∧ c'.Arrived ∧
      path.getLast? = some g ∧
      (g.position - s'.position).normSq ≤ 2 * c₀.dt ^ 2 * (L ^ 2 + (L * c₀.base.sideFactor) ^ 2) ∧
      ∃ k : ℤ, |g.angle - s'.angle + 2 * π * k| ≤ c₀.dt * (A / (1 + c₀.base.turnGain)) := by
  obtain ⟨hlim, hs⟩ := limits_of_accepted hsat hturn hback hL hl
  simp only [setNavigationPath] at hpath ⊢
  by_cases hlen : path.length < 2
  · simp [hlen] at hpath
  · rw [if_neg hlen]
    have hi : 1 < path.length := by omega
    set c₁ : NavCtrl ℝ := { (c₀.setSaturations L A).2 with path := path, poseIndex := 1, newPath := some true } with hc₁
    have hc : Limits c₁ L (L * c₀.base.sideFactor) (A / (1 + c₀.base.turnGain)) :=
      ⟨hlim.vel, hlim.linear, hlim.lateral, hlim.angular, hlim.turn, hlim.back, hlim.vpos, hlim.lpos, hlim.apos⟩
    obtain ⟨N, hN⟩ := exists_nat_ge (far c₁.base (A / (1 + c₀.base.turnGain)) c₀.dt path[1] s)
    obtain ⟨n, s', c', g, f1, f2, -, f4, f5, f6⟩ := follow hdt hstep path hang (path.length - 2) 1 (by omega) N t s c₁ hc
      rfl hs.dt (le_of_eq_of_le hs.stop hact) (Or.inl ⟨rfl, rfl⟩)
      (by intro g hg; rw [List.getElem?_eq_getElem hi] at hg; cases hg; exact hN)
    exact ⟨n, s', c', g, f1, f2, f4, f5, f6⟩

/-- **C79.** Once arrived the unicycle does not move any more. -/
theorem C79_rests (c : NavCtrl ℝ) (h : c.Arrived) (step : ℝ) (hs : 0 ≤ c.base.maxLinear ∧ 0 ≤ c.base.maxAngular ∧
      0 ≤ c.base.turnGain ∧ 0 ≤ c.base.backFactor ∧ 0 ≤ c.base.sideFactor) (n : Nat) (t : ℝ) (s : UState ℝ) :
    ∃ c', navigate step n t s c = .ok (s, c') ∧ c'.Arrived := by
  have zero : ∀ b : BaseCtrl ℝ, (0 ≤ b.maxLinear ∧ 0 ≤ b.maxAngular ∧ 0 ≤ b.turnGain ∧ 0 ≤ b.backFactor ∧ 0 ≤ b.sideFactor) →
      b.doControl (some ⟨0, 0, 0⟩) = some ⟨0, 0, 0⟩ := by
    rintro b ⟨h1, h2, h3, h4, h5⟩
    have sat : ∀ p n : ℝ, 0 ≤ p → n ≤ 0 → BaseCtrl.saturate 0 p n = 0 := by
      intro p n hp hn
      unfold BaseCtrl.saturate
      split_ifs <;> linarith
    have e1 : BaseCtrl.saturateSym (0 : ℝ) b.maxAngular = 0 := sat _ _ h2 (by linarith)
    have e2 : BaseCtrl.saturateSym (0 : ℝ) (b.sideFactor * b.maxLinear) = 0 :=
      sat _ _ (mul_nonneg h5 h1) (by have := mul_nonneg h5 h1; linarith)
    have hv : 0 ≤ b.velocitySaturation 0 := by
      unfold BaseCtrl.velocitySaturation
      have := mul_nonneg h3 (Real.sqrt_nonneg (0 * 0))
      exact div_nonneg h1 (by rw [sqrt_real]; linarith)
    simp only [BaseCtrl.doControl, Option.map_some, e1, e2]
    rw [sat _ _ hv (by have := mul_nonneg h4 hv; linarith)]
  induction n generalizing t c with
  | zero => exact ⟨c, rfl, h⟩
  | succ n ih =>
    have ha : (c.setFeedback t s).Arrived := h
    obtain ⟨h1, ⟨e, h2, h3⟩, h4, h5⟩ := ha
    have hl : (c.setFeedback t s).path.length ≠ 0 := by simpa using h4
    obtain ⟨c'', e1, e2, e3⟩ : ∃ c'', (c.setFeedback t s).doUnicycleControl = .ok (⟨0, 0, 0⟩, c'') ∧ c''.base = c.base ∧
        c''.Arrived := by
      simp only [doUnicycleControl]
      split_ifs with ht
      · exact ⟨_, rfl, rfl, h⟩
      · simp only [computeDesiredVelocities, nextPose, h1, h2, if_pos h3, ne_eq, hl, not_false_eq_true, true_and,
          if_pos h5, Out.bind_ok]
        exact ⟨_, rfl, rfl, rfl, ⟨e, rfl, h3⟩, h4, h5⟩
    have hz := zero c''.base (by rw [e2]; exact hs)
    have hE : eulerStep step s (⟨0, 0, 0⟩ : Control ℝ) = s := by
      obtain ⟨⟨x, y⟩, th⟩ := s
      simp only [eulerStep, dynamics, mul_zero, sub_zero, add_zero]
      congr 1
      ext <;> simp
    obtain ⟨c', f1, f2⟩ := ih c'' e3 (by rw [e2]; exact hs) (t + step)
    exact ⟨c', by simp [navigate, unicycleStep, e1, hz, hE, f1], f2⟩

/-- Non-vacuity of C79: a new controller, limits of 1 m/s and 1 rad/s, a path of three poses. -/
example : ((new : NavCtrl ℝ).setSaturations 1 1).1 = true ∧
    (((new : NavCtrl ℝ).setSaturations 1 1).2.setNavigationPath [⟨0, 0⟩, ⟨⟨1, 0⟩, 1⟩, ⟨⟨1, 2⟩, -1⟩]).1 = true ∧
    (0 : ℝ) < (new : NavCtrl ℝ).dt ∧ (new : NavCtrl ℝ).dt * (1 / (1 + (new : NavCtrl ℝ).base.turnGain)) ≤ π := by
  refine ⟨?_, ?_, ?_, ?_⟩
  · norm_num [setSaturations, BaseCtrl.setSaturations, new, BaseCtrl.new, BaseCtrl.getSaturationLimits, setMaxVelocities,
      zeroTolerance]
  · simp [setNavigationPath]
  · norm_num [new]
  · have := Real.two_le_pi
    norm_num [new, BaseCtrl.new]
    linarith

end Liveness
end Uni.NavCtrl
