import Verif.Spec.SpeedLimit
import Verif.Lemmas.Motion

/-! # C119: the planned unicycle keeps to the velocity limits -/

set_option autoImplicit false
set_option linter.unusedSectionVars false

namespace Uni
open Spec
namespace Planner

/-! ## One step -/

private theorem sat_range {x p n : ℝ} (hp : 0 ≤ p) (hn : n ≤ 0) : n ≤ BaseCtrl.saturate x p n ∧ BaseCtrl.saturate x p n ≤ p := by
  unfold BaseCtrl.saturate
  split_ifs with h1 h2 h3
  · rcases h1 with h1 | h1 <;> exact absurd h1 (by linarith)
  · exact ⟨hn.trans hp, le_rfl⟩
  · exact ⟨le_rfl, hn.trans hp⟩
  · exact ⟨not_lt.mp h3, not_lt.mp h2⟩

/-- The limits of a command. -/
private theorem command_limits {b : BaseCtrl ℝ} (h1 : 0 ≤ b.maxLinear) (h2 : 0 ≤ b.maxAngular) (h3 : 0 ≤ b.turnGain) (h4 : 0 ≤ b.backFactor)
    (h5 : 0 ≤ b.sideFactor) {raw c : Control ℝ} (h : b.doControl (some raw) = some c) :
    |c.forward| ≤ max 1 b.backFactor * b.maxLinear ∧ |c.lateral| ≤ b.sideFactor * b.maxLinear ∧ |c.angular| ≤ b.maxAngular := by
  simp only [BaseCtrl.doControl, Option.map_some, Option.some.injEq] at h
  subst h
  set w := BaseCtrl.saturateSym raw.angular b.maxAngular with hw
  have hv0 : 0 ≤ b.velocitySaturation w ∧ b.velocitySaturation w ≤ b.maxLinear := by
    unfold BaseCtrl.velocitySaturation
    rw [sqrt_real, Real.sqrt_mul_self_eq_abs]
    have : 0 ≤ b.turnGain * |w| := mul_nonneg h3 (abs_nonneg w)
    exact ⟨div_nonneg h1 (by linarith), div_le_self h1 (by linarith)⟩
  have m1 : b.backFactor * b.velocitySaturation w ≤ max 1 b.backFactor * b.maxLinear :=
    mul_le_mul (le_max_right _ _) hv0.2 hv0.1 (zero_le_one.trans (le_max_left _ _))
  have m2 : b.velocitySaturation w ≤ max 1 b.backFactor * b.maxLinear := by
    have := mul_le_mul (le_max_left 1 b.backFactor) hv0.2 hv0.1 (zero_le_one.trans (le_max_left _ _))
    linarith
  refine ⟨?_, ?_, ?_⟩
  · have := sat_range (x := raw.forward) (p := b.velocitySaturation w) (n := -b.backFactor * b.velocitySaturation w) hv0.1 (by
      rw [neg_mul]; exact neg_nonpos.mpr (mul_nonneg h4 hv0.1))
    rw [abs_le]
    constructor <;> linarith [this.1, this.2]
  · have hs := mul_nonneg h5 h1
    exact abs_le.mpr (sat_range hs (by linarith))
  · exact abs_le.mpr (sat_range h2 (by linarith))

private theorem dist_self (a : Vec2 ℝ) : Spec.dist a a = 0 := by simp [Spec.dist]

theorem dist_triangle (a b c : Vec2 ℝ) : Spec.dist a c ≤ Spec.dist a b + Spec.dist b c := by
  unfold Spec.dist
  have h1 := Real.sqrt_nonneg ((a.x - b.x) ^ 2 + (a.y - b.y) ^ 2)
  have h2 := Real.sqrt_nonneg ((b.x - c.x) ^ 2 + (b.y - c.y) ^ 2)
  have e1 := Real.sq_sqrt (show 0 ≤ (a.x - b.x) ^ 2 + (a.y - b.y) ^ 2 by positivity)
  have e2 := Real.sq_sqrt (show 0 ≤ (b.x - c.x) ^ 2 + (b.y - c.y) ^ 2 by positivity)
  generalize Real.sqrt ((a.x - b.x) ^ 2 + (a.y - b.y) ^ 2) = X at *
  generalize Real.sqrt ((b.x - c.x) ^ 2 + (b.y - c.y) ^ 2) = Y at *
  rw [Real.sqrt_le_left (by linarith)]
  have hcs : (a.x - b.x) * (b.x - c.x) + (a.y - b.y) * (b.y - c.y) ≤ X * Y := by
    refine abs_le_of_sq_le_sq' ?_ (mul_nonneg h1 h2) |>.2
    rw [mul_pow, e1, e2]
    nlinarith [sq_nonneg ((a.x - b.x) * (b.y - c.y) - (a.y - b.y) * (b.x - c.x))]
  nlinarith

private theorem within_trans {v w s s' : ℝ} {a b c : UState ℝ} (h1 : InReach v w s a b) (h2 : InReach v w s' b c) :
    InReach v w (s + s') a c := by
  refine ⟨(dist_triangle c.position b.position a.position).trans ?_, ?_⟩
  · rw [mul_add]; linarith [h1.1, h2.1]
  · have := abs_add_le (c.angle - b.angle) (b.angle - a.angle)
    rw [show c.angle - b.angle + (b.angle - a.angle) = c.angle - a.angle by ring] at this
    rw [mul_add]; linarith [h1.2, h2.2]

/-- One integration step. -/
private theorem step_within {V S W x : ℝ} (hx : 0 ≤ x) {c : Control ℝ} (h1 : |c.forward| ≤ V) (h2 : |c.lateral| ≤ S) (h3 : |c.angular| ≤ W)
    (u : UState ℝ) : InReach (Real.sqrt (V ^ 2 + S ^ 2)) W x u (eulerStep x u c) := by
  have hsc := Real.sin_sq_add_cos_sq u.angle
  constructor
  · have e : Spec.dist (eulerStep x u c).position u.position = Real.sqrt (c.forward ^ 2 + c.lateral ^ 2) * x := by
      have hxs : x = Real.sqrt (x ^ 2) := (Real.sqrt_sq hx).symm
      conv_rhs => rw [hxs, ← Real.sqrt_mul (by positivity)]
      unfold Spec.dist eulerStep dynamics
      congr 1
      simp only [Vec2.add_x, Vec2.add_y, Vec2.smul_x, Vec2.smul_y, cos_real, sin_real, add_sub_cancel_left]
      linear_combination (x ^ 2 * (c.forward ^ 2 + c.lateral ^ 2)) * hsc
    rw [e]
    refine mul_le_mul_of_nonneg_right (Real.sqrt_le_sqrt ?_) hx
    have a1 := sq_le_sq' (abs_le.mp h1).1 (abs_le.mp h1).2
    have a2 := sq_le_sq' (abs_le.mp h2).1 (abs_le.mp h2).2
    linarith
  · have : (eulerStep x u c).angle - u.angle = c.angular * x := by
      unfold eulerStep dynamics
      simp only
      ring
    rw [this, abs_mul, abs_of_nonneg hx]
    exact mul_le_mul_of_nonneg_right h3 hx

/-- Several integration steps. -/
private theorem trajectory_within {V S W : ℝ} {f : ℝ → UState ℝ → Option (Control ℝ)}
    (hf : ∀ t s c, f t s = some c → |c.forward| ≤ V ∧ |c.lateral| ≤ S ∧ |c.angular| ≤ W) :
    ∀ (ds : List ℝ) (t : ℝ) (u : UState ℝ) (l : List (UState ℝ)), (∀ x ∈ ds, 0 ≤ x) → trajectory f ds t u = some l →
    ∀ (i : Nat) (s : UState ℝ), l[i]? = some s → InReach (Real.sqrt (V ^ 2 + S ^ 2)) W (ds.take i).sum u s
  | [], t, u, l, _, h, i, s, hs => by
    cases h
    cases i with
    | zero =>
      cases hs
      simp [InReach, dist_self]
    | succ i => simp at hs
  | x :: ds, t, u, l, hds, h, i, s, hs => by
    simp only [trajectory, Option.bind_eq_some_iff, Option.map_eq_some_iff] at h
    obtain ⟨c, hc, l', h2, rfl⟩ := h
    cases i with
    | zero =>
      cases hs
      simp [InReach, dist_self]
    | succ i =>
      obtain ⟨a1, a2, a3⟩ := hf t u c hc
      rw [List.take_succ_cons, List.sum_cons]
      exact within_trans (step_within (hds x List.mem_cons_self) a1 a2 a3 u)
        (trajectory_within hf ds _ _ l' (fun y hy => hds y (List.mem_cons_of_mem _ hy)) h2 i s (by simpa using hs))

/-! ## The planned motion -/

variable {p p' : Planner ℝ} {integ : Integrator ℝ} {fuel : Nat} {durations : ℝ → ℝ → List ℝ} {garbage : ℝ} {left right left' right' : FootPrint ℝ} {t0 t1 : ℝ} {d : Plan ℝ}

/-- C119: whatever the commands or the desired points, between any two instants of a plan the unicycle moves and turns at most as far
as the limits that come from the configuration of the planner allow, up to one integration step; it starts from its initial
state. -/
theorem C119_motion (hg : Limited p) (hs : FixedStep durations) (hh : 0 < p.integratorStep)
    (hi : ∀ q u a b, q.controller = p.controller → (∃ f, (euler durations garbage q u a b).2 = some f) →
      integ q u a b = euler durations garbage q u a b)
    (hd : PlanOf p integ left right t0 t1 left' right' d) :
    (∃ u, InitialState p (leftFoot p left) (rightFoot p right) t0 left.steps.getLast? right.steps.getLast? u ∧ d.sol t0 = u) ∧
    ∀ σ τ, t0 ≤ σ → σ ≤ τ → τ ≤ t1 → InReach (topSpeed p) (turnLimit p) (τ - σ + p.integratorStep) (d.sol σ) (d.sol τ) := by
  obtain ⟨c0, u, hu, hprep, hint⟩ := hd.begins.integrated
  have ht0 := hd.begins.nonneg
  have hsorted := prepared_ordered hg.ordered hprep
  have hq := hd.begins.eq
  have qc : d.q.controller = p.controller := by rw [hq]
  obtain ⟨traj, -, -, hc0⟩ := id hprep
  have hok : ∀ t s, t0 ≤ t → ∃ c, controlAt { d.q with ctrl := c0 } garbage t s = some c := by
    intro t s ht
    cases hc : p.controller with
    | navigation => exact absurd hc hg.controller
    | direct =>
      have e : d.q.controller = .direct := qc.trans hc
      simp only [controlAt, e, DirectCtrl.control, DirectCtrl.setFeedback, DirectCtrl.doUnicycleControl, BaseCtrl.doControl]
      by_cases ht : t < c0.direct.deactivationEnd <;> simp [ht]
    | personFollowing =>
      obtain ⟨z, hz, hzt⟩ := reached_point hc ht0 hu hprep
      obtain ⟨y, yDot, e, -⟩ := served hsorted hz (ht0.trans ht) (hzt.trans ht)
      exact control_served (q := { d.q with ctrl := c0 }) (qc.trans hc) garbage t s e
  obtain ⟨n, r, l, r2, r3, r4, l1, l2, hsol⟩ := integrated_motion hs hh hd (hi { d.q with ctrl := c0 } u t0 t1 qc) hint hok
  have hlim : ∀ t s c, controlAt { d.q with ctrl := c0 } garbage t s = some c →
      |c.forward| ≤ max 1 (baseOf p).backFactor * speedLimit p ∧ |c.lateral| ≤ (baseOf p).sideFactor * speedLimit p ∧
        |c.angular| ≤ turnLimit p := by
    intro t s c h
    have g := hg
    cases hc : p.controller with
    | navigation => exact absurd hc hg.controller
    | direct =>
      have e : d.q.controller = .direct := qc.trans hc
      have eb : baseOf p = p.ctrl.directBase := by simp only [baseOf, hc]
      have e2 : c0.directBase = limited p p.ctrl.directBase := by rw [hc0]
      simp only [controlAt, e, DirectCtrl.control, e2] at h
      rw [eb]
      obtain ⟨-, a1, a2, a3, a4, a5, -⟩ := hg
      rw [eb] at a3 a4 a5
      cases hraw : (c0.direct.setFeedback t).doUnicycleControl with
      | some raw =>
        rw [hraw] at h
        exact command_limits (b := limited p p.ctrl.directBase) a1 a2 a3 a4 a5 h
      | none => rw [hraw] at h; cases h
    | personFollowing =>
      have e : d.q.controller = .personFollowing := qc.trans hc
      have eb : baseOf p = p.ctrl.person.base := by simp only [baseOf, hc]
      have e2 : c0.person.base = limited p p.ctrl.person.base := by rw [hc0]
      simp only [controlAt, e, e2] at h
      rw [eb]
      obtain ⟨-, a1, a2, a3, a4, a5, -⟩ := hg
      rw [eb] at a3 a4 a5
      cases hraw : (c0.person.setFeedback t s.position s.angle).doUnicycleControl garbage with
      | ok raw =>
        rw [hraw] at h
        exact command_limits (b := limited p p.ctrl.person.base) a1 a2 a3 a4 a5 h
      | fail => rw [hraw] at h; cases h
      | ub w => rw [hraw] at h; cases h
  set ds := List.replicate n p.integratorStep ++ [r] with hds
  have hdl : ds.length = n + 1 := by simp [hds]
  have hpos : ∀ x ∈ ds, 0 ≤ x := by
    intro x hx
    rcases List.mem_append.mp hx with hx | hx
    · rw [List.eq_of_mem_replicate hx]; exact hh.le
    · rw [List.mem_singleton.mp hx]; exact r2.le
  refine ⟨⟨u, hu, ?_⟩, fun σ τ h1 h2 h3 => ?_⟩
  · obtain ⟨s, s1, -⟩ := trajectory_drop 0 ds t0 u l l1 (Nat.zero_le _)
    have hs0 : s = u := by
      cases hds' : ds with
      | nil => rw [hds'] at l1; cases l1; simpa using s1.symm
      | cons x xs =>
        rw [hds'] at l1
        simp only [trajectory, Option.bind_eq_some_iff, Option.map_eq_some_iff] at l1
        obtain ⟨c, -, l', -, rfl⟩ := l1
        simpa using s1.symm
    have e0 : (stdRound ((t0 - t0) / p.integratorStep)).toNat = 0 := by
      rw [sub_self, zero_div]
      have : ⌊(1 / 2 : ℝ)⌋ = 0 := by norm_num
      unfold stdRound
      rw [if_pos le_rfl, zero_add, this]
      rfl
    rw [hsol t0, e0, Nat.zero_min, List.getD_eq_getElem?_getD, s1, hs0]
    rfl
  · set i := min (stdRound ((σ - t0) / p.integratorStep)).toNat (n + 1) with hidef
    set j := min (stdRound ((τ - t0) / p.integratorStep)).toNat (n + 1) with hjdef
    have hij : i ≤ j := sample_mono hh h1 h2 _
    have hin : i ≤ n + 1 := min_le_right _ _
    have hjn : j ≤ n + 1 := min_le_right _ _
    have near1 := nearest hh r2 r3 r4 h1 (h2.trans h3)
    have near2 := nearest hh r2 r3 r4 (h1.trans h2) h3
    rw [← hidef, ← hds, abs_le] at near1
    rw [← hjdef, ← hds, abs_le] at near2
    obtain ⟨s, s1, s2⟩ := trajectory_drop i ds t0 u l l1 (by omega)
    obtain ⟨s', s1', -⟩ := trajectory_drop j ds t0 u l l1 (by omega)
    have es : d.sol σ = s := by rw [hsol σ, ← hidef, List.getD_eq_getElem?_getD, s1]; rfl
    have es' : d.sol τ = s' := by rw [hsol τ, ← hjdef, List.getD_eq_getElem?_getD, s1']; rfl
    have key := trajectory_within hlim (ds.drop i) _ s (l.drop i) (fun x hx => hpos x (List.mem_of_mem_drop hx)) s2 (j - i) s' (by
      rw [List.getElem?_drop, show i + (j - i) = j by omega, s1'])
    rw [instant_drop i ds t0 (j - i) (by omega), show i + (j - i) = j by omega] at key
    rw [es, es']
    have hle : instant ds t0 j - instant ds t0 i ≤ τ - σ + p.integratorStep := by linarith [near1.1, near2.2]
    exact ⟨key.1.trans (mul_le_mul_of_nonneg_left hle (Real.sqrt_nonneg _)), key.2.trans (mul_le_mul_of_nonneg_left hle hg.angular)⟩

/-- C119: from the initial state to every step that is decided, and from one such step to any later one, the unicycle to which the
foot belongs moves and turns at most as far as the limits allow in the time between the landings and one integration step. -/
theorem C119_landings (hp : Timed p) (hL : NonNeg left) (hR : NonNeg right) (hg : Limited p) (hs : FixedStep durations)
    (hh : 0 < p.integratorStep)
    (hi : ∀ q u a b, q.controller = p.controller → (∃ f, (euler durations garbage q u a b).2 = some f) →
      integ q u a b = euler durations garbage q u a b)
    (h : p.computeNewSteps integ fuel left right t0 t1 = .done true p' left' right') :
    ∃ d u, PlanOf p integ left right t0 t1 left' right' d ∧
      InitialState p (leftFoot p left) (rightFoot p right) t0 left.steps.getLast? right.steps.getLast? u ∧
      ∀ e ∈ d.log, e.kind = .optimised →
        InReach (topSpeed p) (turnLimit p) (e.step.impactTime - t0 + p.integratorStep) u
          (stateFor (if e.left then leftFoot p left else rightFoot p right) e.step) ∧
        ∀ e' ∈ d.log, e'.kind = .optimised → e.step.impactTime ≤ e'.step.impactTime →
          InReach (topSpeed p) (turnLimit p) (e'.step.impactTime - e.step.impactTime + p.integratorStep)
            (stateFor (if e.left then leftFoot p left else rightFoot p right) e.step)
            (stateFor (if e'.left then leftFoot p left else rightFoot p right) e'.step) := by
  obtain ⟨d, hd⟩ := exists_plan hp hL hR h
  obtain ⟨⟨u, hu, hu0⟩, hw⟩ := C119_motion hg hs hh hi hd
  refine ⟨d, u, hd, hu, fun e he hk => ?_⟩
  obtain ⟨a1, a2, a3⟩ := landing_state hp hd he hk
  rw [a1]
  refine ⟨by rw [← hu0]; exact hw _ _ le_rfl a2 a3, fun e' he' hk' hle => ?_⟩
  obtain ⟨b1, -, b3⟩ := landing_state hp hd he' hk'
  rw [b1]
  exact hw _ _ a2 hle b3

/-- Non-vacuity of C119: the default planner with any command, however fast; the limits are those of the configuration. -/
example (v : Control ℝ) : Limited (drivenDemo v) ∧ topSpeed (drivenDemo v) ≤ 71 / 1000 ∧ ∃ d l' r', PlanOf (drivenDemo v) drivenInteg
      ⟨[⟨⟨0, 7 / 100⟩, 0, 0, "left"⟩], "left"⟩ ⟨[⟨⟨0, -7 / 100⟩, 0, 0, "right"⟩], "right"⟩ 0 20 l' r' d ∧
      InReach (71 / 1000) (turnLimit (drivenDemo v)) (10 + 1 / 100) (d.sol 5) (d.sol 15) := by
  have hpi := Real.pi_pos
  have hspeed : 0 ≤ speedLimit (drivenDemo v) ∧ speedLimit (drivenDemo v) ≤ 5 / 100 := by
    simp only [speedLimit, drivenDemo, realDemo, Planner.new, sqrt_real]
    have h2 : Real.sqrt ((1 / 5 : ℝ) ^ 2 - (7 / 50) ^ 2) ≤ 15 / 100 := by rw [Real.sqrt_le_left (by norm_num)]; norm_num
    constructor
    · positivity
    · linarith
  have hb : baseOf (drivenDemo v) = BaseCtrl.new := rfl
  have hlim : Limited (drivenDemo v) := by
    refine ⟨by simp [drivenDemo, realDemo], hspeed.1, ?_, ?_, ?_, ?_, ?_⟩
    · simp only [turnLimit, drivenDemo, realDemo, Planner.new, deg2rad, pi_real]
      positivity
    · rw [hb]; simp [BaseCtrl.new]
    · rw [hb]; simp [BaseCtrl.new]
    · rw [hb]; simp [BaseCtrl.new]
    · simp [drivenDemo, realDemo, Planner.new, PersonCtrl.new, InTimeOrder]
  have htop : topSpeed (drivenDemo v) ≤ 71 / 1000 := by
    unfold topSpeed
    rw [hb, Real.sqrt_le_left (by norm_num)]
    simp only [BaseCtrl.new, max_self, one_mul]
    nlinarith [hspeed.1, hspeed.2]
  obtain ⟨fuel, p', l', r', h⟩ := drivenDemo_plans v "left" "right"
  have n1 : NonNeg (⟨[⟨⟨0, 7 / 100⟩, 0, 0, "left"⟩], "left"⟩ : FootPrint ℝ) := by
    intro s hs; simp only [List.mem_singleton] at hs; rw [hs]
  have n2 : NonNeg (⟨[⟨⟨0, -7 / 100⟩, 0, 0, "right"⟩], "right"⟩ : FootPrint ℝ) := by
    intro s hs; simp only [List.mem_singleton] at hs; rw [hs]
  obtain ⟨d, hd⟩ := exists_plan (drivenDemo_timed v) n1 n2 h
  have hst : (drivenDemo v).integratorStep = 1 / 100 := by simp [drivenDemo, realDemo, Planner.new]
  obtain ⟨-, hw⟩ := C119_motion hlim uniformSteps_fixed (by rw [hst]; norm_num)
    (fun q u a b hq _ => drivenInteg_direct q u a b (hq.trans rfl)) hd
  have := hw 5 15 (by norm_num) (by norm_num) (by norm_num)
  rw [hst] at this
  refine ⟨hlim, htop, d, l', r', hd, ?_, ?_⟩
  · refine this.1.trans ?_
    norm_num at htop ⊢
    linarith
  · refine this.2.trans (le_of_eq ?_)
    norm_num

end Planner
end Uni
