import Verif.Props.SpeedLimit

/-! # C118: the robot walks to the person -/

set_option autoImplicit false
set_option linter.unusedSectionVars false

namespace Uni
open Spec
namespace Planner

variable {p p' : Planner ℝ} {integ : Integrator ℝ} {fuel : Nat} {durations : ℝ → ℝ → List ℝ} {garbage : ℝ} {left right left' right' : FootPrint ℝ} {t0 t1 T : ℝ} {d : Plan ℝ} {target : Vec2 ℝ}

/-- C118: once the person is to be at the target, the point the unicycle carries approaches the target exponentially fast along
the whole planned motion, up to an integration step, and never moves away from it. -/
theorem C118_motion (hg : GoesTo p target T t0) (hs : FixedStep durations) (hh : 0 < p.integratorStep)
    (hi : ∀ q u a b, q.controller = .personFollowing → (∃ f, (euler durations garbage q u a b).2 = some f) →
      integ q u a b = euler durations garbage q u a b)
    (hd : PlanOf p integ left right t0 t1 left' right' d) (σ τ : ℝ) (h1 : T + p.integratorStep / 2 ≤ σ) (h2 : σ ≤ τ) (h3 : τ ≤ t1)
    (hsh : Short p.ctrl.person.gain p.ctrl.person.personDistance.x (offBy p.ctrl.person.personDistance target (d.sol σ))
      p.integratorStep) :
    offBy p.ctrl.person.personDistance target (d.sol τ) ≤ offBy p.ctrl.person.personDistance target (d.sol σ) ∧
      offBy p.ctrl.person.personDistance target (d.sol τ) ^ 2 ≤
        Real.exp (-(p.ctrl.person.gain * effective (limited p p.ctrl.person.base) p.ctrl.person.gain p.ctrl.person.personDistance.x
          (offBy p.ctrl.person.personDistance target (d.sol σ)) / 6 * (τ - σ - p.integratorStep))) *
        offBy p.ctrl.person.personDistance target (d.sol σ) ^ 2 := by
  obtain ⟨c0, u, hu, hprep, hint⟩ := hd.begins.integrated
  have hsorted := prepared_ordered hg.ordered hprep
  obtain ⟨traj, tp, -, hc0⟩ := id hprep
  have ht0 := hd.begins.nonneg
  have hpt : c0.person.traj = traj := by rw [hc0]
  obtain ⟨x, hx, hxT⟩ := hg.wanted
  have hx' : x ∈ c0.person.traj := by
    rw [hpt]; exact tp.symm.subset (List.mem_append_left _ hx)
  -- from `T` on there is nothing but the target
  have honly : ∀ z ∈ c0.person.traj, x.initTime ≤ z.initTime → z.y = target ∧ z.yDot = 0 := by
    intro z hz hle
    rw [hpt] at hz
    rw [hxT] at hle
    rcases List.mem_append.mp (tp.subset hz) with hz | hz
    · exact hg.fixed z hz hle
    · exfalso
      have e1 := hg.later
      have e2 := hg.afterHold
      split_ifs at hz
      · simp only [List.mem_cons, List.not_mem_nil, or_false] at hz
        rcases hz with rfl | rfl
        · exact absurd hle (not_le.mpr e1)
        · exact absurd hle (not_le.mpr e2)
      · simp only [List.mem_singleton] at hz
        subst hz
        exact absurd hle (not_le.mpr e1)
      · cases hz
  have hfix : ∀ t, T ≤ t → c0.person.getDesiredPoint t = .ok (target, 0) := by
    intro t ht
    obtain ⟨y, yDot, e, hA⟩ := served hsorted hx' (by linarith [hg.later]) (by rw [hxT]; exact ht)
    obtain ⟨rfl, rfl⟩ := hA target honly
    exact e
  obtain ⟨z, hz, hzt⟩ := reached_point hg.controller ht0 hu hprep
  obtain ⟨n, r, l, r2, r3, r4, l1, l2, hsol⟩ := planned_motion hg.controller hs hh hi hd hint (fun t ht => by
    obtain ⟨y, yDot, e, -⟩ := served hsorted hz (ht0.trans ht) (hzt.trans ht)
    exact ⟨_, e⟩)
  set ds := List.replicate n p.integratorStep ++ [r] with hds
  have hdl : ds.length = n + 1 := by simp [hds]
  have hst : t0 ≤ σ := by linarith [hg.later]
  set i := min (stdRound ((σ - t0) / p.integratorStep)).toNat (n + 1) with hidef
  set j := min (stdRound ((τ - t0) / p.integratorStep)).toNat (n + 1) with hjdef
  have hij : i ≤ j := sample_mono hh hst h2 _
  have hin : i ≤ n + 1 := min_le_right _ _
  have hjn : j ≤ n + 1 := min_le_right _ _
  have near1 := nearest hh r2 r3 r4 hst (h2.trans h3)
  have near2 := nearest hh r2 r3 r4 (hst.trans h2) h3
  rw [← hidef, ← hds, abs_le] at near1
  rw [← hjdef, ← hds, abs_le] at near2
  obtain ⟨s, s1, s2⟩ := trajectory_drop i ds t0 u l l1 (by omega)
  have es : d.sol σ = s := by rw [hsol σ, ← hidef, List.getD_eq_getElem?_getD, s1]; rfl
  have hF : Follows { d.q with ctrl := c0 } target (instant ds t0 i) :=
    { controller := by rw [hd.begins.eq]; exact hg.controller
      ahead := by show 0 < c0.person.personDistance.x; rw [hc0]; exact hg.ahead
      straight := by show c0.person.personDistance.y = 0; rw [hc0]; exact hg.straight
      gain := by show 0 < c0.person.gain; rw [hc0]; exact hg.gain
      linear := by show 0 < c0.person.base.maxLinear; rw [hc0]; exact hg.linear
      angular := by show 0 < c0.person.base.maxAngular; rw [hc0]; exact hg.angular
      turn := by show 0 ≤ c0.person.base.turnGain; rw [hc0]; exact hg.turn
      back := by show 0 < c0.person.base.backFactor; rw [hc0]; exact hg.back
      free := by
        have := hg.free
        simp only [hc0]
        exact this
      fixed := fun t ht => hfix t (by linarith [near1.1]) }
  have k1 : c0.person.gain = p.ctrl.person.gain := by rw [hc0]
  have k2 : c0.person.personDistance = p.ctrl.person.personDistance := by rw [hc0]
  have k3 : c0.person.base = limited p p.ctrl.person.base := by rw [hc0]
  obtain ⟨l', m1, m2, m3⟩ := Follow.C96_converges { d.q with ctrl := c0 } garbage target (ds.drop i) (instant ds t0 i) s hF (by
    intro x hx
    show Short c0.person.gain c0.person.personDistance.x (offBy c0.person.personDistance target s) x
    rw [k1, k2, ← es]
    have hxx : 0 ≤ x ∧ x ≤ p.integratorStep := by
      rcases List.mem_append.mp (List.mem_of_mem_drop hx) with hx | hx
      · rw [List.eq_of_mem_replicate hx]; exact ⟨hh.le, le_rfl⟩
      · rw [List.mem_singleton.mp hx]; exact ⟨r2.le, r3⟩
    have hk := hg.gain.le
    have ho : 0 ≤ offBy p.ctrl.person.personDistance target (d.sol σ) := Real.sqrt_nonneg _
    refine ⟨hxx.1, (mul_le_mul_of_nonneg_right hxx.2 hk).trans hsh.2.1, le_trans ?_ hsh.2.2⟩
    exact mul_le_mul_of_nonneg_right (mul_le_mul_of_nonneg_right hxx.2 hk) ho)
  rw [s2] at m1
  obtain rfl := Option.some.inj m1
  have hjl : j - i < (l.drop i).length := by rw [List.length_drop, l2]; omega
  obtain ⟨q1, q2⟩ := m3 (j - i) hjl
  have et : (l.drop i)[j - i] = d.sol τ := by
    rw [hsol τ, ← hjdef, List.getElem_drop, List.getD_eq_getElem?_getD, List.getElem?_eq_getElem (by omega)]
    simp only [Option.getD_some]
    congr 1
    omega
  rw [et] at q1 q2
  change offBy c0.person.personDistance target (d.sol τ) ≤ offBy c0.person.personDistance target s at q1
  change offBy c0.person.personDistance target (d.sol τ) ^ 2 ≤ Real.exp (-(c0.person.gain * effective c0.person.base c0.person.gain
    c0.person.personDistance.x (offBy c0.person.personDistance target s) / 6 * ((ds.drop i).take (j - i)).sum)) *
      offBy c0.person.personDistance target s ^ 2 at q2
  rw [instant_drop i ds t0 (j - i) (by omega), show i + (j - i) = j by omega] at q2
  rw [k1, k2, k3, ← es] at q2
  rw [k2, ← es] at q1
  refine ⟨q1, q2.trans (mul_le_mul_of_nonneg_right (Real.exp_le_exp.mpr ?_) (sq_nonneg _))⟩
  have hα := Follow.effective_nonneg { d.q with ctrl := c0 } target (instant ds t0 i) (offBy p.ctrl.person.personDistance target (d.sol σ)) hF
    (Real.sqrt_nonneg _)
  change 0 ≤ effective c0.person.base c0.person.gain c0.person.personDistance.x _ at hα
  rw [k1, k2, k3] at hα
  have hκ := div_nonneg (mul_nonneg hg.gain.le hα) (by norm_num : (0 : ℝ) ≤ 6)
  exact neg_le_neg (mul_le_mul_of_nonneg_left (by linarith [near1.2, near2.1]) hκ)

/-- C118: with a person to follow, every step that is decided after the person is to be at the target puts the foot beside a pose of
the unicycle from which the person is met up to a distance; from one such step to any later one this distance never grows, and
decreases exponentially with the time between the landings. -/
theorem C118_landings (hp : Timed p) (hL : NonNeg left) (hR : NonNeg right) (hg : GoesTo p target T t0) (hs : FixedStep durations)
    (hh : 0 < p.integratorStep)
    (hi : ∀ q u a b, q.controller = .personFollowing → (∃ f, (euler durations garbage q u a b).2 = some f) →
      integ q u a b = euler durations garbage q u a b)
    (h : p.computeNewSteps integ fuel left right t0 t1 = .done true p' left' right') :
    ∃ d, PlanOf p integ left right t0 t1 left' right' d ∧ ∀ e ∈ d.log, ∀ e' ∈ d.log, e.kind = .optimised → e'.kind = .optimised →
      T + p.integratorStep / 2 ≤ e.step.impactTime → e.step.impactTime ≤ e'.step.impactTime →
      Short p.ctrl.person.gain p.ctrl.person.personDistance.x (offAt p left right target e) p.integratorStep →
      offAt p left right target e' ≤ offAt p left right target e ∧
      offAt p left right target e' ^ 2 ≤ Real.exp (-(p.ctrl.person.gain * effective (limited p p.ctrl.person.base)
        p.ctrl.person.gain p.ctrl.person.personDistance.x (offAt p left right target e) / 6 *
        (e'.step.impactTime - e.step.impactTime - p.integratorStep))) * offAt p left right target e ^ 2 := by
  obtain ⟨d, hd⟩ := exists_plan hp hL hR h
  refine ⟨d, hd, fun e he e' he' hk hk' h1 h2 hsh => ?_⟩
  obtain ⟨a1, -, -⟩ := landing_state hp hd he hk
  obtain ⟨b1, -, b3⟩ := landing_state hp hd he' hk'
  unfold offAt at hsh ⊢
  rw [a1] at hsh ⊢
  rw [b1]
  exact C118_motion hg hs hh hi hd _ _ h1 h2 b3 hsh

private theorem effective_anti {p : Planner ℝ} {r R : ℝ} (hg : GoesTo p target T t0) (h0 : 0 < r) (h : r ≤ R) :
    effective (limited p p.ctrl.person.base) p.ctrl.person.gain p.ctrl.person.personDistance.x R ≤
      effective (limited p p.ctrl.person.base) p.ctrl.person.gain p.ctrl.person.personDistance.x r := by
  have a1 := hg.angular
  have a2 := hg.linear
  have a3 := hg.turn
  have a4 := hg.ahead
  have a5 := hg.gain
  have a6 := (lt_min one_pos hg.back).le
  unfold effective
  refine min_le_min le_rfl (min_le_min ?_ ?_)
  · refine div_le_div_of_nonneg_left ?_ (by positivity) (mul_le_mul_of_nonneg_left h a5.le)
    show 0 ≤ min 1 p.ctrl.person.base.backFactor * (speedLimit p / (1 + p.ctrl.person.base.turnGain * turnLimit p))
    positivity
  · refine div_le_div_of_nonneg_left ?_ (by positivity) (mul_le_mul_of_nonneg_left h a5.le)
    show 0 ≤ turnLimit p * p.ctrl.person.personDistance.x
    positivity

/-- The followed point is ahead of the unicycle. -/
private theorem off_bound {d : Vec2 ℝ} (h0 : 0 ≤ d.x) (h1 : d.y = 0) (y : Vec2 ℝ) (s u : UState ℝ) :
    offBy d y s ≤ d.x + Spec.dist s.position u.position + Spec.dist u.position y := by
  have e : Spec.dist (inFrame s.position s.angle d) s.position = d.x := by
    have hsc := Real.sin_sq_add_cos_sq s.angle
    unfold Spec.dist inFrame
    rw [h1, show (s.position.x + Real.cos s.angle * d.x - Real.sin s.angle * 0 - s.position.x) ^ 2 +
      (s.position.y + Real.sin s.angle * d.x + Real.cos s.angle * 0 - s.position.y) ^ 2 = d.x ^ 2 by
        linear_combination (d.x ^ 2) * hsc]
    exact Real.sqrt_sq h0
  have t1 := dist_triangle (inFrame s.position s.angle d) s.position y
  have t2 := dist_triangle s.position u.position y
  unfold offBy
  linarith

/-- C118: what this means for a plan of which nothing but the initial state is known: the point the unicycle carries is as close to
the target as wanted, if there is enough time after the person is to be there. -/
theorem C118_reach (hg : GoesTo p target T t0) (hside : 0 ≤ p.ctrl.person.base.sideFactor) (hs : FixedStep durations)
    (hh : 0 < p.integratorStep)
    (hi : ∀ q u a b, q.controller = .personFollowing → (∃ f, (euler durations garbage q u a b).2 = some f) →
      integ q u a b = euler durations garbage q u a b)
    (hd : PlanOf p integ left right t0 t1 left' right' d) :
    ∃ u, InitialState p (leftFoot p left) (rightFoot p right) t0 left.steps.getLast? right.steps.getLast? u ∧
      ∀ R, R = p.ctrl.person.personDistance.x + topSpeed p * (T - t0 + 3 / 2 * p.integratorStep) + Spec.dist u.position target →
      Short p.ctrl.person.gain p.ctrl.person.personDistance.x R p.integratorStep →
      ∀ τ, T + p.integratorStep / 2 ≤ τ → τ ≤ t1 → offBy p.ctrl.person.personDistance target (d.sol τ) ^ 2 ≤
        Real.exp (-(p.ctrl.person.gain * effective (limited p p.ctrl.person.base) p.ctrl.person.gain
          p.ctrl.person.personDistance.x R / 6 * (τ - T - 3 / 2 * p.integratorStep))) * R ^ 2 := by
  have hb : baseOf p = p.ctrl.person.base := by simp only [baseOf, hg.controller]
  obtain ⟨⟨u, hu, hu0⟩, hw⟩ := C119_motion (p := p)
    ⟨by rw [hg.controller]; simp, hg.linear.le, hg.angular.le, by rw [hb]; exact hg.turn, by rw [hb]; exact hg.back.le,
      by rw [hb]; exact hside, hg.ordered⟩ hs hh (by rw [hg.controller]; exact hi) hd
  refine ⟨u, hu, fun R hR hsh τ h1 h2 => ?_⟩
  set σ := T + p.integratorStep / 2 with hσ
  have hst : t0 ≤ σ := by linarith [hg.later]
  have hoff : offBy p.ctrl.person.personDistance target (d.sol σ) ≤ R := by
    have := off_bound hg.ahead.le hg.straight target (d.sol σ) u
    have h3 := (hw t0 σ le_rfl hst (h1.trans h2)).1
    rw [hu0, show σ - t0 + p.integratorStep = T - t0 + 3 / 2 * p.integratorStep by rw [hσ]; ring] at h3
    linarith
  have hoff0 : 0 ≤ offBy p.ctrl.person.personDistance target (d.sol σ) := Real.sqrt_nonneg _
  have hk := hg.gain
  obtain ⟨q1, q2⟩ := C118_motion hg hs hh hi hd σ τ le_rfl h1 h2
    ⟨hsh.1, hsh.2.1, (mul_le_mul_of_nonneg_left hoff (mul_nonneg hh.le hk.le)).trans hsh.2.2⟩
  rw [show τ - σ - p.integratorStep = τ - T - 3 / 2 * p.integratorStep by rw [hσ]; ring] at q2
  rcases hoff0.eq_or_lt with h0 | h0
  · rw [← h0] at q1
    have : offBy p.ctrl.person.personDistance target (d.sol τ) = 0 := le_antisymm q1 (Real.sqrt_nonneg _)
    rw [this, zero_pow two_ne_zero]
    positivity
  · rcases le_total 0 (τ - T - 3 / 2 * p.integratorStep) with hpos | hneg
    · refine q2.trans (mul_le_mul (Real.exp_le_exp.mpr (neg_le_neg ?_)) (pow_le_pow_left₀ hoff0 hoff 2) (sq_nonneg _) (Real.exp_pos _).le)
      refine mul_le_mul_of_nonneg_right (div_le_div_of_nonneg_right ?_ (by norm_num)) hpos
      exact mul_le_mul_of_nonneg_left (effective_anti hg h0 hoff) hk.le
    · have hR0 : 0 ≤ R := hoff0.trans hoff
      have hE : 0 ≤ effective (limited p p.ctrl.person.base) p.ctrl.person.gain p.ctrl.person.personDistance.x R := by
        have a1 := hg.angular
        have a2 := hg.linear
        have a3 := hg.turn
        have a4 := hg.ahead
        have a6 := (lt_min one_pos hg.back).le
        have e1 : 0 ≤ min 1 p.ctrl.person.base.backFactor * (speedLimit p / (1 + p.ctrl.person.base.turnGain * turnLimit p)) := by
          positivity
        have e2 : 0 ≤ turnLimit p * p.ctrl.person.personDistance.x := by positivity
        exact le_min zero_le_one (le_min (div_nonneg e1 (by positivity)) (div_nonneg e2 (by positivity)))
      have h4 : offBy p.ctrl.person.personDistance target (d.sol τ) ^ 2 ≤ R ^ 2 :=
        pow_le_pow_left₀ (Real.sqrt_nonneg _) (q1.trans hoff) 2
      refine h4.trans (le_mul_of_one_le_left (sq_nonneg _) (Real.one_le_exp ?_))
      have := mul_nonneg (div_nonneg (mul_nonneg hk.le hE) (by norm_num : (0 : ℝ) ≤ 6)) (neg_nonneg.mpr hneg)
      linarith

/-! ## A point whose time has passed -/

private theorem saturate_zero {p n : ℝ} (h1 : n ≤ 0) (h2 : 0 ≤ p) : BaseCtrl.saturate 0 p n = 0 := BaseCtrl.C08_identity 0 p n h1 h2

/-- With the person at the reference, which is at rest, the unicycle is told to stay. -/
private theorem control_met {q : Planner ℝ} (hq : q.controller = .personFollowing) (g t : ℝ) (s : UState ℝ)
    (hdes : q.ctrl.person.getDesiredPoint t = .ok (q.ctrl.person.getPersonPosition s.position s.angle, 0))
    (hf : Unhindered q.ctrl.person (q.ctrl.person.getPersonPosition s.position s.angle))
    (h1 : 0 ≤ q.ctrl.person.base.maxLinear) (h2 : 0 ≤ q.ctrl.person.base.maxAngular) (h3 : 0 ≤ q.ctrl.person.base.turnGain)
    (h4 : 0 ≤ q.ctrl.person.base.backFactor) (h5 : 0 ≤ q.ctrl.person.base.sideFactor) : q.controlAt g t s = some ⟨0, 0, 0⟩ := by
  set y := q.ctrl.person.getPersonPosition s.position s.angle with hy
  have href : ∀ g, (q.ctrl.person.setFeedback t s.position s.angle).referenceInEllipse g s.position s.angle y = y := by
    intro g
    rcases hf with ⟨h1, h2⟩ | ⟨h1, h2⟩
    · simp only [PersonCtrl.referenceInEllipse, PersonCtrl.setFeedback, h1, h2, Bool.false_and, Bool.false_eq_true, if_false,
        PersonCtrl.blending, mul_zero]
      ext <;> simp
    · simp only [PersonCtrl.referenceInEllipse, PersonCtrl.setFeedback, h1, h2, Bool.and_self, if_true]
  have hu : (q.ctrl.person.setFeedback t s.position s.angle).doUnicycleControl g = .ok ⟨0, 0, 0⟩ := by
    have hdes' : (q.ctrl.person.setFeedback t s.position s.angle).getDesiredPoint t = .ok (y, 0) := hdes
    simp only [PersonCtrl.doUnicycleControl, PersonCtrl.getDesiredPointInFreeSpaceEllipse, bind, Out.bind]
    rw [show (q.ctrl.person.setFeedback t s.position s.angle).time = t from rfl, hdes']
    simp only
    rw [show (q.ctrl.person.setFeedback t s.position s.angle).unicyclePosition = s.position from rfl,
      show (q.ctrl.person.setFeedback t s.position s.angle).theta = s.angle from rfl, href]
    refine congrArg Out.ok ?_
    ext <;> simp [PersonCtrl.controlLaw, PersonCtrl.setFeedback, ← hy]
  have hw : BaseCtrl.saturateSym 0 q.ctrl.person.base.maxAngular = 0 := saturate_zero (by linarith) h2
  have hv : 0 ≤ q.ctrl.person.base.velocitySaturation 0 := by
    unfold BaseCtrl.velocitySaturation
    rw [sqrt_real]
    simpa using h1
  simp only [controlAt, hq, hu, BaseCtrl.doControl, Option.map_some, Option.some.injEq, hw]
  ext
  · exact saturate_zero (by rw [neg_mul]; exact neg_nonpos.mpr (mul_nonneg h4 hv)) hv
  · rfl
  · exact saturate_zero (by simpa using mul_nonneg h5 h1) (mul_nonneg h5 h1)

private theorem trajectory_still {f : ℝ → UState ℝ → Option (Control ℝ)} {a : ℝ} {u : UState ℝ} (hf : ∀ t, a ≤ t → f t u = some ⟨0, 0, 0⟩) :
    ∀ (ds : List ℝ) (t : ℝ), (∀ x ∈ ds, 0 ≤ x) → a ≤ t → trajectory f ds t u = some (List.replicate (ds.length + 1) u)
  | [], _, _, _ => rfl
  | d :: ds, t, hds, ht => by
    have e : eulerStep d u ⟨0, 0, 0⟩ = u := by unfold eulerStep dynamics; ext <;> simp [rot]
    have := trajectory_still hf ds (t + d) (fun x hx => hds x (List.mem_cons_of_mem _ hx)) (by linarith [hds d List.mem_cons_self])
    simp [trajectory, hf t ht, e, this, List.replicate_succ]

/-- C118: a robot that has taken steps forgets the desired points whose time has passed, although they are documented to be kept
until the next one: it stays where it is.  It takes at most one step, which brings a foot beside the other one, and none if its feet
are side by side. -/
theorem C118_forgotten (hp : Timed p) (hL : NonNeg left) (hR : NonNeg right) (hg : OnlyPast p t0)
    (hn : ¬ (left.steps = [] ∧ right.steps = [])) (hm : 0 < p.minLength) (ha : 0 < p.minAngle)
    (hfree : ∀ u, InitialState p (leftFoot p left) (rightFoot p right) t0 left.steps.getLast? right.steps.getLast? u →
      Unhindered p.ctrl.person (p.ctrl.person.getPersonPosition u.position u.angle)) (hs : FixedStep durations) (hh : 0 < p.integratorStep)
    (hi : ∀ q u a b, q.controller = .personFollowing → (∃ f, (euler durations garbage q u a b).2 = some f) →
      integ q u a b = euler durations garbage q u a b)
    (h : p.computeNewSteps integ fuel left right t0 t1 = .done true p' left' right') :
    ∃ d u, PlanOf p integ left right t0 t1 left' right' d ∧
      InitialState p (leftFoot p left) (rightFoot p right) t0 left.steps.getLast? right.steps.getLast? u ∧
      (∀ τ, t0 ≤ τ → τ ≤ t1 → d.sol τ = u) ∧ d.log.length ≤ 1 ∧
      (∀ e ∈ d.log, e.step = stepOf (if e.left then leftFoot p left else rightFoot p right) u e.step.impactTime) ∧
      (FeetParallel p left right → (left.steps = [] ↔ right.steps = []) → d.log = []) := by
  obtain ⟨d, hd⟩ := exists_plan hp hL hR h
  obtain ⟨c0, u, hu, ⟨traj, tp, ts, hc0⟩, hint⟩ := hd.begins.integrated
  have ht0 := hd.begins.nonneg
  have hpt : c0.person.traj = traj := by rw [hc0]
  rw [if_pos (decide_eq_true hn)] at tp ts
  have hsorted : InTimeOrder c0.person.traj := by rw [hpt]; exact ts
  set here := p.ctrl.person.getPersonPosition u.position u.angle with hhere
  have hx : (⟨t0, here, 0⟩ : TrajPoint ℝ) ∈ c0.person.traj := by
    rw [hpt]
    exact tp.symm.subset (List.mem_append_right _ List.mem_cons_self)
  have hfix : ∀ t, t0 ≤ t → c0.person.getDesiredPoint t = .ok (here, 0) := by
    intro t ht
    obtain ⟨y, yDot, e, hA⟩ := served hsorted hx (ht0.trans ht) ht
    obtain ⟨rfl, rfl⟩ := hA here (by
      intro z hz hle
      rw [hpt] at hz
      rcases List.mem_append.mp (tp.subset hz) with hz | hz
      · exact absurd hle (not_le.mpr (hg.past z hz))
      · rcases List.mem_cons.mp hz with rfl | hz
        · exact ⟨rfl, rfl⟩
        · split_ifs at hz
          · rw [List.mem_singleton.mp hz]; exact ⟨rfl, rfl⟩
          · cases hz)
    exact e
  obtain ⟨n, r, l, r2, r3, r4, l1, l2, hsol⟩ := planned_motion hg.controller hs hh hi hd hint (fun t ht => ⟨_, hfix t ht⟩)
  have hq := hd.begins.eq
  have hctl : ∀ t, t0 ≤ t → controlAt { d.q with ctrl := c0 } garbage t u = some ⟨0, 0, 0⟩ := by
    intro t ht
    have e : c0.person.getPersonPosition u.position u.angle = here := by rw [hhere, hc0]; rfl
    refine control_met (by rw [hq]; exact hg.controller) garbage t u ?_ ?_ ?_ ?_ ?_ ?_ ?_
    · show c0.person.getDesiredPoint t = .ok (c0.person.getPersonPosition u.position u.angle, 0)
      rw [e]; exact hfix t ht
    · have := hfree u hu
      show Unhindered c0.person (c0.person.getPersonPosition u.position u.angle)
      rw [e, hc0]; exact this
    · show 0 ≤ c0.person.base.maxLinear; rw [hc0]; exact hg.linear
    · show 0 ≤ c0.person.base.maxAngular; rw [hc0]; exact hg.angular
    · show 0 ≤ c0.person.base.turnGain; rw [hc0]; exact hg.turn
    · show 0 ≤ c0.person.base.backFactor; rw [hc0]; exact hg.back
    · show 0 ≤ c0.person.base.sideFactor; rw [hc0]; exact hg.side
  have hstill := trajectory_still hctl (List.replicate n p.integratorStep ++ [r]) t0 (by
    intro x hx
    rcases List.mem_append.mp hx with hx | hx
    · rw [List.eq_of_mem_replicate hx]; exact hh.le
    · rw [List.mem_singleton.mp hx]; exact r2.le) le_rfl
  rw [l1] at hstill
  obtain rfl := Option.some.inj hstill
  have hstay : ∀ τ, t0 ≤ τ → τ ≤ t1 → d.sol τ = u := by
    intro τ _ _
    rw [hsol τ, List.getD_eq_getElem?_getD]
    rcases List.getElem?_replicate .. with e
    rw [e]
    split_ifs <;> rfl
  refine ⟨d, u, hd, hu, hstay, still_plan hp hm ha hd (start_stance (Or.inl ?_) hd hu) hstay⟩
  simp only [Spec.firstSwing, hg.controller]

/-! ## Example -/

/-- The default planner with some desired points. -/
noncomputable def personDemo (traj : List (TrajPoint ℝ)) : Planner ℝ :=
  { realDemo with
    controller := .personFollowing
    ctrl := { realDemo.ctrl with person := { realDemo.ctrl.person with traj := traj } } }

theorem drivenInteg_person (q : Planner ℝ) (u : UState ℝ) (a b : ℝ) (h : ∃ f, (euler uniformSteps 0 q u a b).2 = some f) :
    drivenInteg q u a b = euler uniformSteps 0 q u a b := by
  obtain ⟨f, hf⟩ := h
  have e : (euler uniformSteps 0 q u a b).1 = q.ctrl := rfl
  simp only [drivenInteg, hf, Option.getD_some]
  rw [← e, ← hf]

theorem personDemo_speed (traj : List (TrajPoint ℝ)) : 0 < speedLimit (personDemo traj) ∧ speedLimit (personDemo traj) ≤ 1 / 2 := by
  simp only [speedLimit, personDemo, realDemo, Planner.new, sqrt_real]
  have h1 : 0 < Real.sqrt ((1 / 5 : ℝ) ^ 2 - (7 / 50) ^ 2) := Real.sqrt_pos.mpr (by norm_num)
  have h2 : Real.sqrt ((1 / 5 : ℝ) ^ 2 - (7 / 50) ^ 2) ≤ 1 := Real.sqrt_le_one.mpr (by norm_num)
  constructor
  · positivity
  · linarith

theorem personDemo_turn (traj : List (TrajPoint ℝ)) : 0 < turnLimit (personDemo traj) := by
  have hpi := Real.pi_pos
  simp only [turnLimit, personDemo, realDemo, Planner.new, deg2rad, pi_real]
  positivity

theorem personDemo_goes : GoesTo (personDemo [⟨0, 0, 0⟩, ⟨11 / 10, ⟨1, 0⟩, 0⟩]) ⟨1, 0⟩ (11 / 10) 0 where
  controller := rfl
  ahead := by norm_num [personDemo, realDemo, Planner.new, PersonCtrl.new]
  straight := rfl
  gain := by norm_num [personDemo, realDemo, Planner.new, PersonCtrl.new]
  linear := (personDemo_speed _).1
  angular := personDemo_turn _
  turn := by simp [personDemo, realDemo, Planner.new, PersonCtrl.new, BaseCtrl.new]
  back := by simp [personDemo, realDemo, Planner.new, PersonCtrl.new, BaseCtrl.new]
  free := Or.inl ⟨rfl, rfl⟩
  ordered := by
    simp only [InTimeOrder, personDemo, List.pairwise_cons, List.mem_singleton]
    norm_num
  wanted := ⟨_, List.mem_cons_of_mem _ List.mem_cons_self, rfl⟩
  fixed := by
    intro x hx hT
    simp only [personDemo, List.mem_cons, List.not_mem_nil, or_false] at hx
    rcases hx with rfl | rfl
    · norm_num at hT
    · exact ⟨rfl, rfl⟩
  later := by norm_num
  afterHold := by
    simp only [personDemo, realDemo, Planner.new]
    norm_num

theorem personDemo_plans (traj : List (TrajPoint ℝ)) {t0 : ℝ} (h0 : 0 ≤ t0) (h1 : t0 < 20) : ∃ fuel p' l' r',
    (personDemo traj).computeNewSteps drivenInteg fuel ⟨[⟨⟨0, 7 / 100⟩, 0, 0, "left"⟩], "left"⟩
      ⟨[⟨⟨0, -7 / 100⟩, 0, 0, "right"⟩], "right"⟩ t0 20 = .done true p' l' r' := by
  have h : ¬ Refused (personDemo traj) drivenInteg ⟨[⟨⟨0, 7 / 100⟩, 0, 0, "left"⟩], "left"⟩
      ⟨[⟨⟨0, -7 / 100⟩, 0, 0, "right"⟩], "right"⟩ t0 20 := by
    have hpi := Real.pi_pos
    rintro (h | h | h | h | h | ⟨s, h, h'⟩ | h | ⟨h, -⟩ | ⟨q, u, h⟩)
    · apply h
      refine ⟨?_, ?_, ?_⟩ <;> simp only [personDemo, realDemo, Planner.new, deg2rad, pi_real]
      · norm_num
      · norm_num
      · linarith
    · exact h ⟨(personDemo_speed _).1.le, (personDemo_turn _).le, fun h => by cases h⟩
    · simp only [personDemo, realDemo, Planner.new, deg2rad, pi_real] at h
      rcases h with h | h
      · norm_num at h
      · linarith
    · linarith
    · linarith
    · simp only [List.getLast?_singleton, Option.some.injEq] at h
      rcases h with h | h <;> (rw [← h] at h'; exact absurd h' (not_lt.mpr h0))
    · simp only [personDemo, realDemo, Planner.new] at h
      linarith
    · cases h
    · cases h
  exact ⟨_, C58_valid_requests_succeed (by simp [personDemo, realDemo, Planner.new]) (by simp [personDemo, realDemo, Planner.new]) h
    (by simp) (by intro w _ h; cases h) (Nat.lt_succ_self _)⟩

private theorem personDemo_start {traj : List (TrajPoint ℝ)} {t0 : ℝ} {u : UState ℝ}
    (hu : InitialState (personDemo traj) (leftFoot (personDemo traj) ⟨[⟨⟨0, 7 / 100⟩, 0, 0, "left"⟩], "left"⟩)
      (rightFoot (personDemo traj) ⟨[⟨⟨0, -7 / 100⟩, 0, 0, "right"⟩], "right"⟩) t0
      [(⟨⟨0, 7 / 100⟩, 0, 0, "left"⟩ : Step ℝ)].getLast? [(⟨⟨0, -7 / 100⟩, 0, 0, "right"⟩ : Step ℝ)].getLast? u) : u = ⟨0, 0⟩ := by
  have key : ∀ a b : Option (Step ℝ), a = some ⟨⟨0, 7 / 100⟩, 0, 0, "left"⟩ → b = some ⟨⟨0, -7 / 100⟩, 0, 0, "right"⟩ →
      InitialState (personDemo traj) (leftFoot (personDemo traj) ⟨[⟨⟨0, 7 / 100⟩, 0, 0, "left"⟩], "left"⟩)
        (rightFoot (personDemo traj) ⟨[⟨⟨0, -7 / 100⟩, 0, 0, "right"⟩], "right"⟩) t0 a b u → u = ⟨0, 0⟩ := by
    intro a b ha hb hu
    cases hu with
    | empty => cases ha
    | noLeft => cases ha
    | noRight => cases hb
    | leftOlder l r he => cases ha; cases hb; exact absurd he (lt_irrefl _)
    | rightOlder l r he => cases ha; cases hb; exact absurd he (lt_irrefl _)
    | together l r he =>
      cases ha; cases hb
      ext <;> simp [personDemo, realDemo, Planner.new, stateFor, leftFoot, rightFoot, rot] <;> norm_num
  exact key _ _ rfl rfl hu

theorem nonneg_one {s : Step ℝ} {n : String} (h : s.impactTime = 0) : NonNeg (⟨[s], n⟩ : FootPrint ℝ) := by
  intro x hx; simp only [List.mem_singleton] at hx; rw [hx, h]

theorem personDemo_timed (traj : List (TrajPoint ℝ)) : Timed (personDemo traj) :=
  ⟨realDemo_timed.1, realDemo_timed.2, realDemo_timed.3⟩

/-- Non-vacuity of C118: the default planner, the person at `(1, 0)` from the time 1.1 on, feet side by side: a plan is made, and
the distance of the followed point from the person decreases at the rate `κ`, which is positive. -/
example : ∃ d l' r' κ R, PlanOf (personDemo [⟨0, 0, 0⟩, ⟨11 / 10, ⟨1, 0⟩, 0⟩]) drivenInteg
      ⟨[⟨⟨0, 7 / 100⟩, 0, 0, "left"⟩], "left"⟩ ⟨[⟨⟨0, -7 / 100⟩, 0, 0, "right"⟩], "right"⟩ 0 20 l' r' d ∧ 0 < κ ∧ R ≤ 2 ∧
      ∀ τ, 2 ≤ τ → τ ≤ 20 → offBy ⟨1 / 5, 0⟩ ⟨1, 0⟩ (d.sol τ) ^ 2 ≤ Real.exp (-(κ * (τ - 11 / 10 - 3 / 200))) * R ^ 2 := by
  obtain ⟨fuel, p', l', r', h⟩ := personDemo_plans [⟨0, 0, 0⟩, ⟨11 / 10, ⟨1, 0⟩, 0⟩] (t0 := 0) le_rfl (by norm_num)
  obtain ⟨d, hd⟩ := exists_plan (personDemo_timed _) (nonneg_one rfl) (nonneg_one rfl) h
  obtain ⟨u, hu, hall⟩ := C118_reach personDemo_goes (by simp [personDemo, realDemo, Planner.new, PersonCtrl.new, BaseCtrl.new])
    uniformSteps_fixed (by simp [personDemo, realDemo, Planner.new]) (fun q u a b _ h => drivenInteg_person q u a b h) hd
  obtain rfl := personDemo_start hu
  set p := personDemo [⟨0, 0, 0⟩, ⟨11 / 10, ⟨1, 0⟩, 0⟩] with hp
  have hstep : p.integratorStep = 1 / 100 := by simp [hp, personDemo, realDemo, Planner.new]
  have hgain : p.ctrl.person.gain = 10 := by simp [hp, personDemo, realDemo, Planner.new, PersonCtrl.new]
  have hdist : p.ctrl.person.personDistance = ⟨1 / 5, 0⟩ := by simp [hp, personDemo, realDemo, Planner.new, PersonCtrl.new]
  have htop : 0 ≤ topSpeed p ∧ topSpeed p ≤ 71 / 100 := by
    refine ⟨Real.sqrt_nonneg _, ?_⟩
    have h1 := personDemo_speed [⟨0, 0, 0⟩, ⟨11 / 10, ⟨1, 0⟩, 0⟩]
    rw [← hp] at h1
    have e1 : (baseOf p).backFactor = 1 := by simp [baseOf, hp, personDemo, realDemo, Planner.new, PersonCtrl.new, BaseCtrl.new]
    have e2 : (baseOf p).sideFactor = 1 := by simp [baseOf, hp, personDemo, realDemo, Planner.new, PersonCtrl.new, BaseCtrl.new]
    unfold topSpeed
    rw [e1, e2, Real.sqrt_le_left (by norm_num)]
    simp only [max_self, one_mul]
    nlinarith [h1.1, h1.2]
  have hone : Spec.dist (0 : Vec2 ℝ) ⟨1, 0⟩ = 1 := by simp [Spec.dist]
  set R := p.ctrl.person.personDistance.x + topSpeed p * (11 / 10 - 0 + 3 / 2 * p.integratorStep) + Spec.dist (0 : Vec2 ℝ) ⟨1, 0⟩
    with hR
  have hR' : 0 < R ∧ R ≤ 2 := by
    rw [hR, hdist, hstep, hone]
    constructor <;> norm_num <;> nlinarith [htop.1, htop.2]
  have hb := hall R hR (by
    rw [hstep, hgain, hdist]
    refine ⟨by norm_num, by norm_num, ?_⟩
    norm_num
    linarith [hR'.2])
  refine ⟨d, l', r', p.ctrl.person.gain * effective (limited p p.ctrl.person.base) p.ctrl.person.gain (1 / 5) R / 6, R, hd, ?_, hR'.2,
    fun τ h1 h2 => ?_⟩
  rotate_left
  · have := hb τ (by rw [hstep]; linarith) h2
    rw [hdist, hstep, show τ - 11 / 10 - 3 / 2 * (1 / 100) = τ - 11 / 10 - 3 / 200 by ring] at this
    exact this
  · have hg := personDemo_goes
    rw [← hp] at hg
    have a1 := hg.angular
    have a2 := hg.linear
    have a3 := hg.turn
    have a4 := hg.ahead
    have a5 := hg.gain
    have a6 := lt_min one_pos hg.back
    have hR0 := hR'.1
    rw [hdist] at a4
    refine div_pos (mul_pos a5 (lt_min one_pos (lt_min ?_ ?_))) (by norm_num)
    · show 0 < min 1 p.ctrl.person.base.backFactor * (speedLimit p / (1 + p.ctrl.person.base.turnGain * turnLimit p)) / _
      positivity
    · show 0 < turnLimit p * _ / _
      positivity

/-- Non-vacuity of C118: the person is at `(1, 0)` from the time 0 on, and the plan begins at 2: no step is taken. -/
example : ∃ d l' r', PlanOf (personDemo [⟨0, ⟨1, 0⟩, 0⟩]) drivenInteg
      ⟨[⟨⟨0, 7 / 100⟩, 0, 0, "left"⟩], "left"⟩ ⟨[⟨⟨0, -7 / 100⟩, 0, 0, "right"⟩], "right"⟩ 2 20 l' r' d ∧ d.log = [] ∧
      (personDemo [⟨0, ⟨1, 0⟩, 0⟩]).ctrl.person.getDesiredPoint 2 = .ok (⟨1, 0⟩, 0) := by
  obtain ⟨fuel, p', l', r', h⟩ := personDemo_plans [⟨0, ⟨1, 0⟩, 0⟩] (t0 := 2) (by norm_num) (by norm_num)
  have hpi := Real.pi_pos
  obtain ⟨d, u, hd, hu, -, -, -, hlog⟩ := C118_forgotten (personDemo_timed _) (nonneg_one rfl) (nonneg_one rfl)
    (⟨rfl, (personDemo_speed _).1.le, (personDemo_turn _).le, by simp [personDemo, realDemo, Planner.new, PersonCtrl.new, BaseCtrl.new],
      by simp [personDemo, realDemo, Planner.new, PersonCtrl.new, BaseCtrl.new],
      by simp [personDemo, realDemo, Planner.new, PersonCtrl.new, BaseCtrl.new], fun x hx => by
        simp only [personDemo, List.mem_singleton] at hx
        rw [hx]; norm_num⟩ : OnlyPast (personDemo [⟨0, ⟨1, 0⟩, 0⟩]) 2)
    (by simp) (by simp [personDemo, realDemo, Planner.new]) (by
      simp only [personDemo, realDemo, Planner.new, deg2rad, pi_real]; positivity)
    (fun u _ => Or.inl ⟨rfl, rfl⟩) uniformSteps_fixed (by simp [personDemo, realDemo, Planner.new])
    (fun q u a b _ h => drivenInteg_person q u a b h) h
  refine ⟨d, l', r', hd, hlog ?_ (by simp), ?_⟩
  · intro l r hl hr
    simp only [List.getLast?_singleton, Option.some.injEq] at hl hr
    subst hl hr
    ext <;> simp [personDemo, realDemo, Planner.new, stateFor, leftFoot, rightFoot, rot] <;> norm_num
  · exact Follow.C96_reference _ [] ⟨0, ⟨1, 0⟩, 0⟩ 2 rfl (by simp [personDemo, InTimeOrder]) (by norm_num) (by norm_num)

end Planner
end Uni
