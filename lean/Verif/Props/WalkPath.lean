import Verif.Model.NavIntegrate
import Verif.Spec.WalkPath
import Verif.Props.Navigate
import Verif.Props.Pursuit

/-! # C121: the robot walks along its path -/

set_option autoImplicit false
set_option linter.unusedSectionVars false

namespace Uni
open Spec

namespace NavCtrl

theorem doControl_zero {b : BaseCtrl ℝ} (h : 0 ≤ b.maxLinear ∧ 0 ≤ b.maxAngular ∧ 0 ≤ b.turnGain ∧ 0 ≤ b.backFactor ∧ 0 ≤ b.sideFactor) :
    b.doControl (some ⟨0, 0, 0⟩) = some ⟨0, 0, 0⟩ := by
  obtain ⟨h1, h2, h3, h4, h5⟩ := h
  have sat : ∀ p n : ℝ, 0 ≤ p → n ≤ 0 → BaseCtrl.saturate 0 p n = 0 := by
    intro p n hp hn
    unfold BaseCtrl.saturate
    split_ifs <;> linarith
  have e1 : BaseCtrl.saturateSym (0 : ℝ) b.maxAngular = 0 := sat _ _ h2 (by linarith)
  have e2 : BaseCtrl.saturateSym (0 : ℝ) (b.sideFactor * b.maxLinear) = 0 :=
    sat _ _ (mul_nonneg h5 h1) (by have := mul_nonneg h5 h1; linarith)
  have hv : 0 ≤ b.velocitySaturation 0 := by
    unfold BaseCtrl.velocitySaturation
    have := mul_nonneg h3 (Real.sqrt_nonneg (0 * 0))
    exact div_nonneg h1 (by rw [sqrt_real]; linarith)
  simp only [BaseCtrl.doControl, Option.map_some, e1, e2]
  rw [sat _ _ hv (by have := mul_nonneg h4 hv; linarith)]

theorem eulerStep_zero (d : ℝ) (s : UState ℝ) : eulerStep d s (⟨0, 0, 0⟩ : Control ℝ) = s := by
  obtain ⟨⟨x, y⟩, th⟩ := s
  simp only [eulerStep, dynamics, mul_zero, sub_zero, add_zero]
  congr 1
  ext <;> simp

/-- The limits of the base controller are not negative. -/
def Sane (b : BaseCtrl ℝ) : Prop := 0 ≤ b.maxLinear ∧ 0 ≤ b.maxAngular ∧ 0 ≤ b.turnGain ∧ 0 ≤ b.backFactor ∧ 0 ≤ b.sideFactor

/-- The same controller up to the feedback and the command. -/
def Alike (c c' : NavCtrl ℝ) : Prop :=
  c' = { c with time := c'.time, state := c'.state, desired := c'.desired }

theorem Alike.trans {a b c : NavCtrl ℝ} (h : Alike a b) (h' : Alike b c) : Alike a c := by
  unfold Alike at *
  rw [h', h]

/-- A step while the last pose is reached, or while the controller is inactive: nothing moves. -/
theorem rest_step {c : NavCtrl ℝ} (hs : Sane c.base) (d t : ℝ) (s : UState ℝ) (h : c.Arrived ∨ t < c.deactivationEnd) :
    ∃ c', c.unicycleStep d t s = .ok (s, c') ∧ Alike c c' ∧ (c.deactivationEnd ≤ t → c'.desired = ⟨0, 0, 0⟩) ∧
      (c.desired = ⟨0, 0, 0⟩ → c'.desired = ⟨0, 0, 0⟩) := by
  by_cases ht : t < c.deactivationEnd
  · have e : (c.setFeedback t s).doUnicycleControl = .ok (⟨0, 0, 0⟩, c.setFeedback t s) := by
      unfold doUnicycleControl
      rw [if_pos (by exact ht)]
    refine ⟨c.setFeedback t s, ?_, rfl, fun h => absurd ht (not_lt.mpr h), fun h => h⟩
    have hz := doControl_zero (b := (c.setFeedback t s).base) hs
    simp [unicycleStep, e, hz, eulerStep_zero]
  · obtain ⟨h1, ⟨e, h2, h3⟩, h4, h5⟩ := h.resolve_right ht
    have hl : c.path.length ≠ 0 := by simpa using h4
    have e : (c.setFeedback t s).doUnicycleControl = .ok (⟨0, 0, 0⟩, { c.setFeedback t s with desired := ⟨0, 0, 0⟩ }) := by
      have hp : (c.setFeedback t s).nextPose = .ok none := by
        simp only [nextPose, setFeedback, h1, h2, if_pos h3, ne_eq, hl, not_false_eq_true, true_and, if_pos h5]
      simp only [doUnicycleControl]
      rw [if_neg (by exact ht)]
      simp only [computeDesiredVelocities, hp, Out.bind_ok]
    refine ⟨{ c.setFeedback t s with desired := ⟨0, 0, 0⟩ }, ?_, rfl, fun _ => rfl, fun _ => rfl⟩
    have hz := doControl_zero (b := (c.setFeedback t s).base) hs
    simp [unicycleStep, e, hz, eulerStep_zero]

/-- Once arrived, an integration with any steps leaves the unicycle where it is. -/
theorem trajectory_rests : ∀ (ds : List ℝ) (t : ℝ) (s : UState ℝ) (c : NavCtrl ℝ), Sane c.base → c.Arrived → (∀ x ∈ ds, 0 ≤ x) →
    ∃ c', trajectory ds t s c = .ok (List.replicate (ds.length + 1) s, c') ∧ Alike c c' ∧
      (c.deactivationEnd ≤ t → ds ≠ [] → c'.desired = ⟨0, 0, 0⟩) ∧ (c.desired = ⟨0, 0, 0⟩ → c'.desired = ⟨0, 0, 0⟩)
  | [], t, s, c, _, _, _ => ⟨c, rfl, rfl, fun _ h => absurd rfl h, fun h => h⟩
  | d :: ds, t, s, c, hs, ha, hd => by
    obtain ⟨c1, e1, e2, e3, e4⟩ := rest_step hs d t s (.inl ha)
    have ha1 : c1.Arrived := by rw [e2]; exact ha
    have hs1 : Sane c1.base := by rw [e2]; exact hs
    have hstop : c1.deactivationEnd = c.deactivationEnd := by rw [e2]
    obtain ⟨c', f1, f2, f3, f4⟩ := trajectory_rests ds (t + d) s c1 hs1 ha1 (fun x hx => hd x (List.mem_cons_of_mem _ hx))
    refine ⟨c', ?_, e2.trans f2, fun ht _ => f4 (e3 ht), fun h => f4 (e4 h)⟩
    simp [trajectory, e1, f1, List.replicate_succ]

/-- `n` equal steps followed by others. -/
theorem trajectory_split {h : ℝ} : ∀ (n : Nat) (t : ℝ) (s : UState ℝ) (c : NavCtrl ℝ) (s' : UState ℝ) (c' : NavCtrl ℝ),
    navigate h n t s c = .ok (s', c') → ∃ pre : List (UState ℝ), pre.length = n ∧ ∀ (ds : List ℝ) (l : List (UState ℝ)) (c'' : NavCtrl ℝ),
      trajectory ds (t + n * h) s' c' = .ok (l, c'') → trajectory (List.replicate n h ++ ds) t s c = .ok (pre ++ l, c'')
  | 0, t, s, c, s', c', hn => by
    cases hn
    exact ⟨[], rfl, fun ds l c'' h => by simpa using h⟩
  | n + 1, t, s, c, s', c', hn => by
    simp only [navigate] at hn
    cases hstep : c.unicycleStep h t s with
    | fail => rw [hstep] at hn; cases hn
    | ub w => rw [hstep] at hn; cases hn
    | ok r =>
      rw [hstep] at hn
      obtain ⟨pre, p1, p2⟩ := trajectory_split n (t + h) r.1 r.2 s' c' hn
      refine ⟨s :: pre, by simp [p1], fun ds l c'' hl => ?_⟩
      have := p2 ds l c'' (by
        have e : t + h + n * h = t + (n + 1 : Nat) * h := by push_cast; ring
        rw [e]; exact hl)
      simp [List.replicate_succ, trajectory, hstep, this]

/-- While it is inactive the controller only takes notice of the state. -/
theorem navigate_idle {h : ℝ} : ∀ (n : Nat) (t : ℝ) (s : UState ℝ) (c : NavCtrl ℝ), Sane c.base → 0 ≤ h →
    t + n * h < c.deactivationEnd + h → ∃ c', navigate h n t s c = .ok (s, c') ∧ Alike c c'
  | 0, _, s, c, _, _, _ => ⟨c, rfl, rfl⟩
  | n + 1, t, s, c, hs, hh, hlt => by
    have ht : t < c.deactivationEnd := by
      have : 0 ≤ (n : ℝ) * h := by positivity
      push_cast at hlt
      nlinarith
    obtain ⟨c1, e1, e2, -, -⟩ := rest_step hs h t s (.inr ht)
    obtain ⟨c', f1, f2⟩ := navigate_idle n (t + h) s c1 (by rw [e2]; exact hs) hh (by
      have : c1.deactivationEnd = c.deactivationEnd := by rw [e2]
      rw [this]; push_cast at hlt; linarith)
    exact ⟨c', by simp [navigate, e1, f1], e2.trans f2⟩

theorem navigate_add {h : ℝ} : ∀ (n m : Nat) (t : ℝ) (s : UState ℝ) (c : NavCtrl ℝ) (s' : UState ℝ) (c' : NavCtrl ℝ),
    navigate h n t s c = .ok (s', c') → navigate h (n + m) t s c = navigate h m (t + n * h) s' c'
  | 0, m, t, s, c, s', c', hn => by cases hn; simp
  | n + 1, m, t, s, c, s', c', hn => by
    simp only [navigate] at hn
    rw [show n + 1 + m = (n + m) + 1 by omega]
    simp only [navigate]
    cases hstep : c.unicycleStep h t s with
    | fail => rw [hstep] at hn; cases hn
    | ub w => rw [hstep] at hn; cases hn
    | ok r =>
      rw [hstep] at hn
      have := navigate_add n m (t + h) r.1 r.2 s' c' hn
      simp only [Out.bind_ok]
      rw [this]
      congr 1
      push_cast; ring

/-- From any state the path is followed to its end, once the controller is active. -/
theorem navigate_arrives {p : Planner ℝ} {path : List (UState ℝ)} (hg : Navigates p path) (D t0 : ℝ) (u : UState ℝ) :
    ∃ N s c g, navigate p.integratorStep N t0 u { Spec.navLimited p with deactivationEnd := D } = .ok (s, c) ∧ c.Arrived ∧
      c.base = limited p p.ctrl.nav.base ∧ c.deactivationEnd ≤ t0 + N * p.integratorStep ∧ path.getLast? = some g ∧ AtPose p g s := by
  set h := p.integratorStep with hh
  have hpos : 0 < h := hg.step
  have ht := tol_pos
  have hv := hg.linear
  have hl := hg.lateral
  have htg : (0 : ℝ) < 1 + p.ctrl.nav.base.turnGain := by linarith [hg.turn]
  have ha : 0 < turnLimit p / (1 + p.ctrl.nav.base.turnGain) := div_pos hg.angular htg
  have hnav : Spec.navLimited p = { p.ctrl.nav with
      base := limited p p.ctrl.nav.base
      maxVel := some (|speedLimit p|, |speedLimit p * p.ctrl.nav.base.sideFactor|,
        |turnLimit p / (1 + p.ctrl.nav.base.turnGain)|) } := by
    unfold Spec.navLimited; rw [if_pos hg.controller]
  set c : NavCtrl ℝ := { Spec.navLimited p with deactivationEnd := D } with hc
  have hbase : c.base = limited p p.ctrl.nav.base := by rw [hc, hnav]
  have hside : 0 ≤ p.ctrl.nav.base.sideFactor := by
    by_contra hneg
    have : speedLimit p * p.ctrl.nav.base.sideFactor ≤ 0 := mul_nonpos_of_nonneg_of_nonpos (by linarith) (not_le.mp hneg).le
    linarith
  have hsane : Sane c.base := by
    rw [hbase]
    exact ⟨by show 0 ≤ speedLimit p; linarith, hg.angular.le, hg.turn, hg.back.le, hside⟩
  have hlim : Limits c (speedLimit p) (speedLimit p * p.ctrl.nav.base.sideFactor) (turnLimit p / (1 + p.ctrl.nav.base.turnGain)) := by
    refine ⟨?_, by rw [hbase]; rfl, by rw [hbase]; rfl, by rw [hbase]; rfl, by rw [hbase]; exact hg.turn, by rw [hbase]; exact hg.back,
      hv, hl, ha⟩
    rw [hc, hnav]
    simp only [abs_of_pos (show 0 < speedLimit p by linarith), abs_of_pos (show 0 < speedLimit p * p.ctrl.nav.base.sideFactor by linarith),
      abs_of_pos ha]
  obtain ⟨k, k1, k2⟩ : ∃ k : Nat, D ≤ t0 + k * h ∧ (k = 0 ∨ t0 + k * h < D + h) := by
    by_cases hD : D ≤ t0
    · exact ⟨0, by simpa using hD, .inl rfl⟩
    · have hq : 0 ≤ (D - t0) / h := div_nonneg (by linarith [not_le.mp hD]) hpos.le
      refine ⟨⌈(D - t0) / h⌉₊, ?_, .inr ?_⟩
      · have := (div_le_iff₀ hpos).mp (Nat.le_ceil ((D - t0) / h)); linarith
      · have := Nat.ceil_lt_add_one hq
        have : (⌈(D - t0) / h⌉₊ : ℝ) * h < ((D - t0) / h + 1) * h := mul_lt_mul_of_pos_right this hpos
        rw [add_mul, div_mul_cancel₀ _ hpos.ne'] at this
        linarith
  obtain ⟨c1, i1, i2⟩ : ∃ c1, navigate h k t0 u c = .ok (u, c1) ∧ Alike c c1 := by
    rcases k2 with rfl | k2
    · exact ⟨c, rfl, rfl⟩
    · exact navigate_idle k t0 u c hsane hpos.le k2
  have hpath : c.path = path := by rw [hc, hnav]; exact hg.given
  have hi : 1 < path.length := hg.long
  have hlim1 : Limits c1 (speedLimit p) (speedLimit p * p.ctrl.nav.base.sideFactor) (turnLimit p / (1 + p.ctrl.nav.base.turnGain)) := by
    rw [i2]
    exact ⟨hlim.vel, hlim.linear, hlim.lateral, hlim.angular, hlim.turn, hlim.back, hlim.vpos, hlim.lpos, hlim.apos⟩
  obtain ⟨N, hN⟩ := exists_nat_ge (far c1.base (turnLimit p / (1 + p.ctrl.nav.base.turnGain)) h path[1] u)
  obtain ⟨n, s, c', g, f1, f2, f3, f4, f5⟩ := follow hpos hg.short path hg.headings (path.length - 2) 1 (by omega) N (t0 + k * h) u c1
    hlim1 (by rw [i2]; exact hpath) (by rw [i2, hc, hnav]; exact hg.period) (by rw [i2]; exact k1)
    (Or.inl ⟨by rw [i2, hc, hnav]; exact hg.fresh, by rw [i2, hc, hnav]; exact hg.first⟩)
    (by intro g hg; rw [List.getElem?_eq_getElem hi] at hg; cases hg; exact hN)
  have hstop : c'.deactivationEnd = D := by rw [f3.stop, i2]
  refine ⟨k + n, s, c', g, by rw [navigate_add k n t0 u c u c1 i1]; exact f1, f2, ?_, ?_, f4, f5⟩
  · rw [f3.base, i2]; exact hbase
  · rw [hstop]
    push_cast
    have : 0 ≤ (n : ℝ) * h := by positivity
    linarith

end NavCtrl

namespace Planner
open NavCtrl

variable {p p' p'' q : Planner ℝ} {integ : Integrator ℝ} {fuel fuel' : Nat} {durations : ℝ → ℝ → List ℝ}
variable {left right left' right' left'' right'' l0 r0 : FootPrint ℝ} {t0 t1 t0' t1' : ℝ} {path : List (UState ℝ)} {d : Plan ℝ}
variable {sol : ℝ → UState ℝ} {prev : Step ℝ}

theorem initialState_unique {L R : Foot ℝ} {a b : Option (Step ℝ)} {u v : UState ℝ} (h : InitialState p L R t0 a b u)
    (h' : InitialState p L R t0 a b v) : u = v := by
  cases h with
  | empty _ h => cases h' with
    | empty _ h' => exact RestingState.unique h h'
  | together l r h => cases h' with
    | together => rfl
    | leftOlder _ _ h' => exact absurd h h'.ne
    | rightOlder _ _ h' => exact absurd h h'.ne'
  | leftOlder l r h => cases h' with
    | together _ _ h' => exact absurd h' h.ne
    | leftOlder => rfl
    | rightOlder _ _ h' => exact absurd h h'.not_gt
  | rightOlder l r h => cases h' with
    | together _ _ h' => exact absurd h' h.ne'
    | leftOlder _ _ h' => exact absurd h h'.not_gt
    | rightOlder => rfl
  | noLeft r => cases h'; rfl
  | noRight l => cases h'; rfl

/-- The integrated motion that arrives somewhere after `N` steps, and the controller after it. -/
theorem nav_motion (hs : FixedStep durations) (hh : 0 < q.integratorStep) (hlt : t0 < t1) {c0 : Controllers ℝ} {u s : UState ℝ}
    {c : NavCtrl ℝ}
    (hi : (∃ f, (navEuler durations { q with ctrl := c0 } u t0 t1).2 = some f) →
      integ { q with ctrl := c0 } u t0 t1 = navEuler durations { q with ctrl := c0 } u t0 t1)
    (hint : integ { q with ctrl := c0 } u t0 t1 = (q.ctrl, some sol)) {N : Nat}
    (hN : navigate q.integratorStep N t0 u c0.nav = .ok (s, c)) (hsane : Sane c.base) (harr : c.Arrived)
    (ht1 : t0 + (N + 1) * q.integratorStep ≤ t1) :
    (∀ τ, t0 + N * q.integratorStep ≤ τ → sol τ = s) ∧ Alike c q.ctrl.nav ∧
      (c.deactivationEnd ≤ t0 + N * q.integratorStep → q.ctrl.nav.desired = ⟨0, 0, 0⟩) ∧
      (c.desired = ⟨0, 0, 0⟩ → q.ctrl.nav.desired = ⟨0, 0, 0⟩) := by
  set h := q.integratorStep with hq
  obtain ⟨n, r, r1, r2, r3, r4⟩ := hs (t1 - t0) h (sub_pos.mpr hlt) hh
  have hle : N ≤ n := by
    have : (N : ℝ) * h ≤ n * h := by nlinarith
    exact_mod_cast le_of_mul_le_mul_right this hh
  obtain ⟨pre, p1, p2⟩ := trajectory_split N t0 u c0.nav s c hN
  set ds := List.replicate (n - N) h ++ [r] with hds
  have hdpos : ∀ x ∈ ds, 0 ≤ x := by
    intro x hx
    rcases List.mem_append.mp hx with hx | hx
    · rw [List.eq_of_mem_replicate hx]; exact hh.le
    · rw [List.mem_singleton.mp hx]; exact r2.le
  obtain ⟨c', e1, e2, e3, e4⟩ := trajectory_rests ds (t0 + N * h) s c hsane harr hdpos
  have etr := p2 ds _ _ e1
  have esplit : List.replicate N h ++ ds = List.replicate n h ++ [r] := by
    rw [hds, ← List.append_assoc, ← List.replicate_add, Nat.add_sub_cancel' hle]
  rw [esplit] at etr
  have heu : navEuler durations { q with ctrl := c0 } u t0 t1 =
      ({ c0 with nav := c' }, some (solutionAt (pre ++ List.replicate (ds.length + 1) s) t0 h u)) := by
    simp only [navEuler]
    rw [← hq, r1, etr]
  have := hi ⟨_, by rw [heu]⟩
  rw [hint, heu] at this
  injection this with g1 g2
  injection g2 with g2
  refine ⟨fun τ hτ => ?_, by rw [g1]; exact e2, fun hd => by rw [g1]; exact e3 hd (by simp [hds]), fun hd => by rw [g1]; exact e4 hd⟩
  rw [g2, solutionAt, List.getD_eq_getElem?_getD]
  set i := min (stdRound ((τ - t0) / h)).toNat ((pre ++ List.replicate (ds.length + 1) s).length - 1) with hidef
  have hlen : (pre ++ List.replicate (ds.length + 1) s).length = N + (ds.length + 1) := by simp [p1]
  have hi1 : i < N + (ds.length + 1) := by rw [hidef, hlen]; omega
  have hround : (N : ℤ) ≤ stdRound ((τ - t0) / h) := by
    have a : (N : ℝ) ≤ (τ - t0) / h := by rw [le_div_iff₀ hh]; linarith
    unfold stdRound
    rw [if_pos ((Nat.cast_nonneg N).trans a)]
    refine Int.le_floor.mpr ?_
    push_cast
    linarith
  have hi2 : N ≤ i := by rw [hidef, hlen]; omega
  rw [List.getElem?_append_right (by rw [p1]; exact hi2), List.getElem?_replicate, if_pos (by rw [p1]; omega)]
  rfl

/-- The core of C121. -/
theorem nav_core (hg : Navigates p path) (hs : FixedStep durations)
    (hi : ∀ q u a b, q.controller = .navigation → (∃ f, (navEuler durations q u a b).2 = some f) →
      integ q u a b = navEuler durations q u a b) (left right : FootPrint ℝ) (t0 : ℝ) :
    ∃ N g, path.getLast? = some g ∧ ∀ t1 q sol l0 r0 prev, t0 + ((N : Nat) + 1) * p.integratorStep ≤ t1 →
      Begins p integ left right t0 t1 q sol l0 r0 prev → ∃ s, AtPose p g s ∧
        (∀ τ, t0 + N * p.integratorStep ≤ τ → sol τ = s) ∧ q.ctrl.nav.Arrived ∧ q.ctrl.nav.desired = ⟨0, 0, 0⟩ ∧
        q.ctrl.nav.base = limited p p.ctrl.nav.base := by
  by_cases hu : ∃ u, InitialState p (leftFoot p left) (rightFoot p right) t0 left.steps.getLast? right.steps.getLast? u
  swap
  · obtain ⟨g, hgl⟩ : ∃ g, path.getLast? = some g := by
      have := hg.long
      exact ⟨_, List.getLast?_eq_some_getLast (by intro h; rw [h] at this; simp at this)⟩
    exact ⟨0, g, hgl, fun t1 q sol l0 r0 prev _ hb => by
      obtain ⟨c0, u, hu', -⟩ := hb.integrated
      exact absurd ⟨u, hu'⟩ hu⟩
  obtain ⟨u, hu⟩ := hu
  obtain ⟨N1, s1, c1, g1, a1, a2, a3, a4, a5, a6⟩ := navigate_arrives hg |t0 + p.nominalTime - p.minTime| t0 u
  obtain ⟨N2, s2, c2, g2, b1, b2, b3, b4, b5, b6⟩ := navigate_arrives hg (Spec.navLimited p).deactivationEnd t0 u
  rw [a5] at b5
  cases b5
  refine ⟨max N1 N2, g1, a5, fun t1 q sol l0 r0 prev ht1 hb => ?_⟩
  obtain ⟨c0, u', hu', ⟨traj, -, -, hc0⟩, hint⟩ := hb.integrated
  obtain rfl := initialState_unique hu hu'
  have hqc : q.controller = .navigation := by rw [hb.eq]; exact hg.controller
  have hqs : q.integratorStep = p.integratorStep := by rw [hb.eq]
  have hstep := hg.step
  have hsane : Sane (limited p p.ctrl.nav.base) := by
    have ht := tol_pos
    have hside : 0 ≤ p.ctrl.nav.base.sideFactor := by
      by_contra hneg
      have := mul_nonpos_of_nonneg_of_nonpos (show 0 ≤ speedLimit p by linarith [hg.linear]) (not_le.mp hneg).le
      linarith [hg.lateral]
    exact ⟨by show 0 ≤ speedLimit p; linarith [hg.linear], hg.angular.le, hg.turn, hg.back.le, hside⟩
  have key : ∀ N s c, N ≤ max N1 N2 → navigate p.integratorStep N t0 u c0.nav = .ok (s, c) → c.Arrived →
      c.base = limited p p.ctrl.nav.base → c.deactivationEnd ≤ t0 + N * p.integratorStep → AtPose p g1 s →
      ∃ s, AtPose p g1 s ∧ (∀ τ, t0 + (max N1 N2 : Nat) * p.integratorStep ≤ τ → sol τ = s) ∧ q.ctrl.nav.Arrived ∧
        q.ctrl.nav.desired = ⟨0, 0, 0⟩ ∧ q.ctrl.nav.base = limited p p.ctrl.nav.base := by
    intro N s c hN h1 h2 h3 h4 h5
    have hNr : (N : ℝ) * p.integratorStep ≤ (max N1 N2 : Nat) * p.integratorStep :=
      mul_le_mul_of_nonneg_right (by exact_mod_cast hN) hstep.le
    obtain ⟨m1, m2, m3, -⟩ := nav_motion (q := q) (c0 := c0) hs (by rw [hqs]; exact hstep) hb.lt (hi _ _ _ _ hqc) hint (by rw [hqs]; exact h1)
      (by rw [h3]; exact hsane) h2 (by rw [hqs]; linarith)
    rw [hqs] at m1 m3
    exact ⟨s, h5, fun τ hτ => m1 τ (by linarith), by rw [m2]; exact h2, m3 h4, by rw [m2]; exact h3⟩
  have hnav : c0.nav = if (decide (¬ (left.steps = [] ∧ right.steps = [])) && q.firstStep) = true then
      { Spec.navLimited p with deactivationEnd := |t0 + p.nominalTime - p.minTime| } else Spec.navLimited p := by rw [hc0]
  split_ifs at hnav
  · exact key N1 s1 c1 (le_max_left _ _) (by rw [hnav]; exact a1) a2 a3 a4 a6
  · exact key N2 s2 c2 (le_max_right _ _) (by rw [hnav]; exact b1) b2 b3 b4 b6

/-- C121: a planner that is given a path makes the unicycle go to its end: after a number of integration steps that does not depend on
the horizon, the planned unicycle is at the last pose, up to the motion of two integration steps, and stays there until the end of the
plan; every step that is decided from then on puts the foot beside that pose. -/
theorem C121_arrives (hp : Timed p) (hg : Navigates p path) (hs : FixedStep durations)
    (hi : ∀ q u a b, q.controller = .navigation → (∃ f, (navEuler durations q u a b).2 = some f) →
      integ q u a b = navEuler durations q u a b) (left right : FootPrint ℝ) (t0 : ℝ) :
    ∃ N g, path.getLast? = some g ∧ ∀ t1 left' right' d, t0 + ((N : Nat) + 1) * p.integratorStep ≤ t1 →
      PlanOf p integ left right t0 t1 left' right' d → ∃ s, AtPose p g s ∧
        (∀ τ, t0 + N * p.integratorStep ≤ τ → d.sol τ = s) ∧
        ∀ e ∈ d.log, e.kind = .optimised → t0 + N * p.integratorStep ≤ e.step.impactTime →
          stateFor (if e.left then leftFoot p left else rightFoot p right) e.step = s := by
  obtain ⟨N, g, h1, h2⟩ := nav_core hg hs hi left right t0
  refine ⟨N, g, h1, fun t1 left' right' d ht1 hd => ?_⟩
  obtain ⟨s, s1, s2, -⟩ := h2 t1 _ _ _ _ _ ht1 hd.begins
  refine ⟨s, s1, s2, fun e he hk ht => ?_⟩
  rw [(landing_state hp hd he hk).1]
  exact s2 _ ht

/-- C121: after a plan that reaches the end of the path, the planner takes the path for completed, although the robot has not walked
yet. -/
theorem C121_done (hg : Navigates p path) (hs : FixedStep durations)
    (hi : ∀ q u a b, q.controller = .navigation → (∃ f, (navEuler durations q u a b).2 = some f) →
      integ q u a b = navEuler durations q u a b) (left right : FootPrint ℝ) (t0 : ℝ) :
    ∃ N : Nat, ∀ t1 fuel p' left' right', t0 + (N + 1) * p.integratorStep ≤ t1 →
      p.computeNewSteps integ fuel left right t0 t1 = .done true p' left' right' → PathDone p' := by
  obtain ⟨N, g, h1, h2⟩ := nav_core hg hs hi left right t0
  refine ⟨N, fun t1 fuel p' left' right' ht1 h => ?_⟩
  have hsame := computeNewSteps_keep p integ fuel left right t0 t1 p' (by rw [h]; rfl)
  obtain ⟨l1, l2⟩ := limits_same hsame
  rcases computeNewSteps_cases p integ left right t0 t1 with
    ⟨-, q, hq⟩ | ⟨-, -, -, -, hw⟩ | ⟨-, -, -, -, -, q, l0, r0, -, hq⟩ | ⟨-, q, sol, l0, r0, prev, hb, hq⟩
  · rw [hq] at h; cases h
  · rw [hw] at h; cases h
  · rw [hq] at h; cases h
  · rw [hq] at h
    have hc := plan_ctrl q sol fuel (leftFoot p l0) (rightFoot p r0) p' (by rw [h]; rfl)
    obtain ⟨s, -, -, a1, a2, a3⟩ := h2 t1 q sol l0 r0 prev ht1 hb
    obtain ⟨b1, b2, b3, b4⟩ := a1
    have ht := tol_pos
    have e1 : p'.controller = p.controller := by unfold SameConfig at hsame; rw [hsame]
    constructor
    · rw [e1]; exact hg.controller
    · rw [hc]; exact b3
    · rw [hc]; exact b4
    · rw [hc]; exact b1
    · rw [hc]; exact b2
    · rw [hc]; exact a2
    · rw [hc, a3]; exact hg.turn
    · rw [hc, a3]; exact hg.back.le
    · rw [hc, a3]
      show 0 ≤ p.ctrl.nav.base.sideFactor
      by_contra hneg
      have := mul_nonpos_of_nonneg_of_nonpos (show 0 ≤ speedLimit p by linarith [hg.linear]) (not_le.mp hneg).le
      linarith [hg.lateral]
    · rw [l1]; linarith [hg.linear]
    · rw [l2]; exact hg.angular.le

/-- C121: from then on the planner leaves the robot where it is, whatever its footprints, also if they end in the middle of the path (as
when the walk is replaced): the unicycle does not move, at most one foot is brought beside the other one, and none if they are. -/
theorem C121_stuck (hp : Timed p) (hL : NonNeg left) (hR : NonNeg right) (hg : PathDone p) (hm : 0 < p.minLength)
    (ha : 0 < p.minAngle) (hs : FixedStep durations) (hh : 0 < p.integratorStep)
    (hi : ∀ q u a b, q.controller = .navigation → (∃ f, (navEuler durations q u a b).2 = some f) →
      integ q u a b = navEuler durations q u a b)
    (h : p.computeNewSteps integ fuel left right t0 t1 = .done true p' left' right') (hlong : t0 + p.integratorStep ≤ t1) :
    PathDone p' ∧ ∃ d u, PlanOf p integ left right t0 t1 left' right' d ∧
      InitialState p (leftFoot p left) (rightFoot p right) t0 left.steps.getLast? right.steps.getLast? u ∧
      (∀ τ, t0 ≤ τ → τ ≤ t1 → d.sol τ = u) ∧ d.log.length ≤ 1 ∧
      (∀ e ∈ d.log, e.step = stepOf (if e.left then leftFoot p left else rightFoot p right) u e.step.impactTime) ∧
      (FeetParallel p left right → (left.steps = [] ↔ right.steps = []) → d.log = []) := by
  have core : ∀ q sol l0 r0 prev, Begins p integ left right t0 t1 q sol l0 r0 prev →
      ∃ u, InitialState p (leftFoot p left) (rightFoot p right) t0 left.steps.getLast? right.steps.getLast? u ∧
        (∀ τ, t0 ≤ τ → sol τ = u) ∧ q.ctrl.nav.Arrived ∧ q.ctrl.nav.desired = ⟨0, 0, 0⟩ ∧
        q.ctrl.nav.base = limited p p.ctrl.nav.base := by
    intro q sol l0 r0 prev hb
    obtain ⟨c0, u, hu, ⟨traj, -, -, hc0⟩, hint⟩ := hb.integrated
    have hqc : q.controller = .navigation := by rw [hb.eq]; exact hg.controller
    have hqs : q.integratorStep = p.integratorStep := by rw [hb.eq]
    have hnav : c0.nav = if (decide (¬ (left.steps = [] ∧ right.steps = [])) && q.firstStep) = true then
        { Spec.navLimited p with deactivationEnd := |t0 + p.nominalTime - p.minTime| } else Spec.navLimited p := by rw [hc0]
    have hlim : Spec.navLimited p = { p.ctrl.nav with
        base := limited p p.ctrl.nav.base
        maxVel := some (|speedLimit p|, |speedLimit p * p.ctrl.nav.base.sideFactor|,
          |turnLimit p / (1 + p.ctrl.nav.base.turnGain)|) } := by
      unfold Spec.navLimited; rw [if_pos hg.controller]
    have k1 : c0.nav.base = limited p p.ctrl.nav.base ∧ c0.nav.Arrived ∧ c0.nav.desired = ⟨0, 0, 0⟩ := by
      rw [hnav, hlim]
      split_ifs <;> exact ⟨rfl, ⟨hg.old, hg.eta, hg.path, hg.last⟩, hg.command⟩
    obtain ⟨k1, k2, k3⟩ := k1
    have hsane : Sane (limited p p.ctrl.nav.base) := ⟨hg.linear, hg.angular, hg.turn, hg.back, hg.side⟩
    obtain ⟨m1, m2, -, m4⟩ := nav_motion (q := q) (c0 := c0) (N := 0) hs (by rw [hqs]; exact hh) hb.lt (hi _ _ _ _ hqc) hint rfl
      (by rw [k1]; exact hsane) k2 (by rw [hqs]; norm_num; exact hlong)
    refine ⟨u, hu, fun τ hτ => m1 τ (by simpa using hτ), by rw [m2]; exact k2, m4 k3, by rw [m2]; exact k1⟩
  constructor
  · have hsame := computeNewSteps_keep p integ fuel left right t0 t1 p' (by rw [h]; rfl)
    obtain ⟨l1, l2⟩ := limits_same hsame
    rcases computeNewSteps_cases p integ left right t0 t1 with
      ⟨-, q, hq⟩ | ⟨-, -, -, -, hw⟩ | ⟨-, -, -, -, -, q, l0, r0, -, hq⟩ | ⟨-, q, sol, l0, r0, prev, hb, hq⟩
    · rw [hq] at h; cases h
    · rw [hw] at h; cases h
    · rw [hq] at h; cases h
    · rw [hq] at h
      have hc := plan_ctrl q sol fuel (leftFoot p l0) (rightFoot p r0) p' (by rw [h]; rfl)
      obtain ⟨u, -, -, ⟨b1, b2, b3, b4⟩, a2, a3⟩ := core q sol l0 r0 prev hb
      have e1 : p'.controller = p.controller := by unfold SameConfig at hsame; rw [hsame]
      constructor
      · rw [e1]; exact hg.controller
      · rw [hc]; exact b3
      · rw [hc]; exact b4
      · rw [hc]; exact b1
      · rw [hc]; exact b2
      · rw [hc]; exact a2
      · rw [hc, a3]; exact hg.turn
      · rw [hc, a3]; exact hg.back
      · rw [hc, a3]; exact hg.side
      · rw [l1]; exact hg.linear
      · rw [l2]; exact hg.angular
  · obtain ⟨d, hd⟩ := exists_plan hp hL hR h
    obtain ⟨u, hu, m1, -⟩ := core _ _ _ _ _ hd.begins
    refine ⟨d, u, hd, hu, fun τ a _ => m1 τ a, still_plan hp hm ha hd (start_stance (Or.inl ?_) hd hu) fun τ a _ => m1 τ a⟩
    simp only [Spec.firstSwing, hg.controller, hg.command, if_true]

/-- C121: giving the path again makes the planner follow it again, from its beginning. -/
theorem C121_again (h : p.run (.setNavigationPath path) = (true, p')) (hc : p.controller = .navigation)
    (hang : ∀ g ∈ path, |g.angle| ≤ Real.pi) (hstep : 0 < p.integratorStep) (hdt : p.ctrl.nav.dt = p.integratorStep)
    (hturn : 0 ≤ p.ctrl.nav.base.turnGain) (hback : 0 < p.ctrl.nav.base.backFactor)
    (hv : 2 * NavCtrl.zeroTolerance ≤ speedLimit p) (hl : 2 * NavCtrl.zeroTolerance ≤ speedLimit p * p.ctrl.nav.base.sideFactor)
    (ha : 0 < turnLimit p) (hshort : p.integratorStep * (turnLimit p / (1 + p.ctrl.nav.base.turnGain)) ≤ Real.pi) :
    Navigates p' path := by
  by_cases hlen : path.length < 2
  · simp [Planner.run, NavCtrl.setNavigationPath, hlen] at h
  · simp only [Planner.run, NavCtrl.setNavigationPath, if_neg hlen, Prod.mk.injEq, true_and] at h
    rw [← h]
    exact ⟨hc, rfl, rfl, rfl, not_lt.mp hlen, hang, hstep, hdt, hturn, hback, hv, hl, ha, hshort⟩

/-! ## Examples -/

/-- The default planner, with a navigation controller. -/
noncomputable def navDemo (nav : NavCtrl ℝ) : Planner ℝ :=
  { realDemo with controller := .navigation, ctrl := { realDemo.ctrl with nav := nav } }

/-- An integrator that is never refused. -/
noncomputable def navInteg : Integrator ℝ := fun q u a b =>
  match (navEuler uniformSteps q u a b).2 with
  | some _ => navEuler uniformSteps q u a b
  | none => (q.ctrl, some fun _ => u)

private theorem navInteg_spec (q : Planner ℝ) (u : UState ℝ) (a b : ℝ) (h : ∃ f, (navEuler uniformSteps q u a b).2 = some f) :
    navInteg q u a b = navEuler uniformSteps q u a b := by
  obtain ⟨f, hf⟩ := h
  simp only [navInteg, hf]

private theorem navInteg_some (q : Planner ℝ) (u : UState ℝ) (a b : ℝ) : (navInteg q u a b).2 ≠ none := by
  unfold navInteg
  split
  · rename_i hf; rw [hf]; simp
  · simp

private theorem navDemo_speed (nav : NavCtrl ℝ) : 1 / 40 ≤ speedLimit (navDemo nav) := by
  simp only [speedLimit, navDemo, realDemo, Planner.new, sqrt_real]
  have h1 : (1 / 10 : ℝ) ≤ Real.sqrt ((1 / 5 : ℝ) ^ 2 - (7 / 50) ^ 2) := Real.le_sqrt_of_sq_le (by norm_num)
  linarith

private theorem navDemo_turn (nav : NavCtrl ℝ) : turnLimit (navDemo nav) = Real.pi * (7 / 120) := by
  simp only [turnLimit, navDemo, realDemo, Planner.new, deg2rad, pi_real]
  ring

private theorem navDemo_plans {nav : NavCtrl ℝ} (hb : nav.base = BaseCtrl.new) {a b : ℝ} (h0 : 0 ≤ a) (h1 : a < b) : ∃ fuel p' l' r',
    (navDemo nav).computeNewSteps navInteg fuel ⟨[⟨⟨0, 7 / 100⟩, 0, 0, "left"⟩], "left"⟩
      ⟨[⟨⟨0, -7 / 100⟩, 0, 0, "right"⟩], "right"⟩ a b = .done true p' l' r' := by
  have h : ¬ Refused (navDemo nav) navInteg ⟨[⟨⟨0, 7 / 100⟩, 0, 0, "left"⟩], "left"⟩
      ⟨[⟨⟨0, -7 / 100⟩, 0, 0, "right"⟩], "right"⟩ a b := by
    have hpi := Real.two_le_pi
    have hv := navDemo_speed nav
    have ht := navDemo_turn nav
    have hnb : (navDemo nav).ctrl.nav.base = BaseCtrl.new := hb
    rintro (h | h | h | h | h | ⟨s, h, h'⟩ | h | ⟨h, -⟩ | ⟨q, u, h⟩)
    · apply h
      refine ⟨?_, ?_, ?_⟩ <;> simp only [navDemo, realDemo, Planner.new, deg2rad, pi_real]
      · norm_num
      · norm_num
      · linarith
    · have p1 : 0 < speedLimit (navDemo nav) := by linarith
      have p2 : 0 < turnLimit (navDemo nav) := by rw [ht]; linarith
      refine h ⟨p1.le, p2.le, fun _ => ?_⟩
      rw [hnb]
      simp only [BaseCtrl.new, mul_one, add_zero, div_one, abs_of_pos p1, abs_of_pos p2, NavCtrl.zeroTolerance]
      refine ⟨?_, ?_, ?_⟩ <;> norm_num <;> linarith
    · simp only [navDemo, realDemo, Planner.new, deg2rad, pi_real] at h
      rcases h with h | h
      · norm_num at h
      · linarith
    · linarith
    · linarith
    · simp only [List.getLast?_singleton, Option.some.injEq] at h
      rcases h with h | h <;> (rw [← h] at h'; exact absurd h' (not_lt.mpr h0))
    · simp only [navDemo, realDemo, Planner.new] at h
      linarith
    · cases h
    · exact navInteg_some _ _ _ _ h
  exact ⟨_, C58_valid_requests_succeed (by simp [navDemo, realDemo, Planner.new]) (by simp [navDemo, realDemo, Planner.new]) h
    (by simp) (by intro w h; cases h) (Nat.lt_succ_self _)⟩

private theorem navDemo_timed (nav : NavCtrl ℝ) : Timed (navDemo nav) := ⟨realDemo_timed.1, realDemo_timed.2, realDemo_timed.3⟩

private noncomputable def corner : List (UState ℝ) := [⟨0, 0⟩, ⟨⟨1, 0⟩, 0⟩, ⟨⟨1, 1⟩, 1⟩]

private theorem navDemo_navigates :
    Navigates (navDemo { NavCtrl.new with path := corner, newPath := some true }) corner := by
  have hpi := Real.two_le_pi
  have hv := navDemo_speed { NavCtrl.new with path := corner, newPath := some true }
  have ht := navDemo_turn { NavCtrl.new with path := corner, newPath := some true }
  refine ⟨rfl, rfl, rfl, rfl, by simp [corner], ?_, ?_, rfl, ?_, ?_, ?_, ?_, ?_, ?_⟩
  · intro g hg
    simp only [corner, List.mem_cons, List.not_mem_nil, or_false] at hg
    rcases hg with rfl | rfl | rfl <;> simp <;> linarith
  · simp [navDemo, realDemo, Planner.new]
  · simp [navDemo, NavCtrl.new, BaseCtrl.new]
  · simp [navDemo, NavCtrl.new, BaseCtrl.new]
  · refine le_trans ?_ hv; norm_num [NavCtrl.zeroTolerance]
  · simp only [navDemo, NavCtrl.new, BaseCtrl.new, mul_one]
    refine le_trans ?_ hv; norm_num [NavCtrl.zeroTolerance]
  · rw [ht]; linarith
  · rw [ht]
    simp only [navDemo, NavCtrl.new, BaseCtrl.new, realDemo, Planner.new]
    norm_num
    linarith

/-- Non-vacuity of C121: the default planner with a path around a corner: a plan to its end is
made. -/
example : ∃ N t1 d l r s, PlanOf (navDemo { NavCtrl.new with path := corner, newPath := some true }) navInteg
      ⟨[⟨⟨0, 7 / 100⟩, 0, 0, "left"⟩], "left"⟩ ⟨[⟨⟨0, -7 / 100⟩, 0, 0, "right"⟩], "right"⟩ 0 t1 l r d ∧
      AtPose (navDemo { NavCtrl.new with path := corner, newPath := some true }) ⟨⟨1, 1⟩, 1⟩ s ∧
      (N : ℝ) < t1 ∧ ∀ τ, N ≤ τ → d.sol τ = s := by
  set p := navDemo { NavCtrl.new with path := corner, newPath := some true } with hp
  obtain ⟨N, g, h1, h2⟩ := C121_arrives (p := p) (navDemo_timed _) navDemo_navigates uniformSteps_fixed
    (fun q u a b _ h => navInteg_spec q u a b h) ⟨[⟨⟨0, 7 / 100⟩, 0, 0, "left"⟩], "left"⟩ ⟨[⟨⟨0, -7 / 100⟩, 0, 0, "right"⟩], "right"⟩ 0
  obtain ⟨fuel, p', l, r, h⟩ := navDemo_plans (nav := { NavCtrl.new with path := corner, newPath := some true }) rfl (a := 0)
    (b := (N + 1 : ℝ)) le_rfl (by positivity)
  have hstep : p.integratorStep = 1 / 100 := by simp [hp, navDemo, realDemo, Planner.new]
  have hN : (0 : ℝ) ≤ N := Nat.cast_nonneg N
  obtain ⟨d, hd⟩ := exists_plan (navDemo_timed _) (nonneg_one rfl) (nonneg_one rfl) h
  obtain ⟨s, s1, s2, -⟩ := h2 (N + 1) l r d (by rw [hstep]; linarith) hd
  have hg : g = ⟨⟨1, 1⟩, 1⟩ := by simpa [corner] using h1.symm
  subst hg
  exact ⟨N, N + 1, d, l, r, s, hd, s1, by linarith, fun τ hτ => s2 τ (by rw [hstep]; linarith)⟩

/-- Non-vacuity of C121: a planner that takes its path for completed plans to stay where the robot is, at the beginning of that path. -/
example : ∃ p, PathDone p ∧ Timed p ∧ ∃ d u l r, PlanOf p navInteg
      ⟨[⟨⟨0, 7 / 100⟩, 0, 0, "left"⟩], "left"⟩ ⟨[⟨⟨0, -7 / 100⟩, 0, 0, "right"⟩], "right"⟩ 0 10 l r d ∧
      (∀ τ, 0 ≤ τ → τ ≤ 10 → d.sol τ = u) ∧ p.ctrl.nav.path = corner := by
  have hpi := Real.two_le_pi
  set nav : NavCtrl ℝ := { NavCtrl.new with path := corner, newPath := some false, eta := some 0, poseIndex := 2 } with hnav
  have hdone : PathDone (navDemo nav) := by
    have hv := navDemo_speed nav
    have ht := navDemo_turn nav
    refine ⟨rfl, by simp [navDemo, hnav, corner], by simp [navDemo, hnav, corner], rfl, ⟨0, rfl, ?_⟩, rfl, ?_, ?_, ?_, ?_, ?_⟩
    · simp [navDemo, hnav, NavCtrl.new]
    · simp [navDemo, hnav, NavCtrl.new, BaseCtrl.new]
    · simp [navDemo, hnav, NavCtrl.new, BaseCtrl.new]
    · simp [navDemo, hnav, NavCtrl.new, BaseCtrl.new]
    · linarith
    · rw [ht]; linarith
  obtain ⟨fuel, p', l, r, h⟩ := navDemo_plans (nav := nav) rfl (a := 0) (b := 10) le_rfl (by norm_num)
  obtain ⟨-, d, u, a1, -, a3, -⟩ := C121_stuck (navDemo_timed _) (nonneg_one rfl) (nonneg_one rfl) hdone
    (by simp [navDemo, realDemo, Planner.new]) (by simp only [navDemo, realDemo, Planner.new, deg2rad, pi_real]; linarith)
    uniformSteps_fixed (by simp [navDemo, realDemo, Planner.new]) (fun q u a b _ h => navInteg_spec q u a b h) h
    (by simp only [navDemo, realDemo, Planner.new]; norm_num)
  exact ⟨_, hdone, navDemo_timed _, d, u, l, r, a1, a3, rfl⟩

end Planner
end Uni
