import Verif.Spec.Steady
import Verif.Props.Planner
import Verif.Lemmas.Planned
import Verif.Props.Controllers

/-! # C99: a constant command -/

set_option autoImplicit false
set_option linter.unusedSectionVars false

namespace Uni
open Spec
namespace Planner

/-- The time moved in the first `i` integration steps of the given durations from `t`, if the command is executed from `hold` on. -/
private noncomputable def moving (hold : ℝ) : List ℝ → ℝ → Nat → ℝ
  | d :: ds, t, i + 1 => (if t < hold then 0 else d) + moving hold ds (t + d) i
  | _, _, _ => 0

/-- The instant after the first `i` integration steps. -/
noncomputable def instant : List ℝ → ℝ → Nat → ℝ
  | d :: ds, t, i + 1 => instant ds (t + d) i
  | _, t, _ => t

theorem goOn_add {v : Control ℝ} (hv : Plain v) (u : UState ℝ) (a b : ℝ) : goOn (goOn u v a) v b = goOn u v (a + b) := by
  unfold goOn
  rcases hv with h | ⟨h1, h2⟩
  · simp only [h, mul_zero, add_zero]
    ext <;> simp <;> ring
  · simp only [h1, h2]
    ext <;> simp [rot] <;> ring

theorem goOn_zero (u : UState ℝ) (v : Control ℝ) : goOn u v 0 = u := by
  unfold goOn
  ext <;> simp

private theorem goOn_still (u : UState ℝ) (s : ℝ) : goOn u ⟨0, 0, 0⟩ s = u := by
  unfold goOn
  ext <;> simp [rot]

private theorem euler_goOn (v : Control ℝ) (d : ℝ) (u : UState ℝ) : eulerStep d u v = goOn u v d := by
  unfold eulerStep dynamics goOn
  ext <;> simp [rot]

/-- The durations of the integration steps, among the first `i`, in which the command is executed. -/
private noncomputable def moves (hold : ℝ) : List ℝ → ℝ → Nat → List ℝ
  | d :: ds, t, i + 1 => if t < hold then moves hold ds (t + d) i else d :: moves hold ds (t + d) i
  | _, _, _ => []

/-- The unicycle driven by a constant command through integration steps of the given durations. -/
noncomputable def drive (v : Control ℝ) (ds : List ℝ) (u : UState ℝ) : UState ℝ := ds.foldl (fun u d => eulerStep d u v) u

private theorem moves_sum {hold : ℝ} : ∀ (ds : List ℝ) (t : ℝ) (i : Nat), (moves hold ds t i).sum = moving hold ds t i
  | [], _, _ => by simp [moves, moving]
  | d :: ds, t, 0 => by simp [moves, moving]
  | d :: ds, t, i + 1 => by
    rw [moves, moving, ← moves_sum ds]
    split_ifs <;> simp

/-- With steps of one size and a last one, so are those in which the command is executed. -/
private theorem moves_form {hold h r : ℝ} : ∀ (n : Nat) (t : ℝ) (i : Nat), ∃ m : Nat,
    moves hold (List.replicate n h ++ [r]) t i = List.replicate m h ∨
      moves hold (List.replicate n h ++ [r]) t i = List.replicate m h ++ [r]
  | 0, t, 0 => ⟨0, .inl rfl⟩
  | 0, t, i + 1 => by
    refine ⟨0, ?_⟩
    simp only [List.replicate_zero, List.nil_append, moves]
    split_ifs
    · exact .inl rfl
    · exact .inr rfl
  | n + 1, t, 0 => ⟨0, .inl rfl⟩
  | n + 1, t, i + 1 => by
    obtain ⟨m, hm⟩ := moves_form (hold := hold) (h := h) (r := r) n (t + h) i
    rw [List.replicate_succ, List.cons_append, moves]
    split_ifs
    · exact ⟨m, hm⟩
    · refine ⟨m + 1, ?_⟩
      rw [List.replicate_succ, List.cons_append]
      exact hm.imp (congrArg _) (congrArg _)

private theorem drive_plain {v : Control ℝ} (hv : Plain v) : ∀ (ds : List ℝ) (u : UState ℝ), drive v ds u = goOn u v ds.sum
  | [], u => by simp [drive, goOn_zero]
  | d :: ds, u => by
    show drive v ds (eulerStep d u v) = _
    rw [drive_plain hv ds, euler_goOn, goOn_add hv, List.sum_cons]

/-- The states of the integrator under a constant command. -/
private theorem trajectory_const {f : ℝ → UState ℝ → Option (Control ℝ)} {hold : ℝ} {v : Control ℝ}
    (hf : ∀ t s, f t s = some (if t < hold then ⟨0, 0, 0⟩ else v)) :
    ∀ (ds : List ℝ) (t : ℝ) (u : UState ℝ), ∃ l, trajectory f ds t u = some l ∧ l.length = ds.length + 1 ∧
      ∀ i, i ≤ ds.length → l[i]? = some (drive v (moves hold ds t i) u)
  | [], t, u => ⟨[u], rfl, rfl, fun i hi => by
      obtain rfl : i = 0 := by simpa using hi
      simp [moves, drive]⟩
  | d :: ds, t, u => by
    set c : Control ℝ := if t < hold then ⟨0, 0, 0⟩ else v with hc
    obtain ⟨l, h1, h2, h3⟩ := trajectory_const hf ds (t + d) (eulerStep d u c)
    refine ⟨u :: l, by simp [trajectory, hf, ← hc, h1], by simp [h2], fun i hi => ?_⟩
    cases i with
    | zero => simp [moves, drive]
    | succ i =>
      rw [List.getElem?_cons_succ, h3 i (by simpa using hi)]
      congr 1
      rw [moves]
      by_cases h : t < hold
      · rw [if_pos h] at hc
        rw [hc, euler_goOn, goOn_still, if_pos h]
      · rw [if_neg h] at hc
        rw [hc, if_neg h]
        rfl

private theorem moving_all {hold : ℝ} : ∀ (ds : List ℝ), (∀ d ∈ ds, 0 ≤ d) → ∀ (t : ℝ) (i : Nat), hold ≤ t →
    moving hold ds t i = instant ds t i - t
  | [], _, t, i, _ => by simp [moving, instant]
  | d :: ds, _, t, 0, _ => by simp [moving, instant]
  | d :: ds, hd, t, i + 1, h => by
    have h0 := hd d List.mem_cons_self
    rw [moving, instant, if_neg (by linarith), moving_all ds (fun x hx => hd x (List.mem_cons_of_mem _ hx)) _ _ (by linarith)]
    ring

theorem instant_ge : ∀ (ds : List ℝ), (∀ d ∈ ds, 0 ≤ d) → ∀ (t : ℝ) (i : Nat), t ≤ instant ds t i
  | [], _, t, i => by simp [instant]
  | d :: ds, _, t, 0 => by simp [instant]
  | d :: ds, hd, t, i + 1 => by
    have h0 := hd d List.mem_cons_self
    have := instant_ge ds (fun x hx => hd x (List.mem_cons_of_mem _ hx)) (t + d) i
    rw [instant]; linarith

/-- The time moved is that since `hold`, up to an integration step. -/
private theorem moving_bounds {hold h : ℝ} (hh : 0 ≤ h) : ∀ (ds : List ℝ), (∀ d ∈ ds, 0 ≤ d ∧ d ≤ h) → ∀ (t : ℝ) (i : Nat),
    0 ≤ moving hold ds t i ∧ moving hold ds t i ≤ max 0 (instant ds t i - max t hold) ∧
      max 0 (instant ds t i - max t hold) - h ≤ moving hold ds t i
  | [], _, t, i => by
    have : t ≤ max t hold := le_max_left _ _
    simp only [moving, instant]
    rw [max_eq_left (by linarith)]
    exact ⟨le_rfl, le_rfl, by linarith⟩
  | d :: ds, _, t, 0 => by
    have : t ≤ max t hold := le_max_left _ _
    simp only [moving, instant]
    rw [max_eq_left (by linarith)]
    exact ⟨le_rfl, le_rfl, by linarith⟩
  | d :: ds, hd, t, i + 1 => by
    have hd' : ∀ x ∈ ds, 0 ≤ x ∧ x ≤ h := fun x hx => hd x (List.mem_cons_of_mem _ hx)
    obtain ⟨h0, h1⟩ := hd d List.mem_cons_self
    have hi := instant_ge ds (fun x hx => (hd' x hx).1) (t + d) i
    rcases lt_or_ge t hold with ht | ht
    · obtain ⟨b0, b1, b2⟩ := moving_bounds (hold := hold) hh ds hd' (t + d) i
      rw [moving, instant, if_pos ht, zero_add, max_eq_right ht.le]
      rcases le_total (t + d) hold with hc | hc
      · rw [max_eq_right hc] at b1 b2
        exact ⟨b0, b1, b2⟩
      · rw [moving_all ds (fun x hx => (hd' x hx).1) _ _ hc]
        rw [max_eq_right (by linarith)]
        exact ⟨by linarith, by linarith, by linarith⟩
    · rw [moving_all (d :: ds) (fun x hx => (hd x hx).1) t (i + 1) ht, instant, max_eq_left ht, max_eq_right (by linarith)]
      exact ⟨by linarith, le_rfl, by linarith⟩

private theorem moving_mono {hold : ℝ} : ∀ (ds : List ℝ), (∀ d ∈ ds, 0 ≤ d) → ∀ (t : ℝ) (i j : Nat), i ≤ j →
    moving hold ds t i ≤ moving hold ds t j
  | [], _, _, _, _, _ => by simp [moving]
  | d :: ds, hd, t, 0, 0, _ => le_rfl
  | d :: ds, hd, t, 0, j + 1, _ => by
    have ih := moving_mono (hold := hold) ds (fun x hx => hd x (List.mem_cons_of_mem _ hx)) (t + d) 0 j (Nat.zero_le _)
    have e : moving hold ds (t + d) 0 = 0 := by cases ds <;> rfl
    rw [e] at ih
    rw [moving]
    show (0 : ℝ) ≤ _
    split_ifs
    · linarith
    · linarith [hd d List.mem_cons_self]
  | d :: ds, hd, t, i + 1, 0, h => absurd h (Nat.not_succ_le_zero _)
  | d :: ds, hd, t, i + 1, j + 1, h => by
    have ih := moving_mono (hold := hold) ds (fun x hx => hd x (List.mem_cons_of_mem _ hx)) (t + d) i j (Nat.le_of_succ_le_succ h)
    rw [moving, moving]
    linarith

private theorem instant_replicate (h r : ℝ) : ∀ (n : Nat) (t : ℝ) (i : Nat), i ≤ n + 1 →
    instant (List.replicate n h ++ [r]) t i = if i ≤ n then t + i * h else t + n * h + r
  | 0, t, 0, _ => by simp [instant]
  | 0, t, 1, _ => by simp [instant]
  | n + 1, t, 0, _ => by simp [List.replicate_succ, instant]
  | n + 1, t, i + 1, hi => by
    rw [List.replicate_succ, List.cons_append, instant, instant_replicate h r n (t + h) i (by omega)]
    push_cast
    split_ifs <;> first | omega | ring

/-- The state read for an instant of the interval belongs to an instant at most half a step away. -/
theorem nearest {h r t0 t1 τ : ℝ} (hh : 0 < h) (hr : 0 < r) (hrh : r ≤ h) {n : Nat} (hsum : n * h + r = t1 - t0)
    (h0 : t0 ≤ τ) (h1 : τ ≤ t1) :
    |instant (List.replicate n h ++ [r]) t0 (min (stdRound ((τ - t0) / h)).toNat (n + 1)) - τ| ≤ h / 2 := by
  set x := (τ - t0) / h with hx
  have hxh : x * h = τ - t0 := by rw [hx]; field_simp
  have x0 : 0 ≤ x := div_nonneg (by linarith) hh.le
  have hfl0 : 0 ≤ ⌊x + 1 / 2⌋ := Int.floor_nonneg.mpr (by linarith)
  obtain ⟨m, hm⟩ := Int.eq_ofNat_of_zero_le hfl0
  have e : (stdRound x).toNat = m := by
    unfold stdRound
    rw [if_pos x0, hm]; rfl
  have hb := Int.floor_eq_iff.mp hm
  push_cast at hb
  obtain ⟨b1, b2⟩ := hb
  have m1 : (m : ℝ) * h ≤ (x + 1 / 2) * h := mul_le_mul_of_nonneg_right b1 hh.le
  have m2 : (x + 1 / 2) * h ≤ ((m : ℝ) + 1) * h := mul_le_mul_of_nonneg_right b2.le hh.le
  rw [e, instant_replicate h r n t0 _ (min_le_right _ _)]
  rcases Nat.lt_or_ge m (n + 1) with hmn | hmn
  · rw [min_eq_left hmn.le, if_pos (by omega), abs_le]
    constructor <;> linarith
  · rw [min_eq_right hmn, if_neg (by omega), abs_le]
    have m3 : ((n + 1 : Nat) : ℝ) * h ≤ m * h := mul_le_mul_of_nonneg_right (by exact_mod_cast hmn) hh.le
    push_cast at m3
    constructor <;> linarith

private theorem saturate_in {x p n : ℝ} (h1 : n ≤ x) (h2 : x ≤ p) : BaseCtrl.saturate x p n = x := BaseCtrl.C08_identity x p n h1 h2

/-- A command within the limits is not changed. -/
private theorem unchanged_command {p : Planner ℝ} {v : Control ℝ} (h : WithinLimits p v) :
    (limited p p.ctrl.directBase).doControl (some v) = some v := by
  have a1 := abs_le.mp h.angular
  have a2 := abs_le.mp h.lateral
  have hw : BaseCtrl.saturateSym v.angular (turnLimit p) = v.angular := saturate_in a1.1 a1.2
  simp only [BaseCtrl.doControl, Option.map_some, limited, BaseCtrl.velocitySaturation, hw, sqrt_real, Real.sqrt_mul_self_eq_abs]
  congr 1
  ext
  · exact saturate_in (by rw [neg_mul]; exact h.backward) h.forward
  · rfl
  · exact saturate_in a2.1 a2.2

private theorem within_zero {p : Planner ℝ} {v : Control ℝ} (h : WithinLimits p v) : WithinLimits p ⟨0, 0, 0⟩ where
  speed_nonneg := h.speed_nonneg
  turn_nonneg := h.turn_nonneg
  back_nonneg := h.back_nonneg
  side_nonneg := h.side_nonneg
  angular := by simpa using (abs_nonneg _).trans h.angular
  forward := by simpa using h.speed_nonneg
  backward := by simpa using mul_nonneg h.back_nonneg h.speed_nonneg
  lateral := by simpa using mul_nonneg h.side_nonneg h.speed_nonneg

variable {p p' : Planner ℝ} {integ : Integrator ℝ} {fuel : Nat} {durations : ℝ → ℝ → List ℝ} {garbage : ℝ} {left right left' right' : FootPrint ℝ} {t0 t1 : ℝ} {d : Plan ℝ}

/-- The planned unicycle under a constant command within the limits: it is driven through a number of integration steps of the
maximum size and a possibly shorter one; how long in all is known up to one and a half integration steps, and increases. -/
theorem constant_driven (hc : p.controller = .direct) (hl : WithinLimits p p.ctrl.direct.desired)
    (hs : FixedStep durations) (hh : 0 < p.integratorStep)
    (hi : ∀ q u a b, q.controller = .direct → integ q u a b = euler durations garbage q u a b)
    (hd : PlanOf p integ left right t0 t1 left' right' d) :
    ∃ u, InitialState p (leftFoot p left) (rightFoot p right) t0 left.steps.getLast? right.steps.getLast? u ∧
      ∃ σ : ℝ → ℝ, (∀ a b, t0 ≤ a → a ≤ b → b ≤ t1 → σ a ≤ σ b) ∧ ∀ τ, t0 ≤ τ → τ ≤ t1 →
        (∃ (m : Nat) (r : ℝ), 0 ≤ r ∧ r ≤ p.integratorStep ∧
          d.sol τ = drive p.ctrl.direct.desired (List.replicate m p.integratorStep ++ [r]) u ∧ σ τ = m * p.integratorStep + r) ∧
        |σ τ - max 0 (τ - executedFrom p t0 (decide (¬ (left.steps = [] ∧ right.steps = []))) d.q.firstStep)| ≤
          3 / 2 * p.integratorStep := by
  obtain ⟨c0, u, h1, ⟨traj, -, -, h2⟩, h3⟩ := hd.begins.integrated
  have hq := hd.begins.eq
  have qc : d.q.controller = .direct := by rw [hq]; exact hc
  have qs : d.q.integratorStep = p.integratorStep := by rw [hq]
  rw [hi { d.q with ctrl := c0 } u t0 t1 qc] at h3
  obtain ⟨n, r, r1, r2, r3, r4⟩ := hs (t1 - t0) p.integratorStep (sub_pos.mpr hd.begins.lt) hh
  set st : Bool := decide (¬ (left.steps = [] ∧ right.steps = [])) with hst
  set hold : ℝ := if st && d.q.firstStep then t0 + p.nominalTime - p.minTime else p.ctrl.direct.deactivationEnd with hhold
  have hf : ∀ t s, controlAt { d.q with ctrl := c0 } garbage t s = some (if t < hold then ⟨0, 0, 0⟩ else p.ctrl.direct.desired) := by
    intro t s
    have e2 : c0.directBase = limited p p.ctrl.directBase := by rw [h2]
    have e3 : c0.direct.deactivationEnd = hold := by
      rw [h2, hhold]
      by_cases hb : (st && d.q.firstStep) = true <;> simp [hb]
    have e4 : c0.direct.desired = p.ctrl.direct.desired := by
      rw [h2]
      by_cases hb : (st && d.q.firstStep) = true <;> simp [hb]
    simp only [controlAt, qc, DirectCtrl.control, DirectCtrl.setFeedback, DirectCtrl.doUnicycleControl, e2, e3, e4]
    split_ifs
    · exact unchanged_command (within_zero hl)
    · exact unchanged_command hl
  obtain ⟨l, l1, l2, l3⟩ := trajectory_const hf (List.replicate n p.integratorStep ++ [r]) t0 u
  have hlen : l.length - 1 = n + 1 := by rw [l2]; simp
  have hsol : ∀ τ, d.sol τ = solutionAt l t0 p.integratorStep u τ := by
    intro τ
    have hint : (euler durations garbage { d.q with ctrl := c0 } u t0 t1).2 = some (solutionAt l t0 p.integratorStep u) := by
      show Option.map (fun l => solutionAt l t0 d.q.integratorStep u)
        (trajectory (controlAt { d.q with ctrl := c0 } garbage) (durations (t1 - t0) d.q.integratorStep) t0 u) = _
      rw [qs, r1, l1]
      rfl
    rw [h3] at hint
    exact congrFun (Option.some.inj hint) τ
  have hdur : ∀ x ∈ List.replicate n p.integratorStep ++ [r], 0 ≤ x ∧ x ≤ p.integratorStep := by
    intro x hx
    rcases List.mem_append.mp hx with hx | hx
    · rw [List.eq_of_mem_replicate hx]; exact ⟨hh.le, le_rfl⟩
    · rw [List.mem_singleton.mp hx]; exact ⟨r2.le, r3⟩
  refine ⟨u, h1, fun τ => moving hold (List.replicate n p.integratorStep ++ [r]) t0
    (min (stdRound ((τ - t0) / p.integratorStep)).toNat (n + 1)), fun a b ha hab hb => ?_, fun τ e0 e1 => ?_⟩
  · refine moving_mono _ (fun x hx => (hdur x hx).1) _ _ _ (min_le_min_right _ (Int.toNat_le_toNat ?_))
    unfold stdRound
    rw [if_pos (div_nonneg (by linarith) hh.le), if_pos (div_nonneg (by linarith) hh.le)]
    exact Int.floor_le_floor (by linarith [div_le_div_of_nonneg_right (show a - t0 ≤ b - t0 by linarith) hh.le])
  set i := min (stdRound ((τ - t0) / p.integratorStep)).toNat (n + 1) with hi
  have hin : i ≤ n + 1 := min_le_right _ _
  obtain ⟨b0, b1, b2⟩ := moving_bounds (hold := hold) hh.le (List.replicate n p.integratorStep ++ [r]) hdur t0 i
  have near := nearest hh r2 r3 r4 e0 e1
  rw [← hi] at near
  have hval : d.sol τ = drive p.ctrl.direct.desired (moves hold (List.replicate n p.integratorStep ++ [r]) t0 i) u := by
    rw [hsol, solutionAt, hlen, ← hi, List.getD_eq_getElem?_getD, l3 i (by simpa using hin)]
    rfl
  have hform : ∃ (m : Nat) (r' : ℝ), 0 ≤ r' ∧ r' ≤ p.integratorStep ∧
      d.sol τ = drive p.ctrl.direct.desired (List.replicate m p.integratorStep ++ [r']) u ∧
      moving hold (List.replicate n p.integratorStep ++ [r]) t0 i = m * p.integratorStep + r' := by
    obtain ⟨m, hm | hm⟩ := moves_form (hold := hold) (h := p.integratorStep) (r := r) n t0 i
    · refine ⟨m, 0, le_rfl, hh.le, ?_, ?_⟩
      · rw [hval, hm]
        unfold drive
        rw [List.foldl_append, List.foldl_cons, List.foldl_nil, euler_goOn, goOn_zero]
      · rw [← moves_sum, hm]; simp
    · refine ⟨m, r, r2.le, r3, by rw [hval, hm], ?_⟩
      rw [← moves_sum, hm]; simp
  refine ⟨hform, ?_⟩
  set T := instant (List.replicate n p.integratorStep ++ [r]) t0 i
  have hm : |max 0 (T - max t0 hold) - max 0 (τ - max t0 hold)| ≤ |T - τ| := by
    have := abs_max_sub_max_le_max 0 (T - max t0 hold) 0 (τ - max t0 hold)
    simpa using this
  show |_ - max 0 (τ - max t0 hold)| ≤ _
  rw [abs_le] at hm ⊢
  constructor <;> linarith [hm.1, hm.2]
/-- The planned unicycle under a constant command within the limits: it is driven through a number of integration steps of the
maximum size and a possibly shorter one; how long in all is known up to one and a half integration steps. -/
theorem constant_command (hc : p.controller = .direct) (hl : WithinLimits p p.ctrl.direct.desired)
    (hs : FixedStep durations) (hh : 0 < p.integratorStep)
    (hi : ∀ q u a b, q.controller = .direct → integ q u a b = euler durations garbage q u a b)
    (hd : PlanOf p integ left right t0 t1 left' right' d) :
    ∃ u, InitialState p (leftFoot p left) (rightFoot p right) t0 left.steps.getLast? right.steps.getLast? u ∧
      ∀ τ, t0 ≤ τ → τ ≤ t1 → ∃ (m : Nat) (r : ℝ), 0 ≤ r ∧ r ≤ p.integratorStep ∧
        d.sol τ = drive p.ctrl.direct.desired (List.replicate m p.integratorStep ++ [r]) u ∧
        |m * p.integratorStep + r - max 0 (τ - executedFrom p t0 (decide (¬ (left.steps = [] ∧ right.steps = []))) d.q.firstStep)| ≤
          3 / 2 * p.integratorStep := by
  obtain ⟨u, hu, σ, -, h⟩ := constant_driven hc hl hs hh hi hd
  refine ⟨u, hu, fun τ a b => ?_⟩
  obtain ⟨⟨m, r, r0, r1, e, hr⟩, hb⟩ := h τ a b
  exact ⟨m, r, r0, r1, e, by rw [← hr]; exact hb⟩

/-- The time for which the planned unicycle has moved under a constant command to go straight or to turn on the spot. -/
theorem constant_progress (hc : p.controller = .direct) (hv : Plain p.ctrl.direct.desired) (hl : WithinLimits p p.ctrl.direct.desired)
    (hs : FixedStep durations) (hh : 0 < p.integratorStep)
    (hi : ∀ q u a b, q.controller = .direct → integ q u a b = euler durations garbage q u a b)
    (hd : PlanOf p integ left right t0 t1 left' right' d) :
    ∃ u, InitialState p (leftFoot p left) (rightFoot p right) t0 left.steps.getLast? right.steps.getLast? u ∧
      ∃ σ : ℝ → ℝ, (∀ a b, t0 ≤ a → a ≤ b → b ≤ t1 → σ a ≤ σ b) ∧ ∀ τ, t0 ≤ τ → τ ≤ t1 → 0 ≤ σ τ ∧
        d.sol τ = goOn u p.ctrl.direct.desired (σ τ) ∧
        |σ τ - max 0 (τ - executedFrom p t0 (decide (¬ (left.steps = [] ∧ right.steps = []))) d.q.firstStep)| ≤
          3 / 2 * p.integratorStep := by
  obtain ⟨u, hu, σ, hm, h⟩ := constant_driven hc hl hs hh hi hd
  refine ⟨u, hu, σ, hm, fun τ a b => ?_⟩
  obtain ⟨⟨m, r, r0, r1, e, hr⟩, hb⟩ := h τ a b
  refine ⟨by rw [hr]; exact add_nonneg (mul_nonneg (Nat.cast_nonneg _) hh.le) r0, ?_, hb⟩
  rw [e, drive_plain hv, hr]
  simp

/-- C99: with a constant command the unicycle goes straight, or turns on the spot, with exactly the commanded velocities, from its
initial state; when the command is executed is known up to one and a half integration steps. -/
theorem C99_motion (hc : p.controller = .direct) (hv : Plain p.ctrl.direct.desired) (hl : WithinLimits p p.ctrl.direct.desired)
    (hs : FixedStep durations) (hh : 0 < p.integratorStep)
    (hi : ∀ q u a b, q.controller = .direct → integ q u a b = euler durations garbage q u a b)
    (hd : PlanOf p integ left right t0 t1 left' right' d) :
    ∃ u, InitialState p (leftFoot p left) (rightFoot p right) t0 left.steps.getLast? right.steps.getLast? u ∧
      ∀ τ, t0 ≤ τ → τ ≤ t1 → ∃ s, 0 ≤ s ∧ d.sol τ = goOn u p.ctrl.direct.desired s ∧
        |s - max 0 (τ - executedFrom p t0 (decide (¬ (left.steps = [] ∧ right.steps = []))) d.q.firstStep)| ≤
          3 / 2 * p.integratorStep := by
  obtain ⟨u, hu, hm⟩ := constant_command hc hl hs hh hi hd
  refine ⟨u, hu, fun τ a b => ?_⟩
  obtain ⟨m, r, r0, -, e, bound⟩ := hm τ a b
  refine ⟨m * p.integratorStep + r, add_nonneg (mul_nonneg (Nat.cast_nonneg _) hh.le) r0, ?_, bound⟩
  rw [e, drive_plain hv]
  simp

theorem state_step (F : Foot ℝ) (u : UState ℝ) (t : ℝ) : stateFor F (stepOf F u t) = u := by
  unfold stateFor stepOf
  ext <;> simp

/-- The foot of a side. -/
theorem foot_eq (hd : PlanOf p integ left right t0 t1 left' right' d) :
    (∀ s, stateFor d.left s = stateFor (leftFoot p left) s) ∧ (∀ s, stateFor d.right s = stateFor (rightFoot p right) s) ∧
    (∀ u t, stepOf d.left u t = stepOf (leftFoot p left) u t) ∧ (∀ u t, stepOf d.right u t = stepOf (rightFoot p right) u t) := by
  have h1 : d.left = leftFoot p d.l0 := leftFoot_begins hd.begins d.l0
  have h2 : d.right = rightFoot p d.r0 := rightFoot_begins hd.begins d.r0
  have n1 := hd.l0_name
  have n2 := hd.r0_name
  rw [h1, h2]
  refine ⟨fun s => rfl, fun s => rfl, fun u t => ?_, fun u t => ?_⟩
  · simp only [stepOf, leftFoot, n1]
  · simp only [stepOf, rightFoot, n2]

/-- The unicycle starts from the step on which the robot stands, whatever the controller, if the first foot to move is the configured
one or the feet are parallel. -/
theorem start_stance (hpar : Spec.firstSwing p = p.startLeft ∨ FeetParallel p left right)
    (hd : PlanOf p integ left right t0 t1 left' right' d) {u : UState ℝ}
    (hu : InitialState p (leftFoot p left) (rightFoot p right) t0 left.steps.getLast? right.steps.getLast? u) :
    stateFor (if d.q.swingLeft then d.right else d.left) d.prev = u := by
  obtain ⟨f1, f2, -, -⟩ := foot_eq hd
  have hlast := hd.begins.last
  have hfirst := hd.begins.first
  rcases hd.begins.steps with ⟨hne, e1, e2⟩ | ⟨e1, e2, u', hu', e3, e4⟩
  · rw [e1, e2] at hlast
    have key : ∀ a b : Option (Step ℝ), left.steps.getLast? = a → right.steps.getLast? = b →
        FirstFoot p a b d.q.swingLeft d.q.firstStep → InitialState p (leftFoot p left) (rightFoot p right) t0 a b u →
        stateFor (if d.q.swingLeft then d.right else d.left) d.prev = u := by
      intro a b ha hb h1 h2
      generalize hsw : d.q.swingLeft = sw at h1 hlast ⊢
      generalize d.q.firstStep = fs at h1
      cases h2 with
      | empty => exact absurd ⟨by simpa using ha, by simpa using hb⟩ hne
      | together l r he =>
        have hsw' : sw = Spec.firstSwing p := by
          cases h1 with
          | together => rfl
          | leftOlder _ _ h => exact absurd he h.ne
          | rightOlder _ _ h => exact absurd he h.ne'
        rcases hpar with hz | hpar
        · rw [hz] at hsw'
          rw [hsw'] at hlast ⊢
          cases hl : p.startLeft <;> simp only [hl, Bool.false_eq_true, if_false, if_true, ha, hb, Option.some.injEq] at hlast ⊢
          · rw [← hlast, f1]
          · rw [← hlast, f2]
        · have hp := hpar l r ha hb
          have : (if p.startLeft then stateFor (rightFoot p right) r else stateFor (leftFoot p left) l) = stateFor (rightFoot p right) r := by
            split_ifs
            · rfl
            · exact hp
          rw [this]
          cases hl : sw <;> simp only [hl, Bool.false_eq_true, if_false, if_true, ha, hb, Option.some.injEq] at hlast ⊢
          · rw [← hlast, f1, hp]
          · rw [← hlast, f2]
      | leftOlder l r he =>
        cases h1 with
        | together _ _ h => exact absurd h he.ne
        | rightOlder _ _ h => exact absurd h he.not_gt
        | leftOlder _ _ h =>
          simp only [if_true, hb, Option.some.injEq] at hlast ⊢
          rw [← hlast, f2]
      | rightOlder l r he =>
        cases h1 with
        | together _ _ h => exact absurd h he.ne'
        | leftOlder _ _ h => exact absurd h he.not_gt
        | rightOlder _ _ h =>
          simp only [Bool.false_eq_true, if_false, ha, Option.some.injEq] at hlast ⊢
          rw [← hlast, f1]
      | noLeft r =>
        cases h1
        simp only [if_true, hb, Option.some.injEq] at hlast ⊢
        rw [← hlast, f2]
      | noRight l =>
        cases h1
        simp only [Bool.false_eq_true, if_false, ha, Option.some.injEq] at hlast ⊢
        rw [← hlast, f1]
    exact key _ _ rfl rfl hfirst hu
  · have hz : u' = u := by
      rw [e1, e2] at hu
      cases hu with
      | empty _ h =>
        unfold RestingState at h hu'
        cases hc : p.controller with
        | personFollowing =>
          simp only [hc] at h hu'
          obtain ⟨y, y', g1, rfl⟩ := h
          obtain ⟨z, z', g2, rfl⟩ := hu'
          rw [g1] at g2
          cases g2
          rfl
        | direct => simp only [hc] at h hu'; rw [h, hu']
        | navigation => simp only [hc] at h hu'; rw [h, hu']
    rw [e3, e4] at hlast
    cases hl : d.q.swingLeft <;> simp only [hl, Bool.false_eq_true, if_false, if_true, List.getLast?_singleton, Option.some.injEq] at hlast ⊢
    · rw [← hlast, f1, state_step, hz]
    · rw [← hlast, f2, state_step, hz]

/-- The unicycle starts from the step on which the robot stands. -/
theorem start_base (hc : p.controller = .direct) (hpar : p.ctrl.direct.desired.lateral = 0 ∨ FeetParallel p left right)
    (hd : PlanOf p integ left right t0 t1 left' right' d) {u : UState ℝ}
    (hu : InitialState p (leftFoot p left) (rightFoot p right) t0 left.steps.getLast? right.steps.getLast? u) :
    stateFor (if d.q.swingLeft then d.right else d.left) d.prev = u :=
  start_stance (hpar.imp_left fun hz => by simp only [Spec.firstSwing, hc, hz, if_true]) hd hu

/-- The landings of a plan lie along a path `f` of the unicycle that contains the initial state and the integrated motion. -/
theorem landings_on {u : UState ℝ} {f : UState ℝ → ℝ → Prop} (hp : Timed p)
    (hbase : stateFor (if d.q.swingLeft then d.right else d.left) d.prev = u) (hu : ∃ τ, f u τ)
    (hf : ∀ τ, t0 ≤ τ → τ ≤ t1 → f (d.sol τ) τ) (hd : PlanOf p integ left right t0 t1 left' right' d) :
    ∀ e ∈ d.log, ∃ w τ, f w τ ∧ e.step = stepOf (if e.left then d.left else d.right) w e.step.impactTime ∧
      (e.kind = .optimised → τ = e.step.impactTime ∧ t0 ≤ τ ∧ τ ≤ t1) := by
  set I : Stance ℝ → Prop := fun c => 0 ≤ c.offset ∧ ∃ τ, f (stateFor (if c.left then d.right else d.left) c.prev) τ with hI
  set P : Stance ℝ → Landing ℝ → Prop := fun _ e => ∃ w τ, f w τ ∧
    e.step = stepOf (if e.left then d.left else d.right) w e.step.impactTime ∧
      (e.kind = .optimised → τ = e.step.impactTime ∧ t0 ≤ τ ∧ τ ≤ t1) with hP
  have hPI : ∀ c e, I c → Decided d.q d.sol d.left d.right c e → P c e ∧ I (c.next d.q e.step) := by
    rintro c e ⟨i0, τ0, i1⟩ he
    obtain ⟨a1, -, -, a4, a5⟩ := decided_facts he
    rw [hd.initTime] at a4
    rw [hd.endTime] at a5
    replace a4 : t0 ≤ e.step.impactTime := by linarith
    have hpe : P c e := by
      cases he with
      | optimised n m h => exact ⟨_, _, hf _ a4 a5, rfl, fun _ => ⟨rfl, a4, a5⟩⟩
      | parallel n h => exact ⟨_, _, i1, rfl, fun h => by cases h⟩
    refine ⟨hpe, le_refl _, ?_⟩
    obtain ⟨w, τ, w1, w2, -⟩ := hpe
    refine ⟨τ, ?_⟩
    show f (stateFor (if (!c.left) then d.right else d.left) e.step) τ
    have : (if (!c.left) then d.right else d.left) = if e.left then d.left else d.right := by rw [a1]; cases c.left <;> rfl
    rw [this, w2, state_step]
    exact w1
  have i0 : I d.start := by
    refine ⟨?_, by obtain ⟨τ, h⟩ := hu; exact ⟨τ, by rw [← hbase] at h; exact h⟩⟩
    show 0 ≤ (if d.q.firstStep then d.q.nominalTime else 0)
    split_ifs
    · rw [hd.nominalTime]; exact hp.nominal_nonneg
    · exact le_refl _
  obtain ⟨r1, -, τf, r2⟩ := run_situations (p := d.q) (fun c e h1 h2 => (hPI c e h1 h2).2) (fun c e h1 h2 => (hPI c e h1 h2).1) hd.run i0
  intro e he
  rcases List.mem_append.mp he with he | he
  · exact Along.all (Situations.along (p := d.q) (P := fun _ e => P d.start e) r1) e he
  · have ht := hd.terminal
    split_ifs at ht with hadd
    · have h1 := hf t1 hd.begins.lt.le le_rfl
      generalize d.terminal = T at ht he
      cases ht with
      | both h =>
        simp only [List.mem_cons, List.not_mem_nil, or_false] at he
        rcases he with rfl | rfl
        · exact ⟨_, _, h1, rfl, fun h => by cases h⟩
        · refine ⟨_, _, h1, ?_, fun h => by cases h⟩
          cases d.final.left <;> rfl
      | close h h' =>
        simp only [List.mem_cons, List.not_mem_nil, or_false] at he
        subst he
        exact ⟨_, _, r2, rfl, fun h => by cases h⟩
      | skip h h' =>
        cases he
    · rw [ht] at he; cases he

/-- C99: with a constant command every contact that is added is beside a pose on the straight line (or: on the spot), at half the
nominal width, with the heading of the motion; an optimised one is where the unicycle is at the landing, up to one and a half
integration steps. -/
theorem C99_landings (hp : Timed p) (hL : NonNeg left) (hR : NonNeg right) (hc : p.controller = .direct)
    (hv : Plain p.ctrl.direct.desired) (hl : WithinLimits p p.ctrl.direct.desired)
    (hpar : p.ctrl.direct.desired.lateral = 0 ∨ FeetParallel p left right) (hs : FixedStep durations) (hh : 0 < p.integratorStep)
    (hi : ∀ q u a b, q.controller = .direct → integ q u a b = euler durations garbage q u a b)
    (h : p.computeNewSteps integ fuel left right t0 t1 = .done true p' left' right') :
    ∃ d u, PlanOf p integ left right t0 t1 left' right' d ∧
      InitialState p (leftFoot p left) (rightFoot p right) t0 left.steps.getLast? right.steps.getLast? u ∧
      ∀ e ∈ d.log, ∃ s, 0 ≤ s ∧ e.step = stepOf (if e.left then leftFoot p left else rightFoot p right)
          (goOn u p.ctrl.direct.desired s) e.step.impactTime ∧
        (e.kind = .optimised → |s - max 0 (e.step.impactTime - executedFrom p t0 (decide (¬ (left.steps = [] ∧ right.steps = [])))
          d.q.firstStep)| ≤ 3 / 2 * p.integratorStep) := by
  obtain ⟨d, hd⟩ := exists_plan hp hL hR h
  obtain ⟨u, hu, hm⟩ := C99_motion hc hv hl hs hh hi hd
  refine ⟨d, u, hd, hu, fun e he => ?_⟩
  obtain ⟨w, τ, ⟨s, s0, hw, hb⟩, hstep, hopt⟩ := landings_on (f := fun w τ => ∃ s, 0 ≤ s ∧ w = goOn u p.ctrl.direct.desired s ∧
      (t0 ≤ τ → τ ≤ t1 → |s - max 0 (τ - executedFrom p t0 (decide (¬ (left.steps = [] ∧ right.steps = []))) d.q.firstStep)| ≤
        3 / 2 * p.integratorStep)) hp (start_base hc hpar hd hu)
    ⟨t0 - 1, 0, le_rfl, (goOn_zero u _).symm, fun h => by linarith⟩ (fun τ a b => by
      obtain ⟨s, h1, h2, h3⟩ := hm τ a b
      exact ⟨s, h1, h2, fun _ _ => h3⟩) hd e he
  obtain ⟨-, -, f3, f4⟩ := foot_eq hd
  refine ⟨s, s0, ?_, fun hk => ?_⟩
  · rw [hstep, stepOf_time, hw]
    cases e.left <;> simp [f3, f4]
  · obtain ⟨rfl, a, b⟩ := hopt hk
    exact hb a b

/-! ## Standing still -/

/-- A step to where the foot already is is tiny. -/
theorem tiny_here {F : Foot ℝ} {s : Step ℝ} {u : UState ℝ} (h : stateFor F s = u) (h1 : 0 < F.minimumStep) (h2 : 0 < F.minimumAngle) :
    tinyFor F (some s) u = true := by
  subst h
  have e : (stateFor F s).position + rot (stateFor F s).angle F.distance - s.position = 0 := by
    unfold stateFor
    ext <;> simp
  have e2 : s.angle - F.yawOffset - (stateFor F s).angle = 0 := by simp [stateFor]
  have e3 : (0 : Vec2 ℝ).norm = 0 := by simp [Vec2.norm, Vec2.normSq]
  simp only [tinyFor, e, e2, e3, abs_zero, h1, h2, decide_true, Bool.and_self]

variable {L R : Foot ℝ} {q : Planner ℝ} {sol : ℝ → UState ℝ} {u : UState ℝ}

/-- When both feet are where the unicycle stays, nothing is decided. -/
private theorem nothing_decided (hsol : ∀ τ, q.initTime ≤ τ → τ ≤ q.endTime → sol τ = u)
    (mL : 0 < L.minimumStep) (aL : 0 < L.minimumAngle) (mR : 0 < R.minimumStep) (aR : 0 < R.minimumAngle)
    {c : Stance ℝ} (h0 : 0 ≤ c.offset) {s : Step ℝ} (hs : c.last = some s) (h1 : stateFor (if c.left then L else R) s = u)
    {e : Landing ℝ} : ¬ Decided q sol L R c e := by
  have ht : ∀ n, (searchFrom q sol L R c).Gate n → (searchFrom q sol L R c).time n ≤ q.endTime →
      (searchFrom q sol L R c).tiny n = true := by
    intro n hg he
    have hge : q.initTime + c.offset < q.nextTime^[n] c.start := hg.2
    show tinyFor (if c.left then L else R) c.last (sol (q.nextTime^[n] c.start)) = true
    rw [hsol (q.nextTime^[n] c.start) (by linarith) he, hs]
    exact tiny_here h1 (by split_ifs <;> assumption) (by split_ifs <;> assumption)
  intro h
  cases h with
  | optimised n m h =>
    obtain ⟨a1, -, -, a4, a5, -⟩ := h
    have := ht m a5.1 (a1 m a4).1
    rw [a5.2.1] at this; cases this
  | parallel n h =>
    obtain ⟨-, a2, a3, -⟩ := h
    have := ht n a3.1 a2
    rw [a3.2.1] at this; cases this

private theorem no_landing (hsol : ∀ τ, q.initTime ≤ τ → τ ≤ q.endTime → sol τ = u)
    (mL : 0 < L.minimumStep) (aL : 0 < L.minimumAngle) (mR : 0 < R.minimumStep) (aR : 0 < R.minimumAngle)
    {c : Stance ℝ} (h0 : 0 ≤ c.offset) {s : Step ℝ} (hs : c.last = some s) (h1 : stateFor (if c.left then L else R) s = u)
    {c' : Stance ℝ} {log : List (Landing ℝ)} (h : Run q sol L R c log c') : log = [] ∧ c' = c := by
  cases h with
  | stop _ _ => exact ⟨rfl, rfl⟩
  | land _ e log _ he _ => exact absurd he (nothing_decided hsol mL aL mR aR h0 hs h1)

private theorem no_terminal (mL : 0 < L.minimumStep) (aL : 0 < L.minimumAngle) (mR : 0 < R.minimumStep) (aR : 0 < R.minimumAngle)
    {c : Stance ℝ} (hprev : stateFor (if c.left then R else L) c.prev = u) {T : List (Landing ℝ)} (h : TerminalLog q L R c u T) :
    T.length ≤ 1 ∧ ∀ s, c.last = some s → stateFor (if c.left then L else R) s = u → T = [] := by
  have hst : tinyFor (if c.left then R else L) (some c.prev) u = true :=
    tiny_here hprev (by split_ifs <;> assumption) (by split_ifs <;> assumption)
  cases h with
  | both h => exact absurd (hst.symm.trans h.2.1) (by simp)
  | close h h' =>
    refine ⟨le_rfl, fun s hs h1 => ?_⟩
    rw [hs, hprev, tiny_here h1 (by split_ifs <;> assumption) (by split_ifs <;> assumption)] at h'
    cases h'
  | skip h h' => exact ⟨Nat.zero_le _, fun _ _ _ => rfl⟩

/-- A plan in which the unicycle does not move: at most one landing, beside the unicycle, and none if the feet are already side by
side. -/
theorem still_plan (hp : Timed p) (hm : 0 < p.minLength) (ha : 0 < p.minAngle) (hd : PlanOf p integ left right t0 t1 left' right' d)
    (hb : stateFor (if d.q.swingLeft then d.right else d.left) d.prev = u) (hstay : ∀ τ, t0 ≤ τ → τ ≤ t1 → d.sol τ = u) :
    d.log.length ≤ 1 ∧
      (∀ e ∈ d.log, e.step = stepOf (if e.left then leftFoot p left else rightFoot p right) u e.step.impactTime) ∧
      (FeetParallel p left right → (left.steps = [] ↔ right.steps = []) → d.log = []) := by
  have hlog : ∀ e ∈ d.log, e.step = stepOf (if e.left then leftFoot p left else rightFoot p right) u e.step.impactTime := by
    intro e he
    obtain ⟨w, τ, hw, hstep, -⟩ := landings_on (f := fun w _ => w = u) hp hb ⟨0, rfl⟩ (fun τ a b => hstay τ a b) hd e he
    obtain ⟨-, -, f3, f4⟩ := foot_eq hd
    rw [hstep, stepOf_time, hw]
    cases e.left <;> simp [f3, f4]
  obtain ⟨f1, f2, -, -⟩ := foot_eq hd
  have hq := hd.begins.eq
  have mL : 0 < d.left.minimumStep := by show 0 < d.q.minLength; rw [hq]; exact hm
  have aL : 0 < d.left.minimumAngle := by show 0 < d.q.minAngle; rw [hq]; exact ha
  have mR : 0 < d.right.minimumStep := by show 0 < d.q.minLength; rw [hq]; exact hm
  have aR : 0 < d.right.minimumAngle := by show 0 < d.q.minAngle; rw [hq]; exact ha
  have hsol : ∀ τ, d.q.initTime ≤ τ → τ ≤ d.q.endTime → d.sol τ = u := by
    intro τ a b
    rw [hd.initTime] at a
    rw [hd.endTime] at b
    exact hstay τ a b
  have hend : d.sol t1 = u := hsol t1 (by rw [hd.initTime]; exact hd.begins.lt.le) (by rw [hd.endTime])
  have off0 : 0 ≤ d.start.offset := by
    show 0 ≤ (if d.q.firstStep then d.q.nominalTime else 0)
    split_ifs
    · rw [hd.nominalTime]; exact hp.nominal_nonneg
    · exact le_refl _
  have hter := hd.terminal
  rw [hend] at hter
  -- nothing is added once both feet are there
  have after : ∀ c, 0 ≤ c.offset → ∀ s, c.last = some s → stateFor (if c.left then d.left else d.right) s = u →
      stateFor (if c.left then d.right else d.left) c.prev = u → ∀ log, Run d.q d.sol d.left d.right c log d.final →
      log = [] ∧ d.terminal = [] := by
    intro c h0 s h1 h2 h3 log hrun
    obtain ⟨rfl, hf⟩ := no_landing hsol mL aL mR aR h0 h1 h2 hrun
    refine ⟨rfl, ?_⟩
    split_ifs at hter
    · rw [hf] at hter
      exact (no_terminal mL aL mR aR h3 hter).2 s h1 h2
    · exact hter
  have hrun := hd.run
  refine ⟨?_, hlog, fun hpar hboth => ?_⟩
  · show (d.decided ++ d.terminal).length ≤ 1
    rw [List.length_append]
    generalize hdec : d.decided = dec at hrun
    generalize hst : d.start = c at hrun
    generalize hfin : d.final = c' at hrun
    cases hrun with
    | stop _ _ =>
      have : d.terminal.length ≤ 1 := by
        split_ifs at hter
        · refine (no_terminal mL aL mR aR ?_ hter).1
          rw [hfin, ← hst]; exact hb
        · rw [hter]; simp
      simpa using this
    | land _ e log _ he hrest =>
      have hed := (decided_facts he).1
      have hes : e.step = stepOf (if e.left then d.left else d.right) u e.step.impactTime := by
        have hmem : e ∈ d.log := by show e ∈ d.decided ++ d.terminal; rw [hdec]; simp
        have h1 := hlog e hmem
        obtain ⟨-, -, f3, f4⟩ := foot_eq hd
        rw [h1, stepOf_time]
        cases e.left <;> simp [f3, f4]
      rw [← hfin] at hrest
      obtain ⟨e1, e2⟩ := after _ (le_refl _) c.prev rfl (by
        show stateFor (if (!c.left) then d.left else d.right) c.prev = u
        rw [← hst]
        have : (if (!d.start.left) then d.left else d.right) = if d.q.swingLeft then d.right else d.left := by
          show (if (!d.q.swingLeft) then d.left else d.right) = _
          cases d.q.swingLeft <;> rfl
        rw [this]; exact hb) (by
        show stateFor (if (!c.left) then d.right else d.left) e.step = u
        have : (if (!c.left) then d.right else d.left) = if e.left then d.left else d.right := by rw [hed]; cases c.left <;> rfl
        rw [this, hes, state_step]) log hrest
      rw [e1, e2]; simp
  · obtain ⟨s, hs1, hs2⟩ : ∃ s, d.start.last = some s ∧ stateFor (if d.q.swingLeft then d.left else d.right) s = u := by
      show ∃ s, (if d.q.swingLeft then d.l0 else d.r0).steps.getLast? = some s ∧ _
      have hlast := hd.begins.last
      rcases hd.begins.steps with ⟨hne, e1, e2⟩ | ⟨e1, e2, w, hw, e3, e4⟩
      · have hln : left.steps ≠ [] := fun h => hne ⟨h, hboth.mp h⟩
        have hrn : right.steps ≠ [] := fun h => hne ⟨hboth.mpr h, h⟩
        obtain ⟨l, hl'⟩ : ∃ s, left.steps.getLast? = some s := ⟨_, List.getLast?_eq_some_getLast hln⟩
        obtain ⟨r, hr'⟩ : ∃ s, right.steps.getLast? = some s := ⟨_, List.getLast?_eq_some_getLast hrn⟩
        have hpp := hpar l r hl' hr'
        rw [e1, e2] at hlast ⊢
        cases hsw : d.q.swingLeft <;> simp only [hsw, Bool.false_eq_true, if_false, if_true, hl', hr', Option.some.injEq] at hlast hb ⊢
        · exact ⟨r, rfl, by rw [f2, ← hpp, ← f1, hlast, hb]⟩
        · exact ⟨l, rfl, by rw [f1, hpp, ← f2, hlast, hb]⟩
      · rw [e3, e4] at hlast ⊢
        cases hsw : d.q.swingLeft <;> simp only [hsw, Bool.false_eq_true, if_false, if_true, List.getLast?_singleton, Option.some.injEq] at hlast hb ⊢
        · rw [← hlast, f1, state_step] at hb
          exact ⟨_, rfl, by rw [f2, state_step, hb]⟩
        · rw [← hlast, f2, state_step] at hb
          exact ⟨_, rfl, by rw [f1, state_step, hb]⟩
    obtain ⟨e1, e2⟩ := after d.start off0 s hs1 hs2 hb d.decided hrun
    show d.decided ++ d.terminal = []
    rw [e1, e2]; rfl

/-- C99: a robot that is told to stand still takes at most one step, which brings a foot beside the other one, and none if its feet
are already side by side. -/
theorem C99_standing (hp : Timed p) (hL : NonNeg left) (hR : NonNeg right) (hc : p.controller = .direct)
    (hz : p.ctrl.direct.desired = ⟨0, 0, 0⟩) (hl : WithinLimits p ⟨0, 0, 0⟩) (hm : 0 < p.minLength) (ha : 0 < p.minAngle)
    (hs : FixedStep durations) (hh : 0 < p.integratorStep)
    (hi : ∀ q u a b, q.controller = .direct → integ q u a b = euler durations garbage q u a b)
    (h : p.computeNewSteps integ fuel left right t0 t1 = .done true p' left' right') :
    ∃ d u, PlanOf p integ left right t0 t1 left' right' d ∧
      InitialState p (leftFoot p left) (rightFoot p right) t0 left.steps.getLast? right.steps.getLast? u ∧
      d.log.length ≤ 1 ∧
      (∀ e ∈ d.log, e.step = stepOf (if e.left then leftFoot p left else rightFoot p right) u e.step.impactTime) ∧
      (FeetParallel p left right → (left.steps = [] ↔ right.steps = []) → d.log = []) := by
  obtain ⟨d, hd⟩ := exists_plan hp hL hR h
  obtain ⟨u, hu, hmot⟩ := C99_motion hc (by rw [hz]; exact Or.inl rfl) (by rw [hz]; exact hl) hs hh hi hd
  rw [hz] at hmot
  exact ⟨d, u, hd, hu, still_plan hp hm ha hd (start_base hc (Or.inl (by rw [hz])) hd hu) (fun τ a b => by
    obtain ⟨s, -, h2, -⟩ := hmot τ a b
    rw [h2, goOn_still])⟩

/-! ## Example -/

/-- Steps of the maximum size, and a shorter one for what remains. -/
noncomputable def uniformSteps (len h : ℝ) : List ℝ :=
  List.replicate (⌈len / h⌉₊ - 1) h ++ [len - ((⌈len / h⌉₊ - 1 : Nat) : ℝ) * h]

theorem uniformSteps_fixed : FixedStep uniformSteps := by
  intro len h hl hh
  have hpos : 0 < ⌈len / h⌉₊ := Nat.ceil_pos.mpr (div_pos hl hh)
  have h1 : ((⌈len / h⌉₊ - 1 : Nat) : ℝ) + 1 = ⌈len / h⌉₊ := by exact_mod_cast Nat.sub_add_cancel hpos
  have h2 := Nat.ceil_lt_add_one (div_pos hl hh).le
  have h3 := Nat.le_ceil (len / h)
  have e : len / h * h = len := by field_simp
  have h4 : ((⌈len / h⌉₊ - 1 : Nat) : ℝ) * h < len / h * h := mul_lt_mul_of_pos_right (by linarith) hh
  have h5 : len / h * h ≤ (((⌈len / h⌉₊ - 1 : Nat) : ℝ) + 1) * h := mul_le_mul_of_nonneg_right (by linarith) hh.le
  exact ⟨_, _, rfl, by linarith, by linarith, by ring⟩

/-- The default planner under direct control with a constant command. -/
noncomputable def drivenDemo (c : Control ℝ) : Planner ℝ :=
  { realDemo with ctrl := { realDemo.ctrl with direct := { realDemo.ctrl.direct with desired := c } } }

/-- The default planner under direct control with a constant forward velocity. -/
noncomputable def forwardDemo (v : ℝ) : Planner ℝ := drivenDemo ⟨v, 0, 0⟩

private theorem trajectory_some {f : ℝ → UState ℝ → Option (Control ℝ)} (hf : ∀ t s, ∃ c, f t s = some c) :
    ∀ (ds : List ℝ) (t : ℝ) (u : UState ℝ), ∃ l, trajectory f ds t u = some l
  | [], _, u => ⟨[u], rfl⟩
  | d :: ds, t, u => by
    obtain ⟨c, hc⟩ := hf t u
    obtain ⟨l, hl⟩ := trajectory_some hf ds (t + d) (eulerStep d u c)
    exact ⟨u :: l, by simp [trajectory, hc, hl]⟩

noncomputable def drivenInteg : Integrator ℝ := fun q u a b =>
  (q.ctrl, some (((euler uniformSteps 0 q u a b).2).getD fun _ => u))

theorem drivenInteg_direct (q : Planner ℝ) (u : UState ℝ) (a b : ℝ) (hq : q.controller = .direct) :
    drivenInteg q u a b = euler uniformSteps 0 q u a b := by
  obtain ⟨l, hl⟩ := trajectory_some (f := q.controlAt 0) (fun t s => by
    simp only [controlAt, hq, DirectCtrl.control, DirectCtrl.setFeedback, DirectCtrl.doUnicycleControl]
    by_cases ht : t < q.ctrl.direct.deactivationEnd
    · simp [ht, BaseCtrl.doControl]
    · simp [ht, BaseCtrl.doControl]) (uniformSteps (b - a) q.integratorStep) a u
  simp [drivenInteg, euler, hl]

theorem forwardDemo_within {v : ℝ} (h0 : 0 ≤ v) (h1 : v ≤ speedLimit realDemo) (v0 : Control ℝ) (hv0 : v0 = ⟨v, 0, 0⟩) : WithinLimits (forwardDemo v) v0 := by
  have hs : speedLimit (forwardDemo v) = speedLimit realDemo := rfl
  have hpi := Real.pi_pos
  subst hv0
  constructor
  · rw [hs]; linarith
  · simp [forwardDemo, drivenDemo, realDemo, Planner.new, BaseCtrl.new]
  · simp [forwardDemo, drivenDemo, realDemo, Planner.new, BaseCtrl.new]
  · simp [forwardDemo, drivenDemo, realDemo, Planner.new, BaseCtrl.new]
  · simp only [abs_zero, turnLimit, forwardDemo, drivenDemo, realDemo, Planner.new, deg2rad, pi_real]; positivity
  · rw [hs]; simpa using h1
  · rw [hs]
    have : (forwardDemo v).ctrl.directBase.backFactor = 1 := rfl
    rw [this]
    simp only [abs_zero, mul_zero, add_zero, div_one]
    linarith
  · rw [hs]
    have : (forwardDemo v).ctrl.directBase.sideFactor = 1 := rfl
    rw [this]
    simp only [abs_zero]
    linarith

theorem drivenDemo_plans (v : Control ℝ) (nl nr : String) : ∃ fuel p' l' r',
    (drivenDemo v).computeNewSteps drivenInteg fuel ⟨[⟨⟨0, 7 / 100⟩, 0, 0, nl⟩], nl⟩ ⟨[⟨⟨0, -7 / 100⟩, 0, 0, nr⟩], nr⟩ 0 20 =
      .done true p' l' r' := by
  have h : ¬ Refused (drivenDemo v) drivenInteg ⟨[⟨⟨0, 7 / 100⟩, 0, 0, nl⟩], nl⟩ ⟨[⟨⟨0, -7 / 100⟩, 0, 0, nr⟩], nr⟩ 0 20 := by
    have hpi := Real.pi_pos
    rintro (h | h | h | h | h | ⟨s, h, h'⟩ | h | ⟨h, -⟩ | ⟨q, u, h⟩)
    · apply h
      refine ⟨?_, ?_, ?_⟩ <;> simp only [drivenDemo, realDemo, Planner.new, deg2rad, pi_real]
      · norm_num
      · norm_num
      · linarith
    · apply h
      refine ⟨?_, ?_, fun h => by cases h⟩
      · simp only [speedLimit, drivenDemo, realDemo, Planner.new, sqrt_real]
        positivity
      · simp only [turnLimit, drivenDemo, realDemo, Planner.new, deg2rad, pi_real]
        positivity
    · simp only [drivenDemo, realDemo, Planner.new, deg2rad, pi_real] at h
      rcases h with h | h
      · norm_num at h
      · linarith
    · norm_num at h
    · norm_num at h
    · simp only [List.getLast?_singleton, Option.some.injEq] at h
      rcases h with h | h <;> (rw [← h] at h'; exact absurd h' (lt_irrefl _))
    · simp only [drivenDemo, realDemo, Planner.new] at h
      norm_num at h
    · cases h
    · cases h
  exact ⟨_, C58_valid_requests_succeed (by simp [drivenDemo, realDemo, Planner.new]) (by simp [drivenDemo, realDemo, Planner.new]) h
    (by simp) (by intro w h; cases h) (Nat.lt_succ_self _)⟩

theorem drivenDemo_timed (v : Control ℝ) : Timed (drivenDemo v) := ⟨realDemo_timed.1, realDemo_timed.2, realDemo_timed.3⟩

/-- Non-vacuity of C99: the default planner, feet side by side, any forward velocity up to the limit: a plan is made; with velocity
zero no landing is added. -/
example (v : ℝ) (h0 : 0 ≤ v) (h1 : v ≤ speedLimit realDemo) : ∃ d l' r', PlanOf (forwardDemo v) drivenInteg
      ⟨[⟨⟨0, 7 / 100⟩, 0, 0, "left"⟩], "left"⟩ ⟨[⟨⟨0, -7 / 100⟩, 0, 0, "right"⟩], "right"⟩ 0 20 l' r' d ∧
      (∀ e ∈ d.log, e.step.position.y = (if e.left then 7 / 100 else -7 / 100) ∧ 0 ≤ e.step.position.x ∧ e.step.angle = 0 ∧
        (e.kind = .optimised → |e.step.position.x - max 0 (e.step.impactTime - 1) * v| ≤ 3 / 200 * v)) ∧
      (v = 0 → ∃ d, PlanOf (forwardDemo v) drivenInteg
        ⟨[⟨⟨0, 7 / 100⟩, 0, 0, "left"⟩], "left"⟩ ⟨[⟨⟨0, -7 / 100⟩, 0, 0, "right"⟩], "right"⟩ 0 20 l' r' d ∧ d.log = []) := by
  obtain ⟨fuel, p', l', r', h⟩ := drivenDemo_plans ⟨v, 0, 0⟩ "left" "right"
  have n1 : NonNeg (⟨[⟨⟨0, 7 / 100⟩, 0, 0, "left"⟩], "left"⟩ : FootPrint ℝ) := by
    intro s hs; simp only [List.mem_singleton] at hs; rw [hs]
  have n2 : NonNeg (⟨[⟨⟨0, -7 / 100⟩, 0, 0, "right"⟩], "right"⟩ : FootPrint ℝ) := by
    intro s hs; simp only [List.mem_singleton] at hs; rw [hs]
  have hw := forwardDemo_within h0 h1 (forwardDemo v).ctrl.direct.desired rfl
  obtain ⟨d, u, hd, hu, hlog⟩ := C99_landings (drivenDemo_timed ⟨v, 0, 0⟩) n1 n2 rfl (Or.inl rfl) hw (Or.inl rfl) uniformSteps_fixed
    (by simp [forwardDemo, drivenDemo, realDemo, Planner.new]) drivenInteg_direct h
  have hu0 : u = ⟨0, 0⟩ := by
    have key : ∀ a b : Option (Step ℝ), a = some ⟨⟨0, 7 / 100⟩, 0, 0, "left"⟩ → b = some ⟨⟨0, -7 / 100⟩, 0, 0, "right"⟩ →
        InitialState (forwardDemo v) (leftFoot (forwardDemo v) ⟨[⟨⟨0, 7 / 100⟩, 0, 0, "left"⟩], "left"⟩)
          (rightFoot (forwardDemo v) ⟨[⟨⟨0, -7 / 100⟩, 0, 0, "right"⟩], "right"⟩) 0 a b u → u = ⟨0, 0⟩ := by
      intro a b ha hb hu
      cases hu with
      | empty => cases ha
      | noLeft => cases ha
      | noRight => cases hb
      | leftOlder l r he => cases ha; cases hb; exact absurd he (lt_irrefl _)
      | rightOlder l r he => cases ha; cases hb; exact absurd he (lt_irrefl _)
      | together l r he =>
        cases ha; cases hb
        ext <;> simp [forwardDemo, drivenDemo, realDemo, Planner.new, stateFor, leftFoot, rightFoot, rot] <;> norm_num
    exact key _ _ rfl rfl hu
  subst hu0
  have hfs : d.q.firstStep = true := hd.starts_together (Or.inr ⟨_, _, rfl, rfl, rfl⟩)
  refine ⟨d, l', r', hd, fun e he => ?_, fun hv => ?_⟩
  · obtain ⟨s, s0, e1, e2⟩ := hlog e he
    have hx : e.step.position.x = s * v := by
      rw [e1]
      cases e.left <;> simp [forwardDemo, drivenDemo, realDemo, Planner.new, stepOf, goOn, leftFoot, rightFoot, rot]
    refine ⟨?_, by rw [hx]; exact mul_nonneg s0 h0, ?_, fun hk => ?_⟩
    · rw [e1]
      cases e.left <;> simp [forwardDemo, drivenDemo, realDemo, Planner.new, stepOf, goOn, leftFoot, rightFoot, rot] <;> norm_num
    · rw [e1]
      cases e.left <;> simp [forwardDemo, drivenDemo, realDemo, Planner.new, stepOf, goOn, leftFoot, rightFoot, rot]
    · have := e2 hk
      simp only [executedFrom, hfs, forwardDemo, drivenDemo, realDemo, Planner.new] at this
      norm_num at this
      rw [hx, ← sub_mul, abs_mul, abs_of_nonneg h0]
      exact mul_le_mul_of_nonneg_right (by linarith) h0
  · subst hv
    obtain ⟨d', u', hd', -, -, -, h5⟩ := C99_standing (drivenDemo_timed ⟨0, 0, 0⟩) n1 n2 rfl rfl hw (by norm_num [forwardDemo, drivenDemo, realDemo, Planner.new])
      (by have := Real.pi_pos; simp only [forwardDemo, drivenDemo, realDemo, Planner.new, deg2rad, pi_real]; positivity) uniformSteps_fixed
      (by simp [forwardDemo, drivenDemo, realDemo, Planner.new]) drivenInteg_direct h
    refine ⟨d', hd', h5 ?_ (by simp)⟩
    intro l r hl hr
    simp only [List.getLast?_singleton, Option.some.injEq] at hl hr
    subst hl hr
    ext <;> simp [forwardDemo, drivenDemo, realDemo, Planner.new, stateFor, leftFoot, rightFoot, rot] <;> norm_num

end Planner
end Uni
