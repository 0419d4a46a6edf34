import Verif.Lemmas.Follow
import Verif.Model.PlannerSettings
import Mathlib.Analysis.Calculus.MeanValue
import Mathlib.Analysis.SpecialFunctions.ExpDeriv

/-! # C96: the person-following controller reaches its target -/

set_option autoImplicit false
set_option linter.unusedSectionVars false

namespace Uni.Follow
open Spec PersonCtrl

/-! ## Where the target comes from -/

/-- C96: after the last of the points of the trajectory, that point is the reference. -/
theorem C96_reference (c : PersonCtrl ℝ) (points : List (TrajPoint ℝ)) (last : TrajPoint ℝ) (t : ℝ)
    (hc : c.traj = points ++ [last]) (hs : InTimeOrder c.traj) (h0 : 0 ≤ t) (hl : last.initTime ≤ t) :
    c.getDesiredPoint t = .ok (last.y, last.yDot) := by
  unfold getDesiredPoint desiredPoint
  rw [if_neg (not_lt.mpr h0)]
  have hrev : c.traj.reverse = last :: points.reverse := by rw [hc]; simp
  cases htr : c.traj with
  | nil => rw [hc] at htr; simp at htr
  | cons first rest =>
    have hf : first.initTime ≤ t := by
      rw [htr] at hs
      have hmem : last ∈ first :: rest := by rw [← htr, hc]; simp
      rcases List.mem_cons.mp hmem with rfl | hmem
      · exact hl
      · exact (List.rel_of_pairwise_cons hs hmem).trans hl
    rw [htr] at hrev
    simp [not_lt.mpr hf, hrev, findRev, hl]

/-! ## Convergence of the integrated motion -/

private theorem converges_aux (p : Planner ℝ) (garbage : ℝ) (target : Vec2 ℝ) (R : ℝ) (ds : List ℝ) :
    ∀ (t : ℝ) (s : UState ℝ), Follows p target t → offBy p.ctrl.person.personDistance target s ≤ R →
    (∀ h ∈ ds, Short p.ctrl.person.gain p.ctrl.person.personDistance.x R h) →
    ∃ l, Planner.trajectory (p.controlAt garbage) ds t s = some l ∧ l.length = ds.length + 1 ∧
      ∀ i (hi : i < l.length), offBy p.ctrl.person.personDistance target l[i] ^ 2 ≤
        Real.exp (-(p.ctrl.person.gain *
          effective p.ctrl.person.base p.ctrl.person.gain p.ctrl.person.personDistance.x R / 6 * (ds.take i).sum)) *
        offBy p.ctrl.person.personDistance target s ^ 2 := by
  induction ds with
  | nil =>
    intro t s _ _ _
    refine ⟨[s], rfl, rfl, fun i hi => ?_⟩
    have : i = 0 := by simpa using hi
    subst this
    simp
  | cons h ds ih =>
    intro t s hp hR hds
    have hsh := hds h (by simp)
    obtain ⟨u, hu, hle⟩ := step_closer p garbage target t s R h hp hR hsh
    have hα := effective_nonneg p target t R hp ((Real.sqrt_nonneg _).trans hR)
    have hkα : 0 ≤ p.ctrl.person.gain *
        effective p.ctrl.person.base p.ctrl.person.gain p.ctrl.person.personDistance.x R / 6 :=
      div_nonneg (mul_nonneg hp.gain.le hα) (by norm_num)
    set κ := p.ctrl.person.gain *
        effective p.ctrl.person.base p.ctrl.person.gain p.ctrl.person.personDistance.x R / 6 with hκ
    have hfac : 1 - h * p.ctrl.person.gain *
        effective p.ctrl.person.base p.ctrl.person.gain p.ctrl.person.personDistance.x R / 6 ≤ Real.exp (-(κ * h)) := by
      have := Real.add_one_le_exp (-(κ * h))
      have e : h * p.ctrl.person.gain *
        effective p.ctrl.person.base p.ctrl.person.gain p.ctrl.person.personDistance.x R / 6 = κ * h := by rw [hκ]; ring
      rw [e]; linarith
    have hle' : offBy p.ctrl.person.personDistance target (eulerStep h s u) ^ 2 ≤
        Real.exp (-(κ * h)) * offBy p.ctrl.person.personDistance target s ^ 2 :=
      hle.trans (mul_le_mul_of_nonneg_right hfac (sq_nonneg _))
    have hR' : offBy p.ctrl.person.personDistance target (eulerStep h s u) ≤ R := by
      refine le_trans (le_of_sq_le_sq ?_ (Real.sqrt_nonneg _)) hR
      refine hle'.trans (mul_le_of_le_one_left (sq_nonneg _) (Real.exp_le_one_iff.mpr ?_))
      have := mul_nonneg hkα hsh.1
      linarith
    have hp' : Follows p target (t + h) := { hp with fixed := fun τ hτ => hp.fixed τ (by linarith [hsh.1]) }
    obtain ⟨l, hl, hlen, hall⟩ := ih (t + h) (eulerStep h s u) hp' hR' (fun x hx => hds x (by simp [hx]))
    refine ⟨s :: l, by simp [Planner.trajectory, hu, hl], by simp [hlen], fun i hi => ?_⟩
    cases i with
    | zero => simp
    | succ i =>
      have := hall i (by simpa using hi)
      simp only [List.getElem_cons_succ, List.take_succ_cons, List.sum_cons]
      refine this.trans ?_
      rw [mul_add, neg_add, Real.exp_add, mul_comm (Real.exp _) (Real.exp _), mul_assoc]
      exact mul_le_mul_of_nonneg_left hle' (Real.exp_pos _).le

/-- C96: the motion integrated for a planner that follows a fixed target brings the followed point to the target
exponentially fast, in spite of the limits of the velocities: whatever the durations of the integration steps, as long as they
are short, the integration succeeds and after every step the squared distance from the target is at most the initial one times
`exp (-gain · effective / 6 · time)`.  In particular the followed point never gets farther from the target than it was. -/
theorem C96_converges (p : Planner ℝ) (garbage : ℝ) (target : Vec2 ℝ) (ds : List ℝ) (t : ℝ) (s : UState ℝ)
    (hp : Follows p target t)
    (hds : ∀ h ∈ ds, Short p.ctrl.person.gain p.ctrl.person.personDistance.x
      (offBy p.ctrl.person.personDistance target s) h) :
    ∃ l, Planner.trajectory (p.controlAt garbage) ds t s = some l ∧ l.length = ds.length + 1 ∧
      ∀ i (hi : i < l.length),
        offBy p.ctrl.person.personDistance target l[i] ≤ offBy p.ctrl.person.personDistance target s ∧
        offBy p.ctrl.person.personDistance target l[i] ^ 2 ≤
          Real.exp (-(p.ctrl.person.gain * effective p.ctrl.person.base p.ctrl.person.gain p.ctrl.person.personDistance.x
            (offBy p.ctrl.person.personDistance target s) / 6 * (ds.take i).sum)) *
          offBy p.ctrl.person.personDistance target s ^ 2 := by
  obtain ⟨l, hl, hlen, hall⟩ := converges_aux p garbage target _ ds t s hp le_rfl hds
  refine ⟨l, hl, hlen, fun i hi => ⟨le_of_sq_le_sq ?_ (Real.sqrt_nonneg _), hall i hi⟩⟩
  refine (hall i hi).trans (mul_le_of_le_one_left (sq_nonneg _) (Real.exp_le_one_iff.mpr ?_))
  have hα := effective_nonneg p target t (offBy p.ctrl.person.personDistance target s) hp (Real.sqrt_nonneg _)
  have hsum : 0 ≤ (ds.take i).sum := List.sum_nonneg (fun x hx => (hds x (List.mem_of_mem_take hx)).1)
  have := mul_nonneg (div_nonneg (mul_nonneg hp.gain.le hα) (by norm_num : (0 : ℝ) ≤ 6)) hsum
  linarith

/-- C96: the followed point gets as close to the target as wanted: for every `ε` there is a time after which it is within
`ε`, whatever the (short) steps of the integrator. -/
theorem C96_reaches (p : Planner ℝ) (garbage : ℝ) (target : Vec2 ℝ) (t : ℝ) (s : UState ℝ) (hp : Follows p target t)
    (ε : ℝ) (hε : 0 < ε) :
    ∃ T : ℝ, ∀ ds : List ℝ,
      (∀ h ∈ ds, Short p.ctrl.person.gain p.ctrl.person.personDistance.x
        (offBy p.ctrl.person.personDistance target s) h) → T ≤ ds.sum →
      ∃ l s', Planner.trajectory (p.controlAt garbage) ds t s = some l ∧ l.getLast? = some s' ∧
        offBy p.ctrl.person.personDistance target s' ≤ ε := by
  have hr0 : 0 ≤ offBy p.ctrl.person.personDistance target s := Real.sqrt_nonneg _
  generalize hr : offBy p.ctrl.person.personDistance target s = r at *
  rcases hr0.eq_or_lt with h0 | hpos
  · refine ⟨0, fun ds hds _ => ?_⟩
    obtain ⟨l, hl, hlen, hall⟩ := C96_converges p garbage target ds t s hp (by rw [hr]; exact hds)
    have hlast : ds.length < l.length := by omega
    refine ⟨l, l[ds.length], hl, ?_, ?_⟩
    · rw [List.getLast?_eq_getElem?, List.getElem?_eq_getElem (by omega)]
      simp [hlen]
    · refine (hall _ hlast).1.trans ?_
      rw [hr, ← h0]; exact hε.le
  · have hα : 0 < effective p.ctrl.person.base p.ctrl.person.gain p.ctrl.person.personDistance.x r := by
      have := hp.angular
      have := hp.linear
      have := hp.turn
      have := hp.ahead
      have := hp.gain
      have := lt_min one_pos hp.back
      unfold effective
      refine lt_min one_pos (lt_min ?_ ?_) <;> positivity
    set κ := p.ctrl.person.gain * effective p.ctrl.person.base p.ctrl.person.gain p.ctrl.person.personDistance.x r / 6 with hκ
    have hκ0 : 0 < κ := div_pos (mul_pos hp.gain hα) (by norm_num)
    refine ⟨Real.log (r ^ 2 / ε ^ 2) / κ, fun ds hds hT => ?_⟩
    obtain ⟨l, hl, hlen, hall⟩ := C96_converges p garbage target ds t s hp (by rw [hr]; exact hds)
    have hlast : ds.length < l.length := by omega
    refine ⟨l, l[ds.length], hl, ?_, ?_⟩
    · rw [List.getLast?_eq_getElem?, List.getElem?_eq_getElem (by omega)]
      simp [hlen]
    · refine le_of_sq_le_sq ((hall _ hlast).2.trans ?_) hε.le
      rw [hr, ← hκ, List.take_length]
      have h1 : Real.log (r ^ 2 / ε ^ 2) ≤ κ * ds.sum := by
        rw [div_le_iff₀ hκ0] at hT; linarith
      have h2 : r ^ 2 / ε ^ 2 ≤ Real.exp (κ * ds.sum) := (Real.log_le_iff_le_exp (by positivity)).mp h1
      rw [Real.exp_neg, inv_mul_le_iff₀ (Real.exp_pos _)]
      rw [div_le_iff₀ (by positivity)] at h2
      exact h2

/-- Non-vacuity of C96: a planner whose controllers have limits; the target is the origin. -/
noncomputable def follower (back : ℝ) : Planner ℝ :=
  { Planner.new with
    controller := .personFollowing
    ctrl := { (Planner.new : Planner ℝ).ctrl with person := { (PersonCtrl.new : PersonCtrl ℝ) with base := ⟨1, 1, 0, back, 1⟩ } } }

theorem follower_fixed (back t : ℝ) (ht : 0 ≤ t) : (follower back).ctrl.person.getDesiredPoint t = .ok (0, 0) :=
  C96_reference _ [] ⟨0, 0, 0⟩ t rfl (by simp [follower, PersonCtrl.new, InTimeOrder]) ht ht

example : Follows (follower 1) 0 0 where
  controller := rfl
  ahead := by norm_num [follower, PersonCtrl.new]
  straight := rfl
  gain := by norm_num [follower, PersonCtrl.new]
  linear := one_pos
  angular := one_pos
  turn := le_rfl
  back := one_pos
  free := Or.inl ⟨rfl, rfl⟩
  fixed := fun t ht => follower_fixed 1 t ht

/-- Non-vacuity of C96: with the default gain and distance, steps of 10 ms are short up to two metres from the target. -/
example : Short (PersonCtrl.new : PersonCtrl ℝ).gain (PersonCtrl.new : PersonCtrl ℝ).personDistance.x 2 (1 / 100) := by
  norm_num [Short, PersonCtrl.new]

/-! ## What the conditions are needed for -/

private theorem follower_at (back x t : ℝ) (ht : 0 ≤ t) :
    (follower back).controlAt 0 t ⟨⟨x, 0⟩, 0⟩ =
      some ⟨BaseCtrl.saturate (-(10 * (x + 1 / 5))) 1 (-back), 0, 0⟩ := by
  have hu : ((follower back).ctrl.person.setFeedback t ⟨x, 0⟩ 0).doUnicycleControl 0 = .ok ⟨-(10 * (x + 1 / 5)), 0, 0⟩ := by
    have hdes : ((follower back).ctrl.person.setFeedback t ⟨x, 0⟩ 0).getDesiredPoint t = .ok (0, 0) := follower_fixed back t ht
    simp only [doUnicycleControl, getDesiredPointInFreeSpaceEllipse, bind, Out.bind]
    rw [show ((follower back).ctrl.person.setFeedback t ⟨x, 0⟩ 0).time = t from rfl, hdes]
    refine congrArg Out.ok ?_
    ext <;> simp [controlLaw, setFeedback, PersonCtrl.getPersonPosition, rot, referenceInEllipse, follower, PersonCtrl.new,
      Ellipse.clear, blending]
  have hc : (follower back).controller = .personFollowing := rfl
  simp only [Planner.controlAt, hc, hu, BaseCtrl.doControl, Option.map_some, Option.some.injEq]
  ext
  · simp [follower, BaseCtrl.saturateSym, BaseCtrl.saturate, BaseCtrl.velocitySaturation]
  · norm_num [follower, BaseCtrl.saturateSym, BaseCtrl.saturate]
  · norm_num [follower, BaseCtrl.saturateSym, BaseCtrl.saturate]

/-- C96: a factor 0 for moving backward is accepted by its setter.  With it a unicycle that has passed its target without
deviating from it sideways never moves again: it does not reach the target, however long the motion is integrated. -/
theorem C96_backward_violation (base : BaseCtrl ℝ) (ds : List ℝ) (hds : ∀ h ∈ ds, 0 ≤ h) :
    (base.setSlowWhenBackwardFactor 0).1 = true ∧
    Planner.trajectory ((follower 0).controlAt 0) ds 0 ⟨⟨1, 0⟩, 0⟩ = some (List.replicate (ds.length + 1) ⟨⟨1, 0⟩, 0⟩) := by
  refine ⟨by simp [BaseCtrl.setSlowWhenBackwardFactor], ?_⟩
  have key : ∀ t : ℝ, 0 ≤ t → Planner.trajectory ((follower 0).controlAt 0) ds t ⟨⟨1, 0⟩, 0⟩ =
      some (List.replicate (ds.length + 1) ⟨⟨1, 0⟩, 0⟩) := by
    induction ds with
    | nil => intro t _; rfl
    | cons h ds ih =>
      intro t ht
      have hst : eulerStep h ⟨⟨1, 0⟩, 0⟩ (⟨0, 0, 0⟩ : Control ℝ) = ⟨⟨1, 0⟩, 0⟩ := by
        ext <;> simp [eulerStep, dynamics]
      have hsat : BaseCtrl.saturate (-(10 * (1 + 1 / 5 : ℝ))) 1 (-0) = 0 := by
        unfold BaseCtrl.saturate
        norm_num
      rw [Planner.trajectory, follower_at 0 1 t ht, hsat]
      simp only [Option.bind_some, hst]
      rw [ih (fun x hx => hds x (by simp [hx])) (t + h) (add_nonneg ht (hds h (by simp)))]
      rfl
  exact key 0 le_rfl

/-- C96: the steps of the integrator must be short: with the default gain and a step of 0.3 s, the followed point ends up twice
as far from its target as it was. -/
theorem C96_long_step_violation :
    ∃ s' : UState ℝ, Planner.trajectory ((follower 1).controlAt 0) [3 / 10] 0 ⟨⟨-1 / 4, 0⟩, 0⟩ =
        some [⟨⟨-1 / 4, 0⟩, 0⟩, s'] ∧
      offBy (follower 1).ctrl.person.personDistance 0 s' =
        2 * offBy (follower 1).ctrl.person.personDistance 0 ⟨⟨-1 / 4, 0⟩, 0⟩ := by
  refine ⟨⟨⟨-1 / 10, 0⟩, 0⟩, ?_, ?_⟩
  · have hsat : BaseCtrl.saturate (-(10 * (-1 / 4 + 1 / 5 : ℝ))) 1 (-1) = 1 / 2 := by
      unfold BaseCtrl.saturate
      norm_num
    have hst : eulerStep (3 / 10) ⟨⟨-1 / 4, 0⟩, 0⟩ (⟨1 / 2, 0, 0⟩ : Control ℝ) = ⟨⟨-1 / 10, 0⟩, 0⟩ := by
      ext <;> simp [eulerStep, dynamics]
      norm_num
    rw [Planner.trajectory, follower_at 1 _ 0 le_rfl, hsat]
    simp only [Option.bind_some, hst, Planner.trajectory, Option.map_some]
  · have h1 : offBy (follower 1).ctrl.person.personDistance 0 ⟨⟨-1 / 10, 0⟩, 0⟩ = 1 / 10 := by
      unfold offBy Spec.dist inFrame
      rw [Real.sqrt_eq_iff_mul_self_eq (by positivity) (by norm_num)]
      simp [follower, PersonCtrl.new]
      norm_num
    have h2 : offBy (follower 1).ctrl.person.personDistance 0 ⟨⟨-1 / 4, 0⟩, 0⟩ = 1 / 20 := by
      unfold offBy Spec.dist inFrame
      rw [Real.sqrt_eq_iff_mul_self_eq (by positivity) (by norm_num)]
      simp [follower, PersonCtrl.new]
      norm_num
    rw [h1, h2]
    norm_num

/-! ## The exact motion -/

private theorem decay {f : ℝ → ℝ} {k T : ℝ} (hf : ∀ t ∈ Set.Icc 0 T, HasDerivAt f (-k * f t) t) :
    ∀ t ∈ Set.Icc 0 T, f t = Real.exp (-k * t) * f 0 := by
  have hg : ∀ t ∈ Set.Icc 0 T, HasDerivAt (fun τ => Real.exp (k * τ) * f τ) 0 t := by
    intro t ht
    have h1 : HasDerivAt (fun τ => Real.exp (k * τ)) (Real.exp (k * t) * k) t := by
      simpa using ((hasDerivAt_id t).const_mul k).exp
    refine (h1.mul (hf t ht)).congr_deriv ?_
    ring
  intro t ht
  have hc := constant_of_has_deriv_right_zero (f := fun τ => Real.exp (k * τ) * f τ) (a := 0) (b := T)
    (fun τ hτ => (hg τ hτ).continuousAt.continuousWithinAt)
    (fun τ hτ => (hg τ ⟨hτ.1, hτ.2.le⟩).hasDerivWithinAt) t ht
  simp only [mul_zero, Real.exp_zero, one_mul] at hc
  rw [← hc, ← mul_assoc, ← Real.exp_add]
  simp

/-- C96: if the unicycle moves exactly as the controller says, within the limits of the velocities and without a free space,
then the error of the followed point decays as `exp (-gain · t)`, also when the reference moves and the followed point is not
straight ahead. -/
theorem C96_exact (c : PersonCtrl ℝ) (garbage T : ℝ) (X Y Θ : ℝ → ℝ) (yd ydDot : ℝ → Vec2 ℝ) (u v : ℝ → Control ℝ)
    (hdx : c.personDistance.x ≠ 0) (hin : c.inner.isSet = false) (hout : c.outer.isSet = false)
    (href : ∀ t ∈ Set.Icc 0 T, c.getDesiredPoint t = .ok (yd t, ydDot t))
    (hydx : ∀ t ∈ Set.Icc 0 T, HasDerivAt (fun τ => (yd τ).x) (ydDot t).x t)
    (hydy : ∀ t ∈ Set.Icc 0 T, HasDerivAt (fun τ => (yd τ).y) (ydDot t).y t)
    (hu : ∀ t ∈ Set.Icc 0 T, (c.setFeedback t ⟨X t, Y t⟩ (Θ t)).doUnicycleControl garbage = .ok (u t))
    (hang : ∀ t ∈ Set.Icc 0 T, |(u t).angular| ≤ c.base.maxAngular)
    (hfwd : ∀ t ∈ Set.Icc 0 T, (u t).forward ≤ c.base.velocitySaturation (u t).angular)
    (hbwd : ∀ t ∈ Set.Icc 0 T, -c.base.backFactor * c.base.velocitySaturation (u t).angular ≤ (u t).forward)
    (hv : ∀ t ∈ Set.Icc 0 T, c.base.doControl (some (u t)) = some (v t))
    (hX : ∀ t ∈ Set.Icc 0 T, HasDerivAt X (dynamics ⟨⟨X t, Y t⟩, Θ t⟩ (v t)).position.x t)
    (hY : ∀ t ∈ Set.Icc 0 T, HasDerivAt Y (dynamics ⟨⟨X t, Y t⟩, Θ t⟩ (v t)).position.y t)
    (hΘ : ∀ t ∈ Set.Icc 0 T, HasDerivAt Θ (dynamics ⟨⟨X t, Y t⟩, Θ t⟩ (v t)).angle t) :
    let error := fun τ => inFrame ⟨X τ, Y τ⟩ (Θ τ) c.personDistance - yd τ
    ∀ t ∈ Set.Icc 0 T, error t = Real.exp (-c.gain * t) * error 0 := by
  intro error t ht
  have key := fun τ hτ => C14_linearised c garbage τ X Y Θ (yd τ) (ydDot τ) (u τ) (v τ) hdx hin hout (href τ hτ) (hu τ hτ)
    (hang τ hτ) (hfwd τ hτ) (hbwd τ hτ) (hv τ hτ) (hX τ hτ) (hY τ hτ) (hΘ τ hτ)
  ext
  · refine decay (f := fun τ => (error τ).x) (k := c.gain) (T := T) (fun τ hτ => ?_) t ht
    refine ((key τ hτ).1.sub (hydx τ hτ)).congr_deriv ?_
    simp only [error, Vec2.sub_x]
    ring
  · refine decay (f := fun τ => (error τ).y) (k := c.gain) (T := T) (fun τ hτ => ?_) t ht
    refine ((key τ hτ).2.sub (hydy τ hτ)).congr_deriv ?_
    simp only [error, Vec2.sub_y]
    ring

/-- Non-vacuity of C96: a motion which the controller really produces. -/
example : let X := fun t : ℝ => -1 / 5 - Real.exp (-10 * t) / 10
    ∀ t ∈ Set.Icc (0 : ℝ) 1, ∃ u v,
      (follower 1).ctrl.person.getDesiredPoint t = .ok (0, 0) ∧
      ((follower 1).ctrl.person.setFeedback t ⟨X t, 0⟩ 0).doUnicycleControl 0 = .ok u ∧
      |u.angular| ≤ (follower 1).ctrl.person.base.maxAngular ∧
      u.forward ≤ (follower 1).ctrl.person.base.velocitySaturation u.angular ∧
      -(follower 1).ctrl.person.base.backFactor * (follower 1).ctrl.person.base.velocitySaturation u.angular ≤ u.forward ∧
      (follower 1).ctrl.person.base.doControl (some u) = some v ∧
      HasDerivAt X (dynamics ⟨⟨X t, 0⟩, 0⟩ v).position.x t := by
  intro X t ht
  have hd : HasDerivAt X (Real.exp (-10 * t)) t := by
    have h1 : HasDerivAt (fun τ : ℝ => Real.exp (-10 * τ)) (Real.exp (-10 * t) * (-10)) t := by
      simpa using ((hasDerivAt_id t).const_mul (-10)).exp
    refine ((h1.div_const 10).const_sub (-1 / 5)).congr_deriv ?_
    ring
  have he : Real.exp (-10 * t) ≤ 1 := Real.exp_le_one_iff.mpr (by linarith [ht.1])
  have hu : ((follower 1).ctrl.person.setFeedback t ⟨X t, 0⟩ 0).doUnicycleControl 0 = .ok ⟨-(10 * (X t + 1 / 5)), 0, 0⟩ := by
    have hdes : ((follower 1).ctrl.person.setFeedback t ⟨X t, 0⟩ 0).getDesiredPoint t = .ok (0, 0) :=
      follower_fixed 1 t ht.1
    simp only [doUnicycleControl, getDesiredPointInFreeSpaceEllipse, bind, Out.bind]
    rw [show ((follower 1).ctrl.person.setFeedback t ⟨X t, 0⟩ 0).time = t from rfl, hdes]
    refine congrArg Out.ok ?_
    ext <;> simp [controlLaw, setFeedback, PersonCtrl.getPersonPosition, rot, referenceInEllipse, follower, PersonCtrl.new,
      Ellipse.clear, blending]
  have hval : -(10 * (X t + 1 / 5)) = Real.exp (-10 * t) := by simp only [X]; ring
  rw [hval] at hu
  have hpos := Real.exp_pos (-10 * t)
  generalize Real.exp (-10 * t) = E at hd he hu hpos
  refine ⟨_, ⟨E, 0, 0⟩, follower_fixed 1 t ht.1, hu, ?_, ?_, ?_, ?_, ?_⟩
  · simp [follower]
  · simpa [follower, BaseCtrl.velocitySaturation] using he
  · simp [follower, BaseCtrl.velocitySaturation]
    linarith
  · simp only [BaseCtrl.doControl, Option.map_some, Option.some.injEq]
    ext
    · simp [follower, BaseCtrl.saturateSym, BaseCtrl.saturate, BaseCtrl.velocitySaturation]
      split_ifs <;> linarith
    · norm_num [follower, BaseCtrl.saturateSym, BaseCtrl.saturate]
    · norm_num [follower, BaseCtrl.saturateSym, BaseCtrl.saturate]
  · simpa [dynamics] using hd

end Uni.Follow
