import Verif.Lemmas.BaseController
import Verif.Lemmas.Plane

/-! # C07–C09: velocity limits, saturation, direct controller -/

set_option autoImplicit false
set_option linter.unusedSectionVars false

namespace Uni

namespace BaseCtrl

/-! ## C07 -/

/-- C07: take any history of setter calls on a new controller in which some `setSaturations` call was
accepted, the last accepted one being `(L, A)`.  Whatever the derived class computes, the velocities
handed to the unicycle respect the limits. -/
theorem C07_limits (ops : List (Op ℝ)) (L A : ℝ) (hsat : Spec.lastSaturations ops = some (L, A))
    (raw out : Control ℝ)
    (hout : ((new : BaseCtrl ℝ).runAll ops).doControl (some raw) = some out) :
    let c := (new : BaseCtrl ℝ).runAll ops
    |out.angular| ≤ A ∧
    out.forward ≤ L / (1 + c.turnGain * |out.angular|) ∧
    -(c.backFactor * (L / (1 + c.turnGain * |out.angular|))) ≤ out.forward ∧
    out.forward ≤ L ∧
    |out.lateral| ≤ c.sideFactor * L := by
  intro c
  have hv : c.Valid := valid_runAll ops _ valid_new
  have hs := runAll_sat ops (new : BaseCtrl ℝ)
  rw [hsat] at hs
  simp only [Option.getD_some, Prod.mk.injEq] at hs
  obtain ⟨hL0, hA0⟩ := lastSat_nonneg ops L A hsat
  have hL : c.maxLinear = L := hs.1
  have hA : c.maxAngular = A := hs.2
  have hc : c.doControl (some raw) = some out := hout
  simp only [doControl, Option.map_some, Option.some.injEq] at hc
  subst hc
  simp only [velocitySaturation, sqrt_real, hL, hA, Real.sqrt_mul_self_eq_abs]
  set w := saturateSym raw.angular A with hw
  have hden : 1 ≤ 1 + c.turnGain * |w| := by
    have := mul_nonneg hv.turn (abs_nonneg w); linarith
  have hvs0 : 0 ≤ L / (1 + c.turnGain * |w|) := div_nonneg hL0 (by linarith)
  have hvsL : L / (1 + c.turnGain * |w|) ≤ L := div_le_self hL0 hden
  have hb := saturate_bounds raw.forward (L / (1 + c.turnGain * |w|))
    (-c.backFactor * (L / (1 + c.turnGain * |w|))) hvs0
    (by have := mul_nonneg hv.back hvs0; linarith)
  refine ⟨saturateSym_bounds _ _ hA0, hb.2, ?_, hb.2.trans hvsL,
    saturateSym_bounds _ _ (mul_nonneg hv.side hL0)⟩
  have := hb.1
  linarith

/-- C07, settings part: in every history the gains stay non-negative, so the limits above are
meaningful; failing calls are the negative ones and change nothing. -/
theorem C07_settings (ops : List (Op ℝ)) :
    let c := (new : BaseCtrl ℝ).runAll ops
    0 ≤ c.turnGain ∧ 0 ≤ c.backFactor ∧ 0 ≤ c.sideFactor :=
  let h := valid_runAll ops _ (valid_new (K := ℝ))
  ⟨h.turn, h.back, h.side⟩

/-- Non-vacuity of C07: a history with a refused call, and a command which is actually cut. -/
example : Spec.lastSaturations ([.setSlowWhenTurnGain 1, .setSaturations 2 1, .setSaturations 3 (-1)] :
    List (Op ℚ)) = some (2, 1) := by decide +kernel

/-- Without any accepted `setSaturations` the command passes unchanged (the documented meaning of
the initial value −1), provided the sideways factor is positive. -/
theorem C07_unset (c : BaseCtrl ℝ) (h1 : c.maxLinear = -1) (h2 : c.maxAngular = -1)
    (ht : 0 ≤ c.turnGain) (hs : 0 < c.sideFactor) (raw : Control ℝ) :
    c.doControl (some raw) = some raw := by
  have hden : 0 < 1 + c.turnGain * |raw.angular| := by
    have := mul_nonneg ht (abs_nonneg raw.angular); linarith
  have hw : saturateSym raw.angular (-1) = raw.angular := by
    simp [saturateSym, saturate]
  have hneg : (-1 : ℝ) / (1 + c.turnGain * |raw.angular|) < 0 := div_neg_of_neg_of_pos (by norm_num) hden
  simp only [doControl, Option.map_some, h1, h2, velocitySaturation, sqrt_real, hw,
    Real.sqrt_mul_self_eq_abs]
  congr 1
  ext
  · simp [saturate, hneg]
  · rfl
  · simp [saturateSym, saturate, hs]

/-! ## C08 -/

section C08
variable {K : Type*} [Field K] [LinearOrder K] [IsStrictOrderedRing K]

/-- C08: inside the limits the command is unchanged. -/
theorem C08_identity (x p n : K) (h1 : n ≤ x) (h2 : x ≤ p) : saturate x p n = x := by
  unfold saturate
  split_ifs with a b c
  · rfl
  · exact absurd h2 (not_le.mpr b)
  · exact absurd h1 (not_le.mpr c)
  · rfl

/-- C08: saturating twice is saturating once. -/
theorem C08_idempotent (x p n : K) : saturate (saturate x p n) p n = saturate x p n := by
  by_cases h : p < 0 ∨ p < n
  · simp [saturate, h]
  · push Not at h
    have := saturate_bounds x p n h.1 h.2
    exact C08_identity _ _ _ this.1 this.2

/-- C08: a larger command never gives a smaller output. -/
theorem C08_monotone (x y p n : K) (h : x ≤ y) : saturate x p n ≤ saturate y p n := by
  unfold saturate
  split_ifs with a b c d e f g
  · exact h
  · exact le_rfl
  · exact absurd (b.trans_le h) (by assumption)
  · exact absurd (b.trans_le h) (by assumption)
  · push Not at a; exact a.2
  · exact le_rfl
  · linarith
  · push Not at b; exact b
  · linarith
  · exact h

/-- C08: with limits around zero, the sign of the command is never reversed. -/
theorem C08_sign (x p n : K) (hp : 0 ≤ p) (hn : n ≤ 0) :
    (0 ≤ x → 0 ≤ saturate x p n) ∧ (x ≤ 0 → saturate x p n ≤ 0) ∧ (x = 0 → saturate x p n = 0) := by
  refine ⟨fun hx => ?_, fun hx => ?_, fun hx => ?_⟩
  · have := C08_monotone 0 x p n hx
    rwa [C08_identity 0 p n hn hp] at this
  · have := C08_monotone x 0 p n hx
    rwa [C08_identity 0 p n hn hp] at this
  · rw [hx, C08_identity 0 p n hn hp]

/-- Non-vacuity of C08: commands which are really limited on both sides. -/
example : saturate (5 : ℚ) 2 (-1) = 2 ∧ saturate (-5 : ℚ) 2 (-1) = -1 := by decide +kernel

end C08
end BaseCtrl

/-! ## C09 -/

namespace DirectCtrl

/-- C09: while the time is before the end of the inactivity interval all velocities are zero,
whatever the base-class settings reached by any history of setters. -/
theorem C09_inactive (ops : List (BaseCtrl.Op ℝ)) (c : DirectCtrl ℝ) (t : ℝ)
    (h : t < c.deactivationEnd) :
    control ((BaseCtrl.new : BaseCtrl ℝ).runAll ops) c t = some ⟨0, 0, 0⟩ := by
  have hv := BaseCtrl.valid_runAll ops _ (BaseCtrl.valid_new (K := ℝ))
  generalize (BaseCtrl.new : BaseCtrl ℝ).runAll ops = b at hv
  have hz : ∀ p n : ℝ, (0 ≤ p → n ≤ 0) → BaseCtrl.saturate 0 p n = 0 := by
    intro p n hpn
    by_cases hp : p < 0
    · simp [BaseCtrl.saturate, hp]
    · exact BaseCtrl.C08_identity 0 p n (hpn (not_lt.mp hp)) (not_lt.mp hp)
  simp only [control, setFeedback, doUnicycleControl, h, if_true, BaseCtrl.doControl,
    Option.map_some, BaseCtrl.saturateSym]
  congr 1
  ext
  · exact hz _ _ (fun hp => by have := mul_nonneg hv.back hp; linarith)
  · exact hz _ _ (fun hp => by linarith)
  · exact hz _ _ (fun hp => by linarith)

/-- C09: from the end of the interval on, the controller's own output is exactly the last control
set, after any sequence of calls. -/
theorem C09_active (before after : List (Op ℝ)) (v : Control ℝ)
    (hafter : ∀ o ∈ after, ∀ w, o ≠ Op.setConstantControl w) (c₀ : DirectCtrl ℝ) :
    let c := (before ++ Op.setConstantControl v :: after).foldl run c₀
    c.deactivationEnd ≤ c.time → c.doUnicycleControl = some v := by
  intro c hc
  have hd : c.desired = v := by
    have key : ∀ (l : List (Op ℝ)) (d : DirectCtrl ℝ), (∀ o ∈ l, ∀ w, o ≠ Op.setConstantControl w) →
        (l.foldl run d).desired = d.desired := by
      intro l
      induction l with
      | nil => intros; rfl
      | cons o os ih =>
        intro d h
        rw [List.foldl_cons, ih _ (fun o ho => h o (List.mem_cons_of_mem _ ho))]
        cases o with
        | setConstantControl w => exact absurd rfl (h _ (by simp) w)
        | setInactiveUntil t => rfl
        | setFeedback t => rfl
    simp only [c, List.foldl_append, List.foldl_cons]
    rw [key _ _ hafter]
    rfl
  simp [doUnicycleControl, not_lt.mpr hc, hd]

/-- C09: the unicycle integrated (forward Euler, any step `h`, any number of steps) stays exactly
still as long as all the integration times are in the inactivity interval. -/
theorem C09_still (ops : List (BaseCtrl.Op ℝ)) (c : DirectCtrl ℝ) (h : ℝ) (n : ℕ) (t : ℝ)
    (s : UState ℝ) (hend : ∀ k : ℕ, k < n → t + k * h < c.deactivationEnd) :
    euler h (fun t _ => control ((BaseCtrl.new : BaseCtrl ℝ).runAll ops) c t) n t s = some s := by
  induction n generalizing t s with
  | zero => rfl
  | succ n ih =>
    have h0 : t < c.deactivationEnd := by simpa using hend 0 (Nat.succ_pos n)
    have hstep : eulerStep h s (⟨0, 0, 0⟩ : Control ℝ) = s := by
      ext <;> simp [eulerStep, dynamics]
    simp only [euler, C09_inactive ops c t h0, Option.bind_some, hstep]
    apply ih
    intro k hk
    have := hend (k + 1) (by omega)
    push_cast at this
    linarith

/-- Non-vacuity of C09: a controller with a non-zero control, inactive until time 2. -/
example : ∃ c : DirectCtrl ℝ, c.desired ≠ ⟨0, 0, 0⟩ ∧
    ∀ k : ℕ, k < 10 → (0 : ℝ) + k * (1 / 10) < c.deactivationEnd :=
  ⟨⟨⟨1, 2, 3⟩, 0, 2⟩, by simp, by
    intro k hk
    have : (k : ℝ) < 10 := by exact_mod_cast hk
    show (0 : ℝ) + k * (1 / 10) < 2
    linarith⟩

/-- C09: the interval is the one given by the last `setInactiveUntil` call, the time the one of the last feedback: whatever
the history is, the output is zero before the end of the interval and the constant control from there on. -/
theorem C09_until (before mid after : List (Op ℝ)) (T t : ℝ) (hmid : ∀ o ∈ mid, ∀ T', o ≠ Op.setInactiveUntil T')
    (hafter : ∀ o ∈ after, (∀ T', o ≠ Op.setInactiveUntil T') ∧ ∀ t', o ≠ Op.setFeedback t') (c₀ : DirectCtrl ℝ) :
    let c := (before ++ Op.setInactiveUntil T :: mid ++ Op.setFeedback t :: after).foldl run c₀
    (t < T → c.doUnicycleControl = some ⟨0, 0, 0⟩) ∧ (T ≤ t → c.doUnicycleControl = some c.desired) := by
  have hT : ∀ (l : List (Op ℝ)) (d : DirectCtrl ℝ), (∀ o ∈ l, ∀ T', o ≠ Op.setInactiveUntil T') →
      (l.foldl run d).deactivationEnd = d.deactivationEnd := by
    intro l
    induction l with
    | nil => intros; rfl
    | cons o os ih =>
      intro d h
      rw [List.foldl_cons, ih _ (fun o ho => h o (List.mem_cons_of_mem _ ho))]
      cases o with
      | setConstantControl w => rfl
      | setInactiveUntil t => exact absurd rfl (h _ (by simp) t)
      | setFeedback t => rfl
  have ht : ∀ (l : List (Op ℝ)) (d : DirectCtrl ℝ), (∀ o ∈ l, ∀ t', o ≠ Op.setFeedback t') →
      (l.foldl run d).time = d.time := by
    intro l
    induction l with
    | nil => intros; rfl
    | cons o os ih =>
      intro d h
      rw [List.foldl_cons, ih _ (fun o ho => h o (List.mem_cons_of_mem _ ho))]
      cases o with
      | setConstantControl w => rfl
      | setInactiveUntil t => rfl
      | setFeedback t => exact absurd rfl (h _ (by simp) t)
  intro c
  have h1 : c.deactivationEnd = T := by
    simp only [c, List.foldl_append, List.foldl_cons]
    rw [hT after _ (fun o ho => (hafter o ho).1)]
    show (List.foldl run _ mid).deactivationEnd = T
    rw [hT mid _ hmid]
    rfl
  have h2 : c.time = t := by
    simp only [c, List.foldl_append, List.foldl_cons]
    rw [ht after _ (fun o ho => (hafter o ho).2)]
    rfl
  constructor
  · intro h
    simp only [doUnicycleControl, h1, h2, if_pos h]
  · intro h
    simp only [doUnicycleControl, h1, h2, if_neg (not_lt.mpr h)]

/-- Non-vacuity of `C09_until`: the output changes at time 2. -/
example : ([Op.setConstantControl ⟨1, 2, 3⟩, .setInactiveUntil 2, .setFeedback 1].foldl run
      (⟨⟨0, 0, 0⟩, 0, 0⟩ : DirectCtrl ℚ)).doUnicycleControl = some ⟨0, 0, 0⟩ ∧
    ([Op.setConstantControl ⟨1, 2, 3⟩, .setInactiveUntil 2, .setFeedback 2].foldl run
      (⟨⟨0, 0, 0⟩, 0, 0⟩ : DirectCtrl ℚ)).doUnicycleControl = some ⟨1, 2, 3⟩ := by decide +kernel

end DirectCtrl

/-! ## C67 -/

/-- C67: seen from the unicycle (that is, rotated back by its heading), its velocity is the commanded forward and lateral
one; it turns with the commanded angular velocity. -/
theorem C67_frame (s : UState ℝ) (c : Control ℝ) :
    rotT s.angle (dynamics s c).position = ⟨c.forward, c.lateral⟩ ∧ (dynamics s c).angle = c.angular := by
  refine ⟨?_, rfl⟩
  have h := Real.sin_sq_add_cos_sq s.angle
  ext <;> simp only [rotT, dynamics, cos_real, sin_real]
  · linear_combination c.forward * h
  · linear_combination c.lateral * h

/-- C67: hence its speed is the commanded one. -/
theorem C67_speed (s : UState ℝ) (c : Control ℝ) :
    (dynamics s c).position.x ^ 2 + (dynamics s c).position.y ^ 2 = c.forward ^ 2 + c.lateral ^ 2 := by
  have h := Real.sin_sq_add_cos_sq s.angle
  simp only [dynamics, cos_real, sin_real]
  linear_combination (c.forward ^ 2 + c.lateral ^ 2) * h

/-- C67: with a constant command without rotation, `n` integration steps move the unicycle along a straight line by
`n h` times the commanded velocity, turned into the world by its heading. -/
theorem C67_straight (h v w : ℝ) (n : ℕ) (t : ℝ) (s : UState ℝ) :
    euler h (fun _ _ => some { forward := v, lateral := w, angular := 0 }) n t s =
      some ⟨⟨s.position.x + n * h * (Real.cos s.angle * v - Real.sin s.angle * w),
        s.position.y + n * h * (Real.sin s.angle * v + Real.cos s.angle * w)⟩, s.angle⟩ := by
  induction n generalizing t s with
  | zero => simp [euler]
  | succ n ih =>
    simp only [euler, Option.bind_some, ih]
    congr 1
    ext <;> simp only [eulerStep, dynamics, cos_real, sin_real, Vec2.add_x, Vec2.add_y, Vec2.smul_x, Vec2.smul_y, mul_zero, add_zero] <;> push_cast <;> ring

/-- C67: with a constant command without translation it turns in place. -/
theorem C67_turn (h w : ℝ) (n : ℕ) (t : ℝ) (s : UState ℝ) :
    euler h (fun _ _ => some { forward := 0, lateral := 0, angular := w }) n t s = some ⟨s.position, s.angle + n * h * w⟩ := by
  induction n generalizing t s with
  | zero => simp [euler]
  | succ n ih =>
    simp only [euler, Option.bind_some, ih]
    congr 1
    ext <;> simp [eulerStep, dynamics] <;> ring

/-- Non-vacuity of C67: a unicycle heading along y that moves forward moves along y. -/
example : (dynamics (⟨⟨0, 0⟩, Real.pi / 2⟩ : UState ℝ) ⟨1, 0, 0⟩).position = ⟨0, 1⟩ := by
  ext <;> simp [dynamics]

end Uni
