import Verif.Props.DCMReal

/-! # C48: the weights reported with the DCM; C49: the setters of its parameters -/

set_option autoImplicit false
set_option linter.unusedSectionVars false

namespace Uni
open Spec Gen
namespace Dcm

section
variable {K : Type} [Field K] [LinearOrder K] [IsStrictOrderedRing K] [FloorRing K] [Trig K]
variable {cfg : GenSettings K} {left right : FootPrint K} {initTime dT : K} {sorted ordered : List (Ptr K)} {t : Timing K}
variable {d d' : Dcm K} {o : DcmOut K}

/-! ## C48 -/

theorem leftWeight_range (zl zr z : Vec2 K) : 0 ≤ leftWeight zl zr z ∧ leftWeight zl zr z ≤ 1 := by
  unfold leftWeight
  split_ifs
  · exact ⟨le_rfl, zero_le_one⟩
  · exact ⟨le_min zero_le_one (le_max_left _ _), min_le_left _ _⟩

/-- C48: the weights are between zero and one and add up to one. -/
theorem C48_valid {steps : List (Step K)} {shifts : List Nat} {lp : List Phase}
    (ho : d.computeNewTrajectories cfg initTime dT steps shifts lp left right = .ok (true, d', some o)) (w : K × K)
    (hw : w ∈ o.weights) : 0 ≤ w.1 ∧ w.1 ≤ 1 ∧ 0 ≤ w.2 ∧ w.2 ≤ 1 ∧ w.1 + w.2 = 1 := by
  obtain ⟨l, r, init, -, -, -, h4, -⟩ := compute_inv ho
  obtain ⟨-, -, -, g4⟩ := generate_inv h4
  unfold feetWeights at g4
  rw [Out.bind_eq_ok] at g4
  obtain ⟨⟨s', out⟩, g5, g6⟩ := g4
  cases g6
  unfold overPhases at g5
  have body : ∀ k b p i j s s' l, (d.ready cfg dT init).weightBody (o.samples.map DcmSample.zmp) k b p i j s = .ok (s', l) →
      ∀ w ∈ l, 0 ≤ w.1 ∧ w.1 ≤ 1 ∧ 0 ≤ w.2 ∧ w.2 ≤ 1 ∧ w.1 + w.2 = 1 := by
    intro k b p i j s s' l h w hw
    unfold weightBody at h
    have dbl : ∀ (a b : Vec2 K) (zs : List (Vec2 K)), w ∈ zs.map (fun z => (leftWeight a b z, 1 - leftWeight a b z)) →
        0 ≤ w.1 ∧ w.1 ≤ 1 ∧ 0 ≤ w.2 ∧ w.2 ≤ 1 ∧ w.1 + w.2 = 1 := by
      intro a b zs hm
      obtain ⟨z, -, rfl⟩ := List.mem_map.mp hm
      obtain ⟨h1, h2⟩ := leftWeight_range a b z
      exact ⟨h1, h2, by linarith, by linarith, by ring⟩
    cases p <;> simp only at h
    all_goals
      split at h
      all_goals
        first
        | (cases h; done)
        | (cases h
           obtain ⟨-, rfl⟩ := List.mem_replicate.mp hw
           norm_num)
        | (split_ifs at h
           cases h
           exact dbl _ _ _ hw)
  exact phaseLoop_all body g5 w hw

/-- C48: there is a pair of weights for every sample; in single support the stance foot carries all the weight; in double support the
left foot carries the complement of the distance of the ZMP from the left foot, relative to the distance of the feet, cut to
the interval from zero to one. -/
theorem C48_follow (hexp : Trig.exp (0 : K) = 1) (hw : Walk cfg left right initTime dT sorted ordered t) (hv : ValidDcm d)
    (ho : Done d cfg left right initTime dT ordered t d' o) :
    o.weights.length = o.samples.length ∧
    (∀ j : Nat, t.left[j]? = some .stance → o.weights[j]? = some (1, 0)) ∧ (∀ j : Nat, t.right[j]? = some .stance → o.weights[j]? = some (0, 1)) ∧
    ∀ (j : Nat) (s : DcmSample K), o.samples[j]? = some s → t.left[j]? = some .switchIn ∨ t.left[j]? = some .switchOut →
      ∃ l r w, left.steps[landings t.left j]? = some l ∧ right.steps[landings t.right j]? = some r ∧
        o.weights[j]? = some (w, 1 - w) ∧
        ((inWorld r d.rightDelta - inWorld l d.leftDelta).norm ≠ 0 → w = min 1 (max 0
          (1 - (s.zmp - inWorld l d.leftDelta).norm / (inWorld r d.rightDelta - inWorld l d.leftDelta).norm))) := by
  obtain ⟨l0, r0, tt, hr⟩ := timeline_ok hw.made
  obtain ⟨x, y, u, v, p, he⟩ := ends_ok (d := d) hw hr
  obtain ⟨init, -, -, hev, hwt, -⟩ := whole_of hexp hw hv ho hr he
  have hlen := (evaluate_inv hev).1
  obtain ⟨out, w1, w2, w3, w4⟩ := weights_of hw hr (d.ready cfg dT init) (zmps := o.samples.map DcmSample.zmp)
    (by rw [List.length_map, hlen])
  rw [hwt] at w1; cases w1
  have hN := (shifts_ends hw hr).2.2.2
  have single : ∀ (f : Bool) (j : Nat), (if f then t.left else t.right)[j]? = some .stance →
      o.weights[j]? = some (if f then (1, 0) else (0, 1)) := by
    intro f j hj
    obtain ⟨k, z, hk, h1, h2, h3, -⟩ := slot_of_phase hw hr f hj (Or.inl rfl)
    obtain ⟨i, rfl⟩ := Nat.exists_eq_add_of_le h1
    rw [w3 k z hk i (by omega)]
    rw [show z.left = !f by simpa using h3]
    cases f <;> rfl
  refine ⟨by rw [w2, hlen], fun j hj => single true j (by simpa using hj), fun j hj => single false j (by simpa using hj),
    fun j s hs hph => ?_⟩
  have hj : j < t.left.length := by rw [← hlen]; exact (List.getElem?_eq_some_iff.mp hs).1
  obtain ⟨k, k1, k2, k3, k4⟩ := slot_at hw hr hj
  have eL := k4 true
  have eR := k4 false
  simp only [if_true, Bool.false_eq_true, if_false] at eL eR
  rw [eL, eR]
  obtain ⟨i, rfl⟩ := Nat.exists_eq_add_of_le k2
  obtain ⟨l, r, z, w, a1, a2, a3, a4, a5⟩ := w4 k k1 i (by
    rcases Nat.eq_or_lt_of_le k1 with he | hlt
    · rw [List.getElem?_eq_none (by omega)]
      rw [he] at hj
      simp only
      omega
    · have hk : tt.slots[k]? = some tt.slots[k] := List.getElem?_eq_getElem hlt
      rw [hk]
      simp only
      by_contra hc
      have k3 := k3 hlt
      rw [slotStart_succ _ _ _ hk] at k3
      have := (phases_slot tt true k _ hk).2 (slotStart tt.slots k + i) (by omega) k3
      rw [← hr.built.left] at this
      rw [this] at hph
      split_ifs at hph <;> simp at hph)
  rw [List.getElem?_map, hs] at a3
  cases a3
  refine ⟨l, r, w, a1, a2, a4, fun hne => ?_⟩
  rw [a5]
  unfold leftWeight
  have e1 : footZmp (d.ready cfg dT init).leftDelta l = inWorld l d.leftDelta := rfl
  have e2 : footZmp (d.ready cfg dT init).rightDelta r = inWorld r d.rightDelta := rfl
  rw [e1, e2, if_neg hne]

/-! ## C49 -/

/-- C49: the offset of the last step is accepted exactly if it is between zero and one. -/
theorem C49_lastOffset (d : Dcm K) (x : K) :
    ((d.setLastStepDCMOffsetPercentage x).1 = true ↔ 0 ≤ x ∧ x ≤ 1) ∧
    ((d.setLastStepDCMOffsetPercentage x).1 = true → (d.setLastStepDCMOffsetPercentage x).2 = { d with lastOffset := x }) ∧
    ((d.setLastStepDCMOffsetPercentage x).1 = false → (d.setLastStepDCMOffsetPercentage x).2 = d) := by
  unfold setLastStepDCMOffsetPercentage
  by_cases h : 1 < x ∨ x < 0
  · rw [if_pos h]
    refine ⟨⟨fun hc => by simp at hc, fun hc => ?_⟩, fun hc => by simp at hc, fun _ => rfl⟩
    rcases h with h | h
    · exact absurd hc.2 (not_le.mpr h)
    · exact absurd hc.1 (not_le.mpr h)
  · rw [if_neg h]
    rw [not_or, not_lt, not_lt] at h
    exact ⟨⟨fun _ => ⟨h.2, h.1⟩, fun _ => rfl⟩, fun _ => rfl, fun hc => by simp at hc⟩

/-- C49, violation: any value is accepted for `alpha` and for the stillness. -/
theorem C49_alpha_stillness_violation (d : Dcm K) (x : K) :
    d.setAlpha x = (true, { d with alpha := x }) ∧ d.setStillnessPercentage x = (true, { d with stillness := x }) := by
  have h : ¬(x < 0 ∧ 1 < x) := fun h => absurd (h.1.trans (zero_lt_one.trans h.2)) (lt_irrefl x)
  unfold setAlpha setStillnessPercentage
  rw [if_neg h, if_neg h]
  exact ⟨rfl, rfl⟩

/-- C49: negative values are refused for `omega`, positive ones accepted. -/
theorem C49_omega_partial (d : Dcm K) (x : K) :
    (x < 0 → d.setOmega x = (false, d)) ∧ (0 < x → d.setOmega x = (true, { d with omega := x })) := by
  unfold setOmega
  exact ⟨fun h => by rw [if_pos h], fun h => by rw [if_neg (not_lt.mpr h.le)]⟩

/-- C49, violation: zero is accepted for `omega`. -/
theorem C49_omega_zero_violation (d : Dcm K) : d.setOmega 0 = (true, { d with omega := 0 }) := by
  unfold setOmega
  rw [if_neg (lt_irrefl _)]

end

/-! ## The weights and the ZMP over the reals -/

theorem norm_ne_zero {a b : Vec2 ℝ} (hne : a ≠ b) : (b - a).norm ≠ 0 := by
  intro h
  rw [show (b - a).norm = Real.sqrt ((b - a).x ^ 2 + (b - a).y ^ 2) by simp [Vec2.norm, Vec2.normSq, sq],
    Real.sqrt_eq_zero (by positivity)] at h
  have hx : (b - a).x = 0 := by nlinarith [sq_nonneg (b - a).x, sq_nonneg (b - a).y]
  have hy : (b - a).y = 0 := by nlinarith [sq_nonneg (b - a).x, sq_nonneg (b - a).y]
  rw [Vec2.sub_x, sub_eq_zero] at hx
  rw [Vec2.sub_y, sub_eq_zero] at hy
  exact hne (Vec2.ext hx.symm hy.symm)

/-- C48: where the ZMP is between the ZMPs of the feet, the weights give it back. -/
theorem C48_reproduce {zl zr z : Vec2 ℝ} (hne : zl ≠ zr) (hz : OnSegment zl zr z) :
    leftWeight zl zr z * zl + (1 - leftWeight zl zr z) * zr = z := by
  obtain ⟨lam, h0, h1, rfl⟩ := hz
  have hn : ∀ v : Vec2 ℝ, v.norm = Real.sqrt (v.x ^ 2 + v.y ^ 2) := by
    intro v; simp [Vec2.norm, Vec2.normSq, sq]
  have hd : (zr - zl).norm ≠ 0 := norm_ne_zero hne
  have hv : ∀ v : Vec2 ℝ, (lam * v).norm = lam * v.norm := by
    intro v
    rw [hn, hn]
    simp only [Vec2.smul_x, Vec2.smul_y, mul_pow, ← mul_add]
    rw [Real.sqrt_mul (sq_nonneg _), Real.sqrt_sq h0]
  have hp : (1 - lam) * zl + lam * zr - zl = lam * (zr - zl) := by
    ext <;> simp <;> ring
  have hq : ((1 - lam) * zl + lam * zr - zl).norm = lam * (zr - zl).norm := by rw [hp, hv]
  have hw : leftWeight zl zr ((1 - lam) * zl + lam * zr) = 1 - lam := by
    unfold leftWeight
    rw [if_neg hd, hq, mul_div_assoc, div_self hd, mul_one, max_eq_right (by linarith), min_eq_right (by linarith)]
  rw [hw]
  ext <;> simp

variable {cfg : GenSettings ℝ} {left right : FootPrint ℝ} {initTime dT : ℝ} {sorted ordered : List (Ptr ℝ)} {t : Timing ℝ}
variable {d d' : Dcm ℝ} {o : DcmOut ℝ}

/-- C48: the mean of the ZMPs of the feet with the weights reported is the ZMP, in single support and wherever the ZMP is between
those of the feet. -/
theorem C48_mean (hw : Walk cfg left right initTime dT sorted ordered t) (hv : ValidDcm d)
    (hroom : HasRoom cfg d dT t) (hturns : TakeTurns left.steps right.steps)
    (ho : Done d cfg left right initTime dT ordered t d' o) (j : Nat) (s : DcmSample ℝ) (hs : o.samples[j]? = some s) :
    ∃ l r w, left.steps[landings t.left j]? = some l ∧ right.steps[landings t.right j]? = some r ∧ o.weights[j]? = some w ∧
      (t.left[j]? = some .stance ∨ t.right[j]? = some .stance ∨
        inWorld l d.leftDelta ≠ inWorld r d.rightDelta ∧ OnSegment (inWorld l d.leftDelta) (inWorld r d.rightDelta) s.zmp →
        w.1 * inWorld l d.leftDelta + w.2 * inWorld r d.rightDelta = s.zmp) := by
  obtain ⟨l0, r0, tt, hr⟩ := timeline_ok hw.made
  obtain ⟨h1, h2, h3, h4⟩ := C48_follow exp_zero_real hw hv ho
  obtain ⟨-, -, -, -, hlen⟩ := C47_chain exp_zero_real hw hv ho
  have hj : j < t.left.length := by rw [← hlen]; exact (List.getElem?_eq_some_iff.mp hs).1
  obtain ⟨st1, st2⟩ := C46_stance exp_zero_real hw hv hroom hturns ho j
  obtain ⟨a, b, e1, e2, hcomp⟩ := C35_complementary hw.made j hj
  obtain ⟨k, k1, -, -, k4⟩ := slot_at hw hr hj
  have contact : ∀ f : Bool, ∃ c, (if f then left.steps else right.steps)[landings (if f then t.left else t.right) j]? = some c := by
    intro f
    refine ⟨_, List.getElem?_eq_getElem ?_⟩
    rw [k4 f, ← slots_count_steps hw.sort hr f]
    have := (List.take_sublist k tt.slots).countP_le (p := fun x : Slot => x.left == f)
    omega
  obtain ⟨l, hl⟩ := contact true
  obtain ⟨r, hr'⟩ := contact false
  simp only [if_true, Bool.false_eq_true, if_false] at hl hr'
  cases a with
  | stance =>
    obtain ⟨s', l', b1, b2, b3⟩ := st1 e1
    rw [hs] at b1; cases b1
    rw [hl] at b2; cases b2
    refine ⟨_, r, _, hl, hr', h2 j e1, fun _ => ?_⟩
    rw [b3]
    ext <;> simp
  | swing =>
    have hst : t.right[j]? = some .stance := by
      rw [e2]
      revert hcomp
      cases b <;> simp [Complementary]
    obtain ⟨s', r', b1, b2, b3⟩ := st2 hst
    rw [hs] at b1; cases b1
    rw [hr'] at b2; cases b2
    refine ⟨l, _, _, hl, hr', h3 j hst, fun _ => ?_⟩
    rw [b3]
    ext <;> simp
  | switchIn =>
    obtain ⟨l, r, w, a1, a2, a3, a4⟩ := h4 j s hs (Or.inl e1)
    refine ⟨l, r, _, a1, a2, a3, fun h => ?_⟩
    rcases h with h | h | ⟨hne, hon⟩
    · rw [e1] at h; cases h
    · rw [e2] at h; cases h; exact absurd hcomp (by simp [Complementary])
    · have := C48_reproduce hne hon
      unfold leftWeight at this
      rw [if_neg (norm_ne_zero hne), ← a4 (norm_ne_zero hne)] at this
      exact this
  | switchOut =>
    obtain ⟨l, r, w, a1, a2, a3, a4⟩ := h4 j s hs (Or.inr e1)
    refine ⟨l, r, _, a1, a2, a3, fun h => ?_⟩
    rcases h with h | h | ⟨hne, hon⟩
    · rw [e1] at h; cases h
    · rw [e2] at h; cases h; exact absurd hcomp (by simp [Complementary])
    · have := C48_reproduce hne hon
      unfold leftWeight at this
      rw [if_neg (norm_ne_zero hne), ← a4 (norm_ne_zero hne)] at this
      exact this

end Dcm
end Uni
