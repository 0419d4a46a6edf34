import Verif.Lemmas.ZMPSteps

/-! # C44, C69: the weights on the feet -/

set_option autoImplicit false
set_option linter.unusedSectionVars false

namespace Uni
open Spec Gen
namespace Zmp

section
variable {K : Type} [Field K] [LinearOrder K] [IsStrictOrderedRing K] [FloorRing K] [Trig K]
variable {cfg : GenSettings K} {left right : FootPrint K} {initTime dT : K} {sorted ordered : List (Ptr K)} {t : Timing K}
variable {z z' : Zmp K} {o : ZmpOut K} {merges shifts : List Nat} {steps : List (Step K)} {lp rp : List Phase}

theorem compute_inv (ho : z.computeNewTrajectories cfg initTime dT merges left right steps lp rp shifts = .ok (z', o)) :
    weights (ZmpTimes.of cfg) z.start dT lp shifts = .ok o.weightL ∧
    recordStates merges o.weightL 0 0 (resizeStates z.initStates merges.length) = .ok z'.initStates ∧
    o.weightR = mirror o.weightL ∧
    localZmp (ZmpTimes.of cfg) z.leftStance z.leftSwitch dT lp shifts = .ok o.localL ∧
    localZmp (ZmpTimes.of cfg) z.rightStance z.rightSwitch dT rp shifts = .ok o.localR ∧
    world z'.previousLeft z'.previousRight initTime dT shifts steps left.footName right.footName o.localL o.localR
      o.weightL o.weightR = .ok o.world ∧
    z'.initialSpecified = false ∧ z'.previousSpecified = false ∧
    (z.previousSpecified = true → z'.previousLeft = z.previousLeft ∧ z'.previousRight = z.previousRight) ∧
    (z.previousSpecified = false → left.steps.head? = some z'.previousLeft ∧ right.steps.head? = some z'.previousRight) := by
  unfold computeNewTrajectories at ho
  simp only at ho
  rw [Out.bind_eq_ok] at ho
  obtain ⟨⟨ol, or⟩, h0, ho⟩ := ho
  rw [Out.bind_eq_ok] at ho
  obtain ⟨wl, h1, ho⟩ := ho
  rw [Out.bind_eq_ok] at ho
  obtain ⟨st, h2, ho⟩ := ho
  rw [Out.bind_eq_ok] at ho
  obtain ⟨zl, h3, ho⟩ := ho
  rw [Out.bind_eq_ok] at ho
  obtain ⟨zr, h4, ho⟩ := ho
  rw [Out.bind_eq_ok] at ho
  obtain ⟨w, h5, ho⟩ := ho
  cases ho
  refine ⟨h1, h2, rfl, h3, h4, h5, rfl, rfl, fun h => ?_, fun h => ?_⟩
  · unfold previousSteps at h0
    rw [if_pos h] at h0; cases h0; exact ⟨rfl, rfl⟩
  · unfold previousSteps at h0
    rw [if_neg (by simp [h])] at h0
    split at h0
    · cases h0; simp_all
    · simp at h0

/-! ## C44 -/

/-- C44: the two weights add up to one, their velocities and accelerations to zero. -/
theorem C44_complementary
    (ho : z.computeNewTrajectories cfg initTime dT merges left right steps lp rp shifts = .ok (z', o)) :
    o.weightR.length = o.weightL.length ∧ ∀ (j : Nat) (a b : Motion K), o.weightL[j]? = some a → o.weightR[j]? = some b →
      a.pos + b.pos = 1 ∧ a.vel + b.vel = 0 ∧ a.acc + b.acc = 0 := by
  obtain ⟨-, -, h, -⟩ := compute_inv ho
  rw [h]
  refine ⟨by simp [mirror], fun j a b ha hb => ?_⟩
  rw [mirror, List.getElem?_map, ha] at hb
  cases hb
  simp

theorem weights_at (h : timeline cfg left right initTime dT sorted = .ok (ordered, t))
    (ho : z.computeNewTrajectories cfg initTime dT t.merges left right (ordered.map Ptr.step) t.left t.right t.shifts = .ok (z', o)) :
    o.weightL.length = t.left.length ∧ ∀ j, j < o.weightL.length → ∃ i a b p l, t.shifts[i]? = some a ∧
      t.shifts[i + 1]? = some b ∧ a ≤ j ∧ j < b ∧ (∀ m, a ≤ m → m < b → t.left[m]? = some p) ∧
      weightBody (ZmpTimes.of cfg) z.start t.left dT (1 + i) (decide (i + 2 = t.shifts.length)) p a b () = .ok ((), l) ∧
      o.weightL[j]? = l[j - a]? := by
  obtain ⟨hw, -⟩ := compute_inv ho
  unfold weights at hw
  rw [Out.bind_eq_ok] at hw
  obtain ⟨⟨s', out⟩, hr, hw⟩ := hw
  simp only at hw
  injection hw with hw
  rw [← hw]
  obtain ⟨h1, h2⟩ := overPhases_at h (weightBody_length _ _ _ _) (Or.inl rfl) hr
  refine ⟨h1, fun j hj => ?_⟩
  obtain ⟨i, a, b, p, s1, s2, l, q1, q2, q3, q4, q5, q6, q7⟩ := h2 j hj
  exact ⟨i, a, b, p, l, q1, q2, q3, q4, q5, q6, q7⟩

/-- C44: there is a weight for every sample; a swinging foot carries nothing and the other one everything. -/
theorem C44_single_support (h : timeline cfg left right initTime dT sorted = .ok (ordered, t))
    (ho : z.computeNewTrajectories cfg initTime dT t.merges left right (ordered.map Ptr.step) t.left t.right t.shifts = .ok (z', o)) :
    o.weightL.length = t.left.length ∧ o.weightR.length = t.left.length ∧ ∀ j : Nat,
      (t.left[j]? = some .swing → o.weightL[j]? = some ⟨0, 0, 0⟩ ∧ o.weightR[j]? = some ⟨1, 0, 0⟩) ∧
      (t.right[j]? = some .swing → o.weightL[j]? = some ⟨1, 0, 0⟩ ∧ o.weightR[j]? = some ⟨0, 0, 0⟩) := by
  obtain ⟨h1, h2⟩ := weights_at h ho
  have h3 := (C44_complementary ho).1
  obtain ⟨-, -, hm, -⟩ := compute_inv ho
  have key : ∀ (j : Nat) (p : Phase), t.left[j]? = some p → (p = .stance ∨ p = .swing) →
      o.weightL[j]? = some ⟨if p = .stance then 1 else 0, 0, 0⟩ := by
    intro j p hj hp
    obtain ⟨i, a, b, p', l, -, -, a1, a2, a3, a4, a5⟩ := h2 j (by rw [h1]; exact (List.getElem?_eq_some_iff.mp hj).1)
    have := a3 j a1 a2
    rw [hj] at this
    cases this
    rw [a5]
    exact weightBody_single a4 hp a3 _ (by omega)
  have hR : ∀ (j : Nat) (w : Motion K), o.weightL[j]? = some w → o.weightR[j]? = some ⟨1 - w.pos, -w.vel, -w.acc⟩ := by
    intro j w hj
    rw [hm, mirror, List.getElem?_map, hj]
    rfl
  refine ⟨h1, by rw [h3, h1], fun j => ⟨fun hj => ?_, fun hj => ?_⟩⟩
  · have := key j _ hj (Or.inr rfl)
    rw [if_neg (by decide)] at this
    refine ⟨this, ?_⟩
    rw [hR j _ this]
    simp
  · obtain ⟨p1, -⟩ := C34_partition h
    obtain ⟨a, b, ha, hb, hc⟩ := C35_complementary h j (by rw [p1]; exact (List.getElem?_eq_some_iff.mp hj).1)
    rw [hj] at hb
    cases hb
    cases a <;> simp [Complementary] at hc
    have := key j _ ha (Or.inl rfl)
    rw [if_pos rfl] at this
    refine ⟨this, ?_⟩
    rw [hR j _ this]
    simp

theorem times_valid (hv : ValidTimings cfg) : 0 < (ZmpTimes.of cfg).endSwitch ∧ 0 < (ZmpTimes.of cfg).nominalSwitch :=
  ⟨hv.end_pos, mul_pos hv.switch_pos hv.nominal_pos⟩

/-- C44: how the weight moves in a double support without a pause, except the first one: from the foot that will lift to the
one that just landed (in the last double support, to the middle), along the cubic that starts and ends at rest. -/
theorem C44_transfer (hv : ValidTimings cfg) (hpa : cfg.pauseActive = false)
    (h : timeline cfg left right initTime dT sorted = .ok (ordered, t))
    (ho : z.computeNewTrajectories cfg initTime dT t.merges left right (ordered.map Ptr.step) t.left t.right t.shifts = .ok (z', o))
    (j a b i : Nat) (ha : t.shifts[i + 1]? = some a) (hb : t.shifts[i + 2]? = some b) (haj : a ≤ j) (hjb : j < b) (p : Phase)
    (hp : t.left[j]? = some p) (hd : p = .switchIn ∨ p = .switchOut) :
    ∃ w s : K, o.weightL[j]?.map Motion.pos = some w ∧ s = ((j - a : Nat) : K) / ((b - a : Nat) : K) ∧
      w = (if p = .switchIn then 0 else 1) + s ^ 2 * (3 - 2 * s) *
        ((if i + 3 = t.shifts.length then 1 / 2 else if p = .switchIn then 1 else 0) - (if p = .switchIn then 0 else 1)) := by
  obtain ⟨h1, h2⟩ := weights_at h ho
  obtain ⟨i', a', b', p', l, q1, q2, q3, q4, q5, q6, q7⟩ := h2 j (by rw [h1]; exact (List.getElem?_eq_some_iff.mp hp).1)
  obtain ⟨rfl, rfl, rfl⟩ := shift_unique h ha hb haj hjb q1 q2 q3 q4
  have := q5 j q3 q4
  rw [hp] at this; cases this
  obtain ⟨r1, r2⟩ := times_valid hv
  obtain ⟨l0, r0, tt, hr⟩ := timeline_ok h
  have hdT := hr.dT_pos
  have key := (weightBody_double hdT r1.le r2.le q6 hd q5 (by omega) (j - a) (by omega)).1 (by
    simp [ZmpTimes.pauses, ZmpTimes.of, hpa])
  refine ⟨_, _, by rw [q7, key]; rfl, rfl, ?_⟩
  have hn : (0 : K) < ((b - a : Nat) : K) := by exact_mod_cast (by omega : 0 < b - a)
  have e1 : origin z.start (1 + (i + 1)) p = if p = .switchIn then 0 else 1 := by
    unfold origin; rw [if_neg (by omega)]
  have e2 : originV z.start (1 + (i + 1)) = 0 := by
    unfold originV; rw [if_neg (by omega)]
  rw [e1, e2, hermite_rest _ _ (mul_pos hn hdT).ne', mul_div_mul_right _ _ hdT.ne']
  unfold target ease
  simp only [decide_eq_true_eq]

/-- C44: with a pause (longer double supports, when it is enabled), the weight is exactly in the middle, at rest, from the
end of the first transfer to the beginning of the second one. -/
theorem C44_pause (hv : ValidTimings cfg) (hpa : cfg.pauseActive = true)
    (h : timeline cfg left right initTime dT sorted = .ok (ordered, t))
    (ho : z.computeNewTrajectories cfg initTime dT t.merges left right (ordered.map Ptr.step) t.left t.right t.shifts = .ok (z', o))
    (j a b i : Nat) (ha : t.shifts[i]? = some a) (hb : t.shifts[i + 1]? = some b) (p : Phase)
    (hp : t.left[j]? = some p) (hd : p = .switchIn ∨ p = .switchOut)
    (hlong : max (cfg.switchPercentage * cfg.maxStepTime) (cfg.endSwitch + cfg.switchPercentage * cfg.nominalStepTime) <
      ((b - a : Nat) : K) * dT)
    (haj : (a : K) + cfg.endSwitch / dT + 1 / 2 ≤ j)
    (hjb : (j : K) + cfg.switchPercentage * cfg.nominalStepTime / dT + 1 / 2 < b) :
    o.weightL[j]? = some ⟨1 / 2, 0, 0⟩ := by
  obtain ⟨h1, h2⟩ := weights_at h ho
  obtain ⟨l0, r0, tt, hr⟩ := timeline_ok h
  have hdT := hr.dT_pos
  obtain ⟨r1, r2⟩ := times_valid hv
  have haj' : a ≤ j := by
    have : (0 : K) ≤ cfg.endSwitch / dT := div_nonneg r1.le hdT.le
    have : (a : K) ≤ j := by linarith
    exact_mod_cast this
  have hjb' : j < b := by
    have : (0 : K) ≤ cfg.switchPercentage * cfg.nominalStepTime / dT := div_nonneg r2.le hdT.le
    have : (j : K) < b := by linarith
    exact_mod_cast this
  obtain ⟨i', a', b', p', l, q1, q2, q3, q4, q5, q6, q7⟩ := h2 j (by rw [h1]; exact (List.getElem?_eq_some_iff.mp hp).1)
  obtain ⟨rfl, rfl, rfl⟩ := shift_unique h ha hb haj' hjb' q1 q2 q3 q4
  have := q5 j q3 q4
  rw [hp] at this; cases this
  have key := (weightBody_double hdT r1.le r2.le q6 hd q5 (by omega) (j - a) (by omega)).2 (by
    simp only [ZmpTimes.pauses, ZmpTimes.of, hpa, Bool.true_and, decide_eq_true_eq]; exact hlong)
  obtain ⟨-, -, k3, -, k5, -⟩ := key
  rw [q7]
  have s1 : (((stdRound ((ZmpTimes.of cfg).endSwitch / dT)).toNat : ℤ) : K) ≤ cfg.endSwitch / dT + 1 / 2 := by
    rw [Int.toNat_of_nonneg (stdRound_nonneg (div_nonneg r1.le hdT.le))]
    exact (stdRound_bounds _).1
  have s2 : (((stdRound ((ZmpTimes.of cfg).nominalSwitch / dT)).toNat : ℤ) : K) ≤
      cfg.switchPercentage * cfg.nominalStepTime / dT + 1 / 2 := by
    rw [Int.toNat_of_nonneg (stdRound_nonneg (div_nonneg r2.le hdT.le))]
    exact (stdRound_bounds _).1
  push_cast at s1 s2
  refine k5 ?_ ?_
  · have : ((a + (stdRound ((ZmpTimes.of cfg).endSwitch / dT)).toNat : Nat) : K) ≤ (j : K) := by push_cast; linarith
    have := Nat.cast_le.mp this
    omega
  · have : ((j + (stdRound ((ZmpTimes.of cfg).nominalSwitch / dT)).toNat : Nat) : K) < (b : K) := by push_cast; linarith
    have := Nat.cast_lt.mp this
    omega

theorem mid_le {x y : K} (hx : 0 ≤ x ∧ x ≤ 1) (hy : 0 ≤ y ∧ y ≤ 1) {T τ : K} (hT : 0 < T) (h0 : 0 ≤ τ) (h1 : τ ≤ T) :
    0 ≤ (hermite x 0 y 0 T τ).pos ∧ (hermite x 0 y 0 T τ).pos ≤ 1 := by
  rcases le_total x y with hxy | hxy
  · have := hermite_between (y0 := x) (v0 := 0) (y1 := y) hT h0 h1 (by simp) (by linarith)
    exact ⟨hx.1.trans this.1, this.2.trans hy.2⟩
  · have := hermite_between' (y0 := x) (v0 := 0) (y1 := y) hT h0 h1 (by simp) (by linarith)
    exact ⟨hy.1.trans this.1, this.2.trans hx.2⟩

theorem target_unit (b : Bool) (p : Phase) : 0 ≤ (target b p : K) ∧ (target b p : K) ≤ 1 := by
  unfold target; split_ifs <;> constructor <;> norm_num

theorem unit_at (hv : ValidTimings cfg) (h : timeline cfg left right initTime dT sorted = .ok (ordered, t))
    (ho : z.computeNewTrajectories cfg initTime dT t.merges left right (ordered.map Ptr.step) t.left t.right t.shifts = .ok (z', o))
    (j : Nat) (hinit : (∀ b, t.shifts[1]? = some b → j < b) → z.initialSpecified = true →
      0 ≤ z.initialState.pos ∧ z.initialState.pos ≤ 1 ∧ z.initialState.vel = 0)
    (w : Motion K) (hj : o.weightL[j]? = some w) : 0 ≤ w.pos ∧ w.pos ≤ 1 := by
  obtain ⟨h1, h2⟩ := weights_at h ho
  obtain ⟨l0, r0, tt, hr⟩ := timeline_ok h
  have hdT := hr.dT_pos
  obtain ⟨r1, r2⟩ := times_valid hv
  obtain ⟨i, a, b, p, l, q1, q2, q3, q4, q5, q6, q7⟩ := h2 j (List.getElem?_eq_some_iff.mp hj).1
  rw [hj] at q7
  by_cases hp : p = .stance ∨ p = .swing
  · rw [weightBody_single q6 hp q5 _ (by omega)] at q7
    cases q7
    simp only
    split_ifs <;> constructor <;> norm_num
  have hd : p = .switchIn ∨ p = .switchOut := by cases p <;> simp_all
  have horig : (0 ≤ origin z.start (1 + i) p ∧ origin z.start (1 + i) p ≤ 1) ∧ originV z.start (1 + i) = 0 := by
    unfold origin originV
    split_ifs with h1i
    · have h0 : i = 0 := by simpa using h1i
      subst h0
      have hjb : ∀ b, t.shifts[1]? = some b → j < b := fun b' hb' => by rw [q2] at hb'; cases hb'; exact q4
      unfold start
      split_ifs with hi
      · exact ⟨⟨(hinit hjb hi).1, (hinit hjb hi).2.1⟩, (hinit hjb hi).2.2⟩
      · exact ⟨⟨by norm_num, by norm_num⟩, rfl⟩
    · exact ⟨⟨le_refl _, zero_le_one⟩, rfl⟩
    · exact ⟨⟨zero_le_one, le_refl _⟩, rfl⟩
  obtain ⟨k1, k2⟩ := weightBody_double hdT r1.le r2.le q6 hd q5 (by omega) (j - a) (by omega)
  have half : (0 : K) ≤ 1 / 2 ∧ (1 / 2 : K) ≤ 1 := ⟨by norm_num, by norm_num⟩
  rw [horig.2] at k1 k2
  cases hpz : (ZmpTimes.of cfg).pauses dT (b - a) with
  | false =>
    rw [k1 hpz] at q7
    cases q7
    refine mid_le horig.1 (target_unit _ _) (mul_pos (by exact_mod_cast (by omega : 0 < b - a)) hdT)
      (mul_nonneg (Nat.cast_nonneg _) hdT.le) (mul_le_mul_of_nonneg_right (by exact_mod_cast (by omega : j - a ≤ b - a)) hdT.le)
  | true =>
    obtain ⟨m1, m2, m3, m4, m5, m6⟩ := k2 hpz
    rcases Nat.lt_or_ge (j - a) (stdRound ((ZmpTimes.of cfg).endSwitch / dT)).toNat with hlt | hge
    · rw [m4 hlt] at q7
      cases q7
      refine mid_le horig.1 half m1 (mul_nonneg (Nat.cast_nonneg _) hdT.le) ?_
      have s1 : (((stdRound ((ZmpTimes.of cfg).endSwitch / dT)).toNat : ℤ) : K) ≤ (ZmpTimes.of cfg).endSwitch / dT + 1 / 2 := by
        rw [Int.toNat_of_nonneg (stdRound_nonneg (div_nonneg r1.le hdT.le))]
        exact (stdRound_bounds _).1
      have s2 : ((j - a : Nat) : K) + 1 ≤ ((stdRound ((ZmpTimes.of cfg).endSwitch / dT)).toNat : K) := by exact_mod_cast hlt
      push_cast at s1
      rw [← le_div_iff₀ hdT]
      linarith
    · rcases Nat.lt_or_ge (j - a + (stdRound ((ZmpTimes.of cfg).nominalSwitch / dT)).toNat) (b - a) with hlt2 | hge2
      · rw [m5 hge hlt2] at q7
        cases q7
        exact half
      · rw [m6 hge2] at q7
        cases q7
        refine mid_le half (target_unit _ _) (mul_pos (by exact_mod_cast m2) hdT)
          (mul_nonneg (Nat.cast_nonneg _) hdT.le) (mul_le_mul_of_nonneg_right ?_ hdT.le)
        exact_mod_cast (by omega)

/-- C44 (partial): the weights are between 0 and 1 in every sample.  Full statement: for every initial state; it is false,
see `C44_overshoot_witness`.  Proved for walks that start at rest with a weight between 0 and 1 (in particular whenever no
initial state is given); for a moving start see `C44_moving_start`. -/
theorem C44_unit_partial (hv : ValidTimings cfg)
    (hinit : z.initialSpecified = true → 0 ≤ z.initialState.pos ∧ z.initialState.pos ≤ 1 ∧ z.initialState.vel = 0)
    (h : timeline cfg left right initTime dT sorted = .ok (ordered, t))
    (ho : z.computeNewTrajectories cfg initTime dT t.merges left right (ordered.map Ptr.step) t.left t.right t.shifts = .ok (z', o))
    (w : Motion K) (hw : w ∈ o.weightL ∨ w ∈ o.weightR) : 0 ≤ w.pos ∧ w.pos ≤ 1 := by
  suffices key : ∀ w ∈ o.weightL, 0 ≤ w.pos ∧ w.pos ≤ 1 by
    rcases hw with hw | hw
    · exact key w hw
    · obtain ⟨-, -, hm, -⟩ := compute_inv ho
      rw [hm, mirror, List.mem_map] at hw
      obtain ⟨v, hv, rfl⟩ := hw
      have := key v hv
      exact ⟨by simp only; linarith, by simp only; linarith⟩
  intro w hw
  obtain ⟨j, hj⟩ := List.getElem?_of_mem hw
  exact unit_at hv h ho j (fun _ => hinit) w hj

/-- C44: after the first double support the weights are between 0 and 1, whatever the initial state. -/
theorem C44_later (hv : ValidTimings cfg) (h : timeline cfg left right initTime dT sorted = .ok (ordered, t))
    (ho : z.computeNewTrajectories cfg initTime dT t.merges left right (ordered.map Ptr.step) t.left t.right t.shifts = .ok (z', o))
    (first j : Nat) (hf : t.shifts[1]? = some first) (hj : first ≤ j) (w : Motion K)
    (hw : o.weightL[j]? = some w ∨ o.weightR[j]? = some w) : 0 ≤ w.pos ∧ w.pos ≤ 1 := by
  have key : ∀ w, o.weightL[j]? = some w → 0 ≤ w.pos ∧ w.pos ≤ 1 :=
    unit_at hv h ho j (fun hb => absurd (hb first hf) (by omega))
  rcases hw with hw | hw
  · exact key w hw
  · obtain ⟨-, -, hm, -⟩ := compute_inv ho
    rw [hm, mirror, List.getElem?_map, Option.map_eq_some_iff] at hw
    obtain ⟨v, hv, rfl⟩ := hw
    have := key v hv
    exact ⟨by simp only; linarith, by simp only; linarith⟩

/-- C44: in the first double support, without a pause, a walk that starts in motion keeps the weight between the given one
and the one at the end of the phase, if the given velocity has the right sign and is not too large. -/
theorem C44_moving_start (hv : ValidTimings cfg) (hpa : cfg.pauseActive = false) (m : Motion K)
    (h : timeline cfg left right initTime dT sorted = .ok (ordered, t))
    (ho : (z.setWeightInitialState m).computeNewTrajectories cfg initTime dT t.merges left right (ordered.map Ptr.step) t.left
      t.right t.shifts = .ok (z', o))
    (b : Nat) (hb : t.shifts[1]? = some b) (p : Phase) (hp : t.left[0]? = some p) (hd : p = .switchIn ∨ p = .switchOut) (y : K)
    (hy : y = if t.shifts.length = 2 then 1 / 2 else if p = .switchIn then 1 else 0) (j : Nat) (hj : j < b) :
    ∃ w, o.weightL[j]? = some w ∧
      (0 ≤ m.vel → m.vel * (b * dT) ≤ 3 * (y - m.pos) → m.pos ≤ w.pos ∧ w.pos ≤ y) ∧
      (m.vel ≤ 0 → 3 * (y - m.pos) ≤ m.vel * (b * dT) → y ≤ w.pos ∧ w.pos ≤ m.pos) := by
  obtain ⟨h1, h2⟩ := weights_at h ho
  obtain ⟨-, p2, p3, -, -⟩ := C34_partition h
  have h0 : t.shifts[0]? = some 0 := by rw [← List.head?_eq_getElem?]; exact p3
  have hbN : b ≤ t.left.length := by
    rw [List.getLast?_eq_getElem?] at p2
    have := (List.getElem?_eq_some_iff.mp hb).1
    exact shift_mono h hb p2 (by omega)
  obtain ⟨i, a', b', p', l, q1, q2, q3, q4, q5, q6, q7⟩ := h2 j (by rw [h1]; omega)
  obtain ⟨rfl, rfl, rfl⟩ := shift_unique h h0 hb (Nat.zero_le j) hj q1 q2 q3 q4
  have := q5 0 (le_refl _) (by omega)
  rw [hp] at this; cases this
  obtain ⟨r1, r2⟩ := times_valid hv
  obtain ⟨l0, r0, tt, hr⟩ := timeline_ok h
  have hdT := hr.dT_pos
  have key := (weightBody_double hdT r1.le r2.le q6 hd q5 (by omega) (j - 0) (by omega)).1 (by
    simp [ZmpTimes.pauses, ZmpTimes.of, hpa])
  simp only [Nat.sub_zero] at key q7
  have ey : target (decide (0 + 2 = t.shifts.length)) p = y := by
    rw [hy]; unfold target
    simp only [Nat.zero_add, decide_eq_true_eq, eq_comm (a := (2 : Nat))]
  have e1 : origin (z.setWeightInitialState m).start (1 + 0) p = m.pos := rfl
  have e2 : originV (z.setWeightInitialState m).start (1 + 0) = m.vel := rfl
  rw [ey, e1, e2] at key
  have hT : 0 < (b : K) * dT := mul_pos (by exact_mod_cast (by omega : 0 < b)) hdT
  have ht : (j : K) * dT ≤ (b : K) * dT := mul_le_mul_of_nonneg_right (by exact_mod_cast hj.le) hdT.le
  have ht0 : 0 ≤ (j : K) * dT := mul_nonneg (Nat.cast_nonneg _) hdT.le
  refine ⟨_, q7.trans key, fun k1 k2 => ?_, fun k1 k2 => ?_⟩
  · exact hermite_between hT ht0 ht (mul_nonneg k1 hT.le) k2
  · exact hermite_between' hT ht0 ht (mul_nonpos_of_nonpos_of_nonneg k1 hT.le) k2

theorem merges_ne_nil (h : timeline cfg left right initTime dT sorted = .ok (ordered, t)) : 0 < t.merges.length := by
  obtain ⟨l, r, tt, hr⟩ := timeline_ok h
  rcases hr.built.cases with ⟨-, -, -, hm, -⟩ | ⟨-, ms, -, -, hm, -⟩ <;> rw [hm] <;> simp

/-- C44: the generation succeeds for walks without empty phases; with a pause, the nominal transfer of the weight must last at
least half a period (see `C44_short_transfer_witness`). -/
theorem C44_succeeds (hv : ValidTimings cfg) (hnom : cfg.pauseActive = true → dT / 2 ≤ cfg.switchPercentage * cfg.nominalStepTime)
    (hs : SortedPtrs left right sorted) (h : timeline cfg left right initTime dT sorted = .ok (ordered, t))
    (hpos : t.shifts.Pairwise (· < ·)) (hl : Named left) (hr : Named right) (z : Zmp K) :
    ∃ z' o, z.computeNewTrajectories cfg initTime dT t.merges left right (ordered.map Ptr.step) t.left t.right t.shifts =
      .ok (z', o) := by
  obtain ⟨r1, r2⟩ := times_valid hv
  obtain ⟨l0, r0, tt, hrun⟩ := timeline_ok h
  have hdT := hrun.dT_pos
  obtain ⟨p1, -⟩ := C34_partition h
  obtain ⟨⟨u, wl⟩, hw⟩ := overPhases_exists h hpos (phases := t.left) (Or.inl rfl)
    (fun k b p i j s hij hj => weightBody_exists (c := ZmpTimes.of cfg) z.start hdT r1 r2.le hnom k b p i j s hij hj) ()
  obtain ⟨⟨u2, zl⟩, hzl⟩ := overPhases_exists h hpos (phases := t.left) (Or.inl rfl)
    (fun k b p i j s hij _ => localBody_exists (c := ZmpTimes.of cfg) (stance := z.leftStance) (switch := z.leftSwitch)
      hdT r1 r2.le k b p i j s hij) ()
  obtain ⟨⟨u3, zr⟩, hzr⟩ := overPhases_exists h hpos (phases := t.right) (Or.inr rfl)
    (fun k b p i j s hij _ => localBody_exists (c := ZmpTimes.of cfg) (stance := z.rightStance) (switch := z.rightSwitch)
      hdT r1 r2.le k b p i j s hij) ()
  have n1 := (overPhases_at h (weightBody_length _ _ _ _) (Or.inl rfl) hw).1
  have n2 := (overPhases_at h (localBody_length _ _ _ _) (Or.inl rfl) hzl).1
  have n3 := (overPhases_at h (localBody_length _ _ _ _) (Or.inr rfl) hzr).1
  obtain ⟨st, hst, -⟩ := recordStates_at (C38_strict hv hs h hpos).1 wl 0 0 (resizeStates z.initStates t.merges.length)
    (length_resizeStates _ _) (merges_ne_nil h) (Or.inl fun k x _ _ => Nat.zero_le x)
  have hold : ∃ a b, z.previousSteps left right = .ok (a, b) := by
    unfold previousSteps
    by_cases hp : z.previousSpecified = true
    · rw [if_pos hp]; exact ⟨_, _, rfl⟩
    · rw [if_neg hp]
      have e1 := hrun.headL
      have e2 := hrun.headR
      cases hls : left.steps with
      | nil => rw [hls] at e1; simp at e1
      | cons a l =>
        cases hrs : right.steps with
        | nil => rw [hrs] at e2; simp at e2
        | cons b r => exact ⟨_, _, rfl⟩
  obtain ⟨a, b, hold⟩ := hold
  obtain ⟨first, out, -, hout, -⟩ := world_at (ol := a) (or := b) (zl := zl) (zr := zr) (wl := wl) (wr := mirror wl) hs h hl hr
    (by rw [n3, n2]) (by rw [n1, n2]) (by rw [mirror, List.length_map, n1, n2])
  suffices hh : ∃ x, z.computeNewTrajectories cfg initTime dT t.merges left right (ordered.map Ptr.step) t.left t.right t.shifts =
      .ok x by
    obtain ⟨⟨z', o⟩, hh⟩ := hh
    exact ⟨z', o, hh⟩
  unfold computeNewTrajectories weights localZmp
  simp only [hold, hw, hzl, hzr, Out.bind_ok, hst, hout]
  exact ⟨_, rfl⟩

/-! ## C69: walks generated one after the other -/

/-- C69: for every merge point the stored state is the weight on the left foot at that sample. -/
theorem C69_states (hv : ValidTimings cfg) (hs : SortedPtrs left right sorted)
    (h : timeline cfg left right initTime dT sorted = .ok (ordered, t)) (hpos : t.shifts.Pairwise (· < ·))
    (ho : z.computeNewTrajectories cfg initTime dT t.merges left right (ordered.map Ptr.step) t.left t.right t.shifts = .ok (z', o)) :
    z'.initStates.length = t.merges.length ∧
    ∀ k m : Nat, t.merges[k]? = some m → ∃ w, o.weightL[m]? = some w ∧ z'.initStates[k]? = some w := by
  obtain ⟨h1, -⟩ := weights_at h ho
  obtain ⟨-, hrec, -⟩ := compute_inv ho
  obtain ⟨hm, hlt⟩ := C38_strict hv hs h hpos
  obtain ⟨st, e1, e2, e3⟩ := recordStates_at hm o.weightL 0 0 (resizeStates z.initStates t.merges.length)
    (length_resizeStates _ _) (merges_ne_nil h) (Or.inl fun k x _ _ => Nat.zero_le x)
  rw [e1] at hrec
  injection hrec with hrec
  rw [← hrec]
  refine ⟨e2, fun k m hk => ?_⟩
  have hml : m < o.weightL.length := by rw [h1]; exact hlt m (List.mem_of_getElem? hk)
  refine ⟨o.weightL[m], List.getElem?_eq_getElem hml, ?_⟩
  rw [(e3 k m hk).1 (Nat.zero_le _) (Nat.zero_le _) (by omega), Nat.sub_zero, List.getElem?_eq_getElem hml]

/-- When no phase is empty, the final double support has a sample: the settling time is at least half a period. -/
theorem settling_time (h : timeline cfg left right initTime dT sorted = .ok (ordered, t)) (hpos : t.shifts.Pairwise (· < ·)) :
    dT / 2 ≤ cfg.endSwitch := by
  obtain ⟨l, r, tt, hr⟩ := timeline_ok h
  have hp : tt.Positive := positive_of_shifts (by rw [← hr.built.shifts]; exact hpos)
  have hrest := hr.built.rest
  have h1 : (1 : K) ≤ (stdRound (cfg.endSwitch / dT) : K) := by
    have : (1 : ℤ) ≤ stdRound (cfg.endSwitch / dT) := by
      have h2 := hp.2
      change (tt.rest : ℤ) = stdRound (cfg.endSwitch / dT) at hrest
      omega
    exact_mod_cast this
  have h2 := (stdRound_bounds (cfg.endSwitch / dT)).1
  have h3 : 1 / 2 ≤ cfg.endSwitch / dT := by linarith
  rw [le_div_iff₀ hr.dT_pos] at h3
  linarith

/-- C69: a walk starts with the weight and the velocity that were given (the acceleration is not honoured, see
`C69_acceleration_witness`), or with half of the weight on each foot, at rest. -/
theorem C69_start (hv : ValidTimings cfg)
    (h : timeline cfg left right initTime dT sorted = .ok (ordered, t)) (hpos : t.shifts.Pairwise (· < ·))
    (ho : z.computeNewTrajectories cfg initTime dT t.merges left right (ordered.map Ptr.step) t.left t.right t.shifts = .ok (z', o)) :
    ∃ w, o.weightL[0]? = some w ∧ w.pos = (if z.initialSpecified then z.initialState.pos else 1 / 2) ∧
      w.vel = (if z.initialSpecified then z.initialState.vel else 0) := by
  obtain ⟨h1, h2⟩ := weights_at h ho
  obtain ⟨-, p2, p3, -, -⟩ := C34_partition h
  obtain ⟨l0, r0, tt, hr⟩ := timeline_ok h
  have hdT := hr.dT_pos
  obtain ⟨r1, r2⟩ := times_valid hv
  have hp : tt.Positive := positive_of_shifts (by rw [← hr.built.shifts]; exact hpos)
  have h0 : t.shifts[0]? = some 0 := by rw [← List.head?_eq_getElem?]; exact p3
  have hN : 0 < t.left.length := by
    have e := hr.built.left
    rw [e, tt.length_phases, total_eq]
    have := hp.2
    omega
  obtain ⟨i, a, b, p, l, q1, q2, q3, q4, q5, q6, q7⟩ := h2 0 (by rw [h1]; exact hN)
  have ha : a = 0 := by omega
  subst ha
  have hi : i = 0 := by
    rcases Nat.eq_zero_or_pos i with hi | hi
    · exact hi
    · obtain ⟨a1, a2⟩ := List.getElem?_eq_some_iff.mp h0
      obtain ⟨b1, b2⟩ := List.getElem?_eq_some_iff.mp q1
      have := List.pairwise_iff_getElem.mp hpos 0 i a1 b1 hi
      omega
  subst hi
  have hd : p = .switchIn ∨ p = .switchOut := by
    have hp0 := q5 0 (le_refl _) q4
    rw [hr.built.left] at hp0
    cases hsl : tt.slots with
    | nil =>
      have := phases_rest tt true 0 (by rw [hsl]; simp [slotStart, slotSegs, total]) (by rw [total_eq]; have := hp.2; omega)
      rw [hp0] at this
      cases this
      split_ifs <;> simp
    | cons s ss =>
      have hk : tt.slots[0]? = some s := by rw [hsl]; rfl
      have e0 : slotStart tt.slots 0 = 0 := by simp [slotStart, slotSegs, total]
      have := (phases_slot tt true 0 s hk).1 0 (by omega) (by have := (hp.1 s (by rw [hsl]; simp)).1; omega)
      rw [hp0] at this
      cases this
      split_ifs <;> simp
  have eo : origin z.start (1 + 0) p = (if z.initialSpecified then z.initialState.pos else 1 / 2) := by
    unfold origin start; rw [if_pos rfl]; split_ifs <;> rfl
  have ev : originV z.start (1 + 0) = (if z.initialSpecified then z.initialState.vel else 0) := by
    unfold originV start; rw [if_pos rfl]; split_ifs <;> rfl
  obtain ⟨k1, k2⟩ := weightBody_double hdT r1.le r2.le q6 hd q5 q4 0 (by omega)
  rw [Nat.sub_self] at q7
  have zero : ((0 : Nat) : K) * dT = 0 := by simp
  rw [zero] at k1 k2
  cases hpz : (ZmpTimes.of cfg).pauses dT (b - 0) with
  | false =>
    refine ⟨_, q7.trans (k1 hpz), ?_, ?_⟩
    · rw [(hermite_zero _ _ _ _ _).1, eo]
    · rw [(hermite_zero _ _ _ _ _).2, ev]
  | true =>
    obtain ⟨m1, m2, m3, m4, m5, m6⟩ := k2 hpz
    have hpos' : 0 < (stdRound ((ZmpTimes.of cfg).endSwitch / dT)).toNat := by
      have := stdRound_pos (x := (ZmpTimes.of cfg).endSwitch / dT) (by
        rw [le_div_iff₀ hdT]; have := settling_time h hpos; show _ ≤ cfg.endSwitch; linarith)
      omega
    refine ⟨_, q7.trans (m4 hpos'), ?_, ?_⟩
    · rw [(hermite_zero _ _ _ _ _).1, eo]
    · rw [(hermite_zero _ _ _ _ _).2, ev]

/-- C69: if the second walk is given the state stored for a merge point of the first one, it starts with the weight and
velocity that the first walk had there. -/
theorem C69_continuity {cfg₂ : GenSettings K} {left₂ right₂ : FootPrint K} {initTime₂ dT₂ : K} {sorted₂ ordered₂ : List (Ptr K)}
    {t₂ : Timing K} {z₂ : Zmp K} {o₂ : ZmpOut K} (hv : ValidTimings cfg) (hv₂ : ValidTimings cfg₂)
    (hs : SortedPtrs left right sorted)
    (h : timeline cfg left right initTime dT sorted = .ok (ordered, t)) (hpos : t.shifts.Pairwise (· < ·))
    (ho : z.computeNewTrajectories cfg initTime dT t.merges left right (ordered.map Ptr.step) t.left t.right t.shifts = .ok (z', o))
    (k m : Nat) (w : Motion K) (hk : t.merges[k]? = some m) (hw : z'.initStates[k]? = some w)
    (h₂ : timeline cfg₂ left₂ right₂ initTime₂ dT₂ sorted₂ = .ok (ordered₂, t₂)) (hpos₂ : t₂.shifts.Pairwise (· < ·))
    (ho₂ : (z'.setWeightInitialState w).computeNewTrajectories cfg₂ initTime₂ dT₂ t₂.merges left₂ right₂ (ordered₂.map Ptr.step)
      t₂.left t₂.right t₂.shifts = .ok (z₂, o₂)) :
    ∃ w₁ w₂, o.weightL[m]? = some w₁ ∧ o₂.weightL[0]? = some w₂ ∧ w₂.pos = w₁.pos ∧ w₂.vel = w₁.vel := by
  obtain ⟨-, h1⟩ := C69_states hv hs h hpos ho
  obtain ⟨w₁, a1, a2⟩ := h1 k m hk
  obtain ⟨w₂, b1, b2, b3⟩ := C69_start hv₂ h₂ hpos₂ ho₂
  rw [hw] at a2; cases a2
  exact ⟨_, _, a1, b1, b2, b3⟩

/-- C69: initial state and previous steps hold for one walk: after a generation, the next one starts from the middle of the
feet and from the first steps unless it is told otherwise. -/
theorem C69_one_shot
    (ho : z.computeNewTrajectories cfg initTime dT merges left right steps lp rp shifts = .ok (z', o)) :
    z'.start = ⟨1 / 2, 0, 0⟩ ∧ ∀ (l r : FootPrint K) (a b : Step K), z'.previousSteps l r = .ok (a, b) →
      l.steps.head? = some a ∧ r.steps.head? = some b := by
  obtain ⟨-, -, -, -, -, -, h1, h2, -⟩ := compute_inv ho
  refine ⟨by unfold start; simp [h1], fun l r a b hab => ?_⟩
  unfold previousSteps at hab
  rw [if_neg (by simp [h2])] at hab
  split at hab
  · cases hab; simp_all
  · simp at hab

end

/-! ## Examples and witnesses -/

private local instance : Trig ℚ := ⟨fun _ => 1, fun _ => 0, fun x => x, fun x => x, fun x => x, fun x _ => x, 3⟩

private def st (x t : ℚ) (n : String) : Step ℚ := ⟨⟨x, 0⟩, 0, t, n⟩
private def lf (l : List (ℚ × ℚ)) : FootPrint ℚ := ⟨l.map (fun p => st p.1 p.2 "left"), "left"⟩
private def rf (l : List (ℚ × ℚ)) : FootPrint ℚ := ⟨l.map (fun p => st p.1 p.2 "right"), "right"⟩
private def pl (i : Nat) (x t : ℚ) : Ptr ℚ := ⟨true, i, st x t "left"⟩
private def pr (i : Nat) (x t : ℚ) : Ptr ℚ := ⟨false, i, st x t "right"⟩
private def gen : Zmp ℚ := Zmp.new ⟨0, 0, 0, 0, ⟨0, 0, 0⟩, true, st 0 0 "", st 0 0 "", true, []⟩

/-- The phase changes and the weights on the left foot after a generation. -/
private def run (z : Zmp ℚ) (cfg : GenSettings ℚ) (dT : ℚ) (l r : FootPrint ℚ) (s : List (Ptr ℚ)) :
    Out (List Nat × List (Motion ℚ) × List (Motion ℚ)) := do
  let t ← timeline cfg l r 0 dT s
  let o ← z.computeNewTrajectories cfg 0 dT t.2.merges l r (t.1.map Ptr.step) t.2.left t.2.right t.2.shifts
  .ok (t.2.shifts, o.2.weightL, o.1.initStates)

/-- Non-vacuity of C44 and C69: a walk with a step of the left foot. -/
example : ValidTimings (GenSettings.new : GenSettings ℚ) ∧
    SortedPtrs (lf [(0, 0), (1, 4)]) (rf [(0, 0)]) [pl 0 0 0, pr 0 0 0, pl 1 1 4] ∧
    Named (lf [(0, 0), (1, 4)]) ∧ Named (rf [(0, 0)]) ∧ ([0, 2, 4, 5] : List Nat).Pairwise (· < ·) ∧
    run gen GenSettings.new 1 (lf [(0, 0), (1, 4)]) (rf [(0, 0)]) [pl 0 0 0, pr 0 0 0, pl 1 1 4] =
      .ok ([0, 2, 4, 5], [⟨1 / 2, 0, -3 / 4⟩, ⟨1 / 4, -3 / 8, 0⟩, ⟨0, 0, 0⟩, ⟨0, 0, 0⟩, ⟨0, 0, 3⟩],
        [⟨1 / 2, 0, -3 / 4⟩, ⟨0, 0, 3⟩]) := by
  refine ⟨⟨by decide +kernel, by decide +kernel, by decide +kernel, by decide +kernel, by decide +kernel, by decide +kernel,
    by decide +kernel, by decide +kernel⟩, by unfold SortedPtrs; decide +kernel, by unfold Named; decide +kernel,
    by unfold Named; decide +kernel, by decide, by decide +kernel⟩

/-- Non-vacuity of `C44_pause`: a double support of eleven samples, the weight rests in the middle. -/
example : run gen { (GenSettings.new : GenSettings ℚ) with maxStepTime := 4 } 1 (lf [(0, 0), (1, 12)]) (rf [(0, 0)])
      [pl 0 0 0, pr 0 0 0, pl 1 1 12] =
    .ok ([0, 11, 12, 13], List.replicate 10 ⟨1 / 2, 0, 0⟩ ++ [⟨1 / 2, 0, -3⟩, ⟨0, 0, 0⟩, ⟨0, 0, 3⟩],
      [⟨1 / 2, 0, 0⟩, ⟨0, 0, 3⟩]) := by decide +kernel

/-- C44 (negative): an initial state that moves fast is accepted and takes more than the whole weight on a foot, less than
nothing on the other. -/
theorem C44_overshoot_witness :
    run (gen.setWeightInitialState ⟨1 / 2, 4, 0⟩) GenSettings.new 1 (lf [(0, 0), (1, 4)]) (rf [(0, 0)])
        [pl 0 0 0, pr 0 0 0, pl 1 1 4] =
      .ok ([0, 2, 4, 5], [⟨1 / 2, 4, -35 / 4⟩, ⟨5 / 4, -11 / 8, -2⟩, ⟨0, 0, 0⟩, ⟨0, 0, 0⟩, ⟨0, 0, 3⟩],
        [⟨1 / 2, 4, -35 / 4⟩, ⟨0, 0, 3⟩]) := by decide +kernel

/-- C44 (negative): with a pause, a nominal transfer shorter than half a period makes the generation fail after the timeline
was accepted. -/
theorem C44_short_transfer_witness :
    timeline { (GenSettings.new : GenSettings ℚ) with switchPercentage := 1 / 10 } (lf [(0, 0), (1, 40)]) (rf [(0, 0)]) 0 1
      [pl 0 0 0, pr 0 0 0, pl 1 1 40] ≠ .fail ∧
    run gen { (GenSettings.new : GenSettings ℚ) with switchPercentage := 1 / 10 } 1 (lf [(0, 0), (1, 40)]) (rf [(0, 0)])
      [pl 0 0 0, pr 0 0 0, pl 1 1 40] = .fail := ⟨by decide +kernel, by decide +kernel⟩

/-- C44 (negative): two steps of the same foot one after the other: the weight jumps from 0 to 1 on the foot that lands, which
lifts at once (samples 3 and 4). -/
theorem C44_same_foot_witness :
    SortedPtrs (lf [(0, 0), (1, 4), (2, 8)]) (rf [(0, 0)]) [pl 0 0 0, pr 0 0 0, pl 1 1 4, pl 2 2 8] ∧
    (run gen GenSettings.new 1 (lf [(0, 0), (1, 4), (2, 8)]) (rf [(0, 0)]) [pl 0 0 0, pr 0 0 0, pl 1 1 4, pl 2 2 8]).bind
      (fun o => .ok (o.2.1.map Motion.pos)) = .ok [1 / 2, 1 / 4, 0, 0, 1, 1 / 2, 0, 0, 0] :=
  ⟨by unfold SortedPtrs; decide +kernel, by decide +kernel⟩

/-- C69 (negative): the acceleration of the initial state is ignored. -/
theorem C69_acceleration_witness :
    run (gen.setWeightInitialState ⟨1 / 2, 0, 5⟩) GenSettings.new 1 (lf [(0, 0), (1, 4)]) (rf [(0, 0)])
        [pl 0 0 0, pr 0 0 0, pl 1 1 4] =
      run gen GenSettings.new 1 (lf [(0, 0), (1, 4)]) (rf [(0, 0)]) [pl 0 0 0, pr 0 0 0, pl 1 1 4] := by decide +kernel

end Zmp
end Uni
