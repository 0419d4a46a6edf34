import Verif.Props.ZMP
import Verif.Lemmas.ZMPWorld

/-! # C45, C70, C71: the ZMP in the frames of the feet and in the world -/

set_option autoImplicit false
set_option linter.unusedSectionVars false

namespace Uni
open Spec Gen
namespace Zmp

section
variable {K : Type} [Field K] [LinearOrder K] [IsStrictOrderedRing K] [FloorRing K] [Trig K]
variable {cfg : GenSettings K} {left right : FootPrint K} {initTime dT : K} {sorted ordered : List (Ptr K)} {t : Timing K}
variable {z z' : Zmp K} {o : ZmpOut K}

theorem local_at (h : timeline cfg left right initTime dT sorted = .ok (ordered, t))
    (ho : z.computeNewTrajectories cfg initTime dT t.merges left right (ordered.map Ptr.step) t.left t.right t.shifts = .ok (z', o))
    (f : Bool) :
    (if f then o.localL else o.localR).length = t.left.length ∧
    ∀ j, j < t.left.length → ∃ i a b p l, t.shifts[i]? = some a ∧
      t.shifts[i + 1]? = some b ∧ a ≤ j ∧ j < b ∧ (∀ m, a ≤ m → m < b → (if f then t.left else t.right)[m]? = some p) ∧
      localBody (ZmpTimes.of cfg) (if f then z.leftStance else z.rightStance) (if f then z.leftSwitch else z.rightSwitch) dT
        (1 + i) (decide (i + 2 = t.shifts.length)) p a b () = .ok ((), l) ∧
      (if f then o.localL else o.localR)[j]? = l[j - a]? ∧
      ∀ m, a ≤ m → m < b → (if f then o.localL else o.localR)[m]? = l[m - a]? := by
  obtain ⟨-, -, -, hl, hr, -⟩ := compute_inv ho
  have hz : localZmp (ZmpTimes.of cfg) (if f then z.leftStance else z.rightStance) (if f then z.leftSwitch else z.rightSwitch) dT
      (if f then t.left else t.right) t.shifts = .ok (if f then o.localL else o.localR) := by
    cases f
    · exact hr
    · exact hl
  have hph : (if f then t.left else t.right) = t.left ∨ (if f then t.left else t.right) = t.right := by
    cases f
    · exact Or.inr rfl
    · exact Or.inl rfl
  generalize (if f then o.localL else o.localR) = out at *
  generalize (if f then t.left else t.right) = ph at *
  unfold localZmp at hz
  rw [Out.bind_eq_ok] at hz
  obtain ⟨⟨s', out'⟩, hr', hw⟩ := hz
  simp only at hw
  injection hw with hw
  subst hw
  obtain ⟨h1, h2⟩ := overPhases_at h (localBody_length _ _ _ _) hph hr'
  refine ⟨h1, fun j hj => ?_⟩
  obtain ⟨i, a, b, p, s1, s2, l, q1, q2, q3, q4, q5, q6, q7⟩ := h2 j (by rw [h1]; exact hj)
  refine ⟨i, a, b, p, l, q1, q2, q3, q4, q5, q6, q7, fun m hm1 hm2 => ?_⟩
  have hbN : b ≤ t.left.length := by
    obtain ⟨-, p2, -⟩ := C34_partition h
    rw [List.getLast?_eq_getElem?] at p2
    have := (List.getElem?_eq_some_iff.mp q2).1
    exact shift_mono h q2 p2 (by omega)
  obtain ⟨i', a', b', p', s1', s2', l', r1, r2, r3, r4, r5, r6, r7⟩ := h2 m (by rw [h1]; omega)
  obtain ⟨rfl, rfl, rfl⟩ := shift_unique h q1 q2 hm1 hm2 r1 r2 r3 r4
  have := q5 m hm1 hm2
  rw [r5 m hm1 hm2] at this; cases this
  rw [q6] at r6
  cases r6
  exact r7

/-! ## C70: the ZMP in the frame of a foot -/

/-- C70: there is a sample of the ZMP in the frame of each foot for every instant; it is always on the segment between the two
offsets of the foot, and exactly on the stance offset, at rest, while the foot swings or starts to take the weight. -/
theorem C70_segment (h : timeline cfg left right initTime dT sorted = .ok (ordered, t))
    (ho : z.computeNewTrajectories cfg initTime dT t.merges left right (ordered.map Ptr.step) t.left t.right t.shifts = .ok (z', o))
    (f : Bool) (stance switch : Vec2 K) (hst : stance = if f then z.leftStance else z.rightStance)
    (hsw : switch = if f then z.leftSwitch else z.rightSwitch) (j : Nat) (hj : j < t.left.length) :
    ∃ x y : Motion K, (if f then o.localL else o.localR)[j]? = some (x, y) ∧ OnSegment stance switch ⟨x.pos, y.pos⟩ ∧
      ((if f then t.left else t.right)[j]? = some .swing ∨ (if f then t.left else t.right)[j]? = some .switchIn →
        x = ⟨stance.x, 0, 0⟩ ∧ y = ⟨stance.y, 0, 0⟩) := by
  obtain ⟨-, h2⟩ := local_at h ho f
  obtain ⟨i, a, b, p, l, q1, q2, q3, q4, q5, q6, q7, -⟩ := h2 j hj
  rw [← hst, ← hsw] at q6
  obtain ⟨l0, r0, tt, hr⟩ := timeline_ok h
  have hdT := hr.dT_pos
  obtain ⟨k1, k2, k3⟩ := localBody_at hdT q6 (j - a) (by omega)
  rw [q7, q5 j q3 q4]
  have seg : ∀ (u v : Vec2 K) (T τ : K), 0 < T → 0 ≤ τ → τ ≤ T → ∃ lam : K, 0 ≤ lam ∧ lam ≤ 1 ∧
      (⟨(hermite u.x 0 v.x 0 T τ).pos, (hermite u.y 0 v.y 0 T τ).pos⟩ : Vec2 K) = (1 - lam) * u + lam * v := by
    intro u v T τ hT h0 h1
    refine ⟨ease (τ / T), ease_nonneg (div_nonneg h0 hT.le) ((div_le_one hT).mpr h1),
      ease_le_one (div_nonneg h0 hT.le) ((div_le_one hT).mpr h1), ?_⟩
    rw [hermite_rest _ _ hT.ne', hermite_rest _ _ hT.ne']
    ext <;> simp <;> ring
  have here : OnSegment stance switch ⟨stance.x, stance.y⟩ := ⟨0, le_refl _, zero_le_one, by ext <;> simp⟩
  have hnn : 0 ≤ ((j - a : Nat) : K) * dT := mul_nonneg (Nat.cast_nonneg _) hdT.le
  by_cases h1 : p = .swing ∨ p = .switchIn ∨ (p = .switchOut ∧ 1 + i = 1)
  · exact ⟨_, _, k1 h1, here, fun _ => ⟨rfl, rfl⟩⟩
  by_cases h2 : p = .stance
  · refine ⟨_, _, k2 h2, ?_, fun hh => by subst h2; simp at hh⟩
    have hn : (0 : K) < ((b - a : Nat) : K) := by exact_mod_cast (by omega : 0 < b - a)
    exact seg _ _ _ _ (mul_pos hn hdT) hnn (mul_le_mul_of_nonneg_right (by exact_mod_cast (by omega : j - a ≤ b - a)) hdT.le)
  have h3 : p = .switchOut ∧ 1 + i ≠ 1 := by cases p <;> simp_all
  obtain ⟨m1, m2, m3⟩ := k3 h3.1 h3.2
  rcases lt_or_ge (((j - a : Nat) : K) * dT) (backTime (ZmpTimes.of cfg) dT (decide (i + 2 = t.shifts.length)) (b - a)) with hlt | hge
  · refine ⟨_, _, m2 hlt, ?_, fun hh => by rw [h3.1] at hh; simp at hh⟩
    obtain ⟨lam, g1, g2, g3⟩ := seg switch stance _ _ m1 hnn hlt.le
    exact ⟨1 - lam, by linarith, by linarith, by rw [g3]; ext <;> simp <;> ring⟩
  · exact ⟨_, _, m3 hge, here, fun _ => ⟨rfl, rfl⟩⟩

/-- C70: while the foot is the only support, the ZMP goes from the stance offset to the switch offset along the cubic that
starts and ends at rest. -/
theorem C70_stance (h : timeline cfg left right initTime dT sorted = .ok (ordered, t))
    (ho : z.computeNewTrajectories cfg initTime dT t.merges left right (ordered.map Ptr.step) t.left t.right t.shifts = .ok (z', o))
    (f : Bool) (stance switch : Vec2 K) (hst : stance = if f then z.leftStance else z.rightStance)
    (hsw : switch = if f then z.leftSwitch else z.rightSwitch) (i a b j : Nat) (ha : t.shifts[i]? = some a)
    (hb : t.shifts[i + 1]? = some b) (haj : a ≤ j) (hjb : j < b) (hp : (if f then t.left else t.right)[j]? = some .stance) :
    ∃ (x y : Motion K) (s : K), (if f then o.localL else o.localR)[j]? = some (x, y) ∧ s = ((j - a : Nat) : K) / ((b - a : Nat) : K) ∧
      (⟨x.pos, y.pos⟩ : Vec2 K) = stance + (s ^ 2 * (3 - 2 * s)) * (switch - stance) := by
  obtain ⟨hlen, h2⟩ := local_at h ho f
  have hj : j < t.left.length := by
    obtain ⟨p1, -⟩ := C34_partition h
    have := (List.getElem?_eq_some_iff.mp hp).1
    cases f
    · simp only [Bool.false_eq_true, if_false] at this; omega
    · exact this
  obtain ⟨i', a', b', p, l, q1, q2, q3, q4, q5, q6, q7, -⟩ := h2 j hj
  obtain ⟨rfl, rfl, rfl⟩ := shift_unique h ha hb haj hjb q1 q2 q3 q4
  rw [← hst, ← hsw] at q6
  obtain ⟨l0, r0, tt, hr⟩ := timeline_ok h
  have hdT := hr.dT_pos
  have := q5 j q3 q4
  rw [hp] at this; cases this
  have k2 := (localBody_at hdT q6 (j - a) (by omega)).2.1 rfl
  have hn : (0 : K) < ((b - a : Nat) : K) := by exact_mod_cast (by omega : 0 < b - a)
  refine ⟨_, _, _, q7.trans k2, rfl, ?_⟩
  rw [hermite_rest _ _ (mul_pos hn hdT).ne', hermite_rest _ _ (mul_pos hn hdT).ne', mul_div_mul_right _ _ hdT.ne']
  unfold ease
  ext <;> simp

/-! ## C45: the ZMP in the world -/

theorem world_of (hs : SortedPtrs left right sorted) (h : timeline cfg left right initTime dT sorted = .ok (ordered, t))
    (hl : Named left) (hr : Named right)
    (ho : z.computeNewTrajectories cfg initTime dT t.merges left right (ordered.map Ptr.step) t.left t.right t.shifts = .ok (z', o)) :
    ∃ first, t.shifts[1]? = some first ∧ o.world.length = t.left.length ∧ ∀ j, j < t.left.length → ∃ a b c d sl sr,
      o.localL[j]? = some a ∧ o.localR[j]? = some b ∧ o.weightL[j]? = some c ∧ o.weightR[j]? = some d ∧
      Standing left.steps ((j : K) * dT + initTime) sl ∧ Standing right.steps ((j : K) * dT + initTime) sr ∧
      o.world[j]? = some (if j < first then
          worldFirst (hermite 1 0 0 0 ((first : K) * dT) ((j : K) * dT)) c d sl sr z'.previousLeft z'.previousRight a b
        else worldAfter c d sl sr a b) := by
  obtain ⟨-, -, hm, -, -, hw, -⟩ := compute_inv ho
  have n1 := (weights_at h ho).1
  have n2 := (local_at h ho true).1
  have n3 := (local_at h ho false).1
  simp only [if_true, Bool.false_eq_true, if_false] at n2 n3
  obtain ⟨first, out, e1, e2, e3, e4⟩ := world_at (ol := z'.previousLeft) (or := z'.previousRight) (zl := o.localL) (zr := o.localR)
    (wl := o.weightL) (wr := o.weightR) hs h hl hr (by rw [n3, n2]) (by rw [n1, n2]) (by rw [hm, mirror, List.length_map, n1, n2])
  rw [e2] at hw
  injection hw with hw
  subst hw
  rw [n2] at e3 e4
  exact ⟨first, e1, e3, e4⟩

/-- C45: after the first double support the ZMP is the average, with the weights of the feet, of the two ZMPs brought from the
frames of the feet to the world with the last steps made. -/
theorem C45_average (hs : SortedPtrs left right sorted) (h : timeline cfg left right initTime dT sorted = .ok (ordered, t))
    (hl : Named left) (hr : Named right)
    (ho : z.computeNewTrajectories cfg initTime dT t.merges left right (ordered.map Ptr.step) t.left t.right t.shifts = .ok (z', o))
    (first : Nat) (hf : t.shifts[1]? = some first) (j : Nat) (hj : j < t.left.length) (hfj : first ≤ j) :
    ∃ (xl yl xr yr wl wr : Motion K) (sl sr : Step K) (w : ZmpSample K),
      o.localL[j]? = some (xl, yl) ∧ o.localR[j]? = some (xr, yr) ∧ o.weightL[j]? = some wl ∧ o.weightR[j]? = some wr ∧
      Standing left.steps ((j : K) * dT + initTime) sl ∧ Standing right.steps ((j : K) * dT + initTime) sr ∧
      o.world[j]? = some w ∧ w.pos = wl.pos * inWorld sl ⟨xl.pos, yl.pos⟩ + wr.pos * inWorld sr ⟨xr.pos, yr.pos⟩ := by
  obtain ⟨first', e1, e2, e3⟩ := world_of hs h hl hr ho
  rw [hf] at e1; cases e1
  obtain ⟨⟨xl, yl⟩, ⟨xr, yr⟩, c, d, sl, sr, a1, a2, a3, a4, a5, a6, a7⟩ := e3 j hj
  rw [if_neg (by omega)] at a7
  exact ⟨xl, yl, xr, yr, c, d, sl, sr, _, a1, a2, a3, a4, a5, a6, a7, rfl⟩

/-- C45: in the first double support each of the two points moves from where it is with the steps of the previous walk to where
it is with those of this one, along the cubic that starts and ends at rest. -/
theorem C45_first (hs : SortedPtrs left right sorted) (h : timeline cfg left right initTime dT sorted = .ok (ordered, t))
    (hl : Named left) (hr : Named right)
    (ho : z.computeNewTrajectories cfg initTime dT t.merges left right (ordered.map Ptr.step) t.left t.right t.shifts = .ok (z', o))
    (ol or : Step K) (hol : if z.previousSpecified then ol = z.previousLeft else left.steps.head? = some ol)
    (hor : if z.previousSpecified then or = z.previousRight else right.steps.head? = some or)
    (first : Nat) (hf : t.shifts[1]? = some first) (j : Nat) (hfj : j < first) :
    ∃ (xl yl xr yr wl wr : Motion K) (sl sr : Step K) (w : ZmpSample K) (s k : K),
      o.localL[j]? = some (xl, yl) ∧ o.localR[j]? = some (xr, yr) ∧ o.weightL[j]? = some wl ∧ o.weightR[j]? = some wr ∧
      Standing left.steps ((j : K) * dT + initTime) sl ∧ Standing right.steps ((j : K) * dT + initTime) sr ∧
      o.world[j]? = some w ∧ s = (j : K) / first ∧ k = s ^ 2 * (3 - 2 * s) ∧
      w.pos = wl.pos * ((1 - k) * inWorld ol ⟨xl.pos, yl.pos⟩ + k * inWorld sl ⟨xl.pos, yl.pos⟩) +
        wr.pos * ((1 - k) * inWorld or ⟨xr.pos, yr.pos⟩ + k * inWorld sr ⟨xr.pos, yr.pos⟩) := by
  obtain ⟨first', e1, e2, e3⟩ := world_of hs h hl hr ho
  rw [hf] at e1; cases e1
  have hj : j < t.left.length := by
    obtain ⟨-, p2, -⟩ := C34_partition h
    rw [List.getLast?_eq_getElem?] at p2
    have := (List.getElem?_eq_some_iff.mp hf).1
    have := shift_mono h hf p2 (by omega)
    omega
  obtain ⟨-, -, -, -, -, -, -, -, g1, g2⟩ := compute_inv ho
  have hol' : ol = z'.previousLeft ∧ or = z'.previousRight := by
    cases hps : z.previousSpecified
    · rw [hps] at hol hor
      simp only [Bool.false_eq_true, if_false] at hol hor
      obtain ⟨b1, b2⟩ := g2 hps
      rw [hol] at b1; rw [hor] at b2
      cases b1; cases b2; exact ⟨rfl, rfl⟩
    · rw [hps, if_pos rfl] at hol hor
      obtain ⟨b1, b2⟩ := g1 hps
      exact ⟨hol.trans b1.symm, hor.trans b2.symm⟩
  obtain ⟨rfl, rfl⟩ := hol'
  obtain ⟨⟨xl, yl⟩, ⟨xr, yr⟩, c, d, sl, sr, a1, a2, a3, a4, a5, a6, a7⟩ := e3 j hj
  rw [if_pos hfj] at a7
  obtain ⟨l0, r0, tt, hrun⟩ := timeline_ok h
  have hn : (0 : K) < (first : K) * dT := mul_pos (by exact_mod_cast (by omega : 0 < first)) hrun.dT_pos
  refine ⟨xl, yl, xr, yr, c, d, sl, sr, _, _, _, a1, a2, a3, a4, a5, a6, a7, rfl, rfl, ?_⟩
  simp only [worldFirst, hermite_rest _ _ hn.ne', mul_div_mul_right _ _ hrun.dT_pos.ne']
  unfold ease toWorld inWorld mpos
  ext <;> simp <;> ring

/-- C45: the first sample is computed with the steps of the previous walk only. -/
theorem C45_start (hs : SortedPtrs left right sorted) (h : timeline cfg left right initTime dT sorted = .ok (ordered, t))
    (hl : Named left) (hr : Named right)
    (ho : z.computeNewTrajectories cfg initTime dT t.merges left right (ordered.map Ptr.step) t.left t.right t.shifts = .ok (z', o))
    (ol or : Step K) (hol : if z.previousSpecified then ol = z.previousLeft else left.steps.head? = some ol)
    (hor : if z.previousSpecified then or = z.previousRight else right.steps.head? = some or)
    (first : Nat) (hf : t.shifts[1]? = some first) (hfj : 0 < first) :
    ∃ (xl yl xr yr wl wr : Motion K) (w : ZmpSample K), o.localL[0]? = some (xl, yl) ∧ o.localR[0]? = some (xr, yr) ∧
      o.weightL[0]? = some wl ∧ o.weightR[0]? = some wr ∧ o.world[0]? = some w ∧
      w.pos = wl.pos * inWorld ol ⟨xl.pos, yl.pos⟩ + wr.pos * inWorld or ⟨xr.pos, yr.pos⟩ := by
  obtain ⟨xl, yl, xr, yr, wl, wr, sl, sr, w, s, k, a1, a2, a3, a4, -, -, a7, rfl, rfl, a8⟩ :=
    C45_first hs h hl hr ho ol or hol hor first hf 0 hfj
  refine ⟨xl, yl, xr, yr, wl, wr, w, a1, a2, a3, a4, a7, a8.trans ?_⟩
  ext <;> simp

/-- The steps on which the feet stand in the first double support. -/
theorem standing_first (hs : SortedPtrs left right sorted) (h : timeline cfg left right initTime dT sorted = .ok (ordered, t))
    (hpos : t.shifts.Pairwise (· < ·)) (f : Bool) (first : Nat) (hf : t.shifts[1]? = some first) (j : Nat) (hj : j < first)
    (s : Step K) (hst : Standing (if f then left.steps else right.steps) ((j : K) * dT + initTime) s) :
    (if f then left.steps else right.steps).head? = some s := by
  obtain ⟨l0, r0, tt, hr⟩ := timeline_ok h
  have hjN : j < t.left.length := by
    obtain ⟨-, p2, -⟩ := C34_partition h
    rw [List.getLast?_eq_getElem?] at p2
    have := (List.getElem?_eq_some_iff.mp hf).1
    have := shift_mono h hf p2 (by omega)
    omega
  have hfirst : ∀ k, 0 < k → k ≤ tt.slots.length → first ≤ slotStart tt.slots k := by
    intro k hk hkl
    cases hsl : tt.slots with
    | nil => rw [hsl] at hkl; simp at hkl; omega
    | cons x xs =>
      have hx : tt.slots[0]? = some x := by rw [hsl]; rfl
      have e1 := (shifts_slot tt 0 x hx).2.1
      rw [← hr.built.shifts, Nat.mul_zero, Nat.zero_add, hf] at e1
      cases e1
      have e2 := slotStart_succ tt.slots 0 x hx
      have e3 := slotStart_mono tt.slots (show 0 + 1 ≤ k by omega)
      rw [← hsl]
      omega
  rcases standing_step hs h hpos hr f j hjN s hst with h1 | ⟨m, x, m1, m2, m3⟩
  · obtain ⟨k, k1, k2, k3, k4⟩ := sample_slot hpos hr f j hjN
    have : k = 0 := by
      by_contra hk
      have := hfirst k (by omega) k1
      omega
    subst this
    rw [k4, List.take_zero, List.countP_nil] at h1
    rw [List.head?_eq_getElem?]; exact h1
  · have := hfirst (m + 1) (by omega) (List.getElem?_eq_some_iff.mp m1).1
    omega

/-- C45: if no previous steps are given the ZMP is the weighted average in the first double support as well. -/
theorem C45_average_all (hs : SortedPtrs left right sorted) (h : timeline cfg left right initTime dT sorted = .ok (ordered, t))
    (hpos : t.shifts.Pairwise (· < ·)) (hl : Named left) (hr : Named right) (hps : z.previousSpecified = false)
    (ho : z.computeNewTrajectories cfg initTime dT t.merges left right (ordered.map Ptr.step) t.left t.right t.shifts = .ok (z', o))
    (j : Nat) (hj : j < t.left.length) :
    ∃ (xl yl xr yr wl wr : Motion K) (sl sr : Step K) (w : ZmpSample K),
      o.localL[j]? = some (xl, yl) ∧ o.localR[j]? = some (xr, yr) ∧ o.weightL[j]? = some wl ∧ o.weightR[j]? = some wr ∧
      Standing left.steps ((j : K) * dT + initTime) sl ∧ Standing right.steps ((j : K) * dT + initTime) sr ∧
      o.world[j]? = some w ∧ w.pos = wl.pos * inWorld sl ⟨xl.pos, yl.pos⟩ + wr.pos * inWorld sr ⟨xr.pos, yr.pos⟩ := by
  obtain ⟨first, hf, -⟩ := world_of hs h hl hr ho
  rcases Nat.lt_or_ge j first with hlt | hge
  · obtain ⟨l0, r0, tt, hrun⟩ := timeline_ok h
    obtain ⟨xl, yl, xr, yr, wl, wr, sl, sr, w, s, k, a1, a2, a3, a4, a5, a6, a7, -, -, a8⟩ :=
      C45_first hs h hl hr ho l0 r0 (by rw [hps]; exact hrun.headL) (by rw [hps]; exact hrun.headR) first hf j hlt
    have b1 := standing_first hs h hpos true first hf j hlt sl a5
    have b2 := standing_first hs h hpos false first hf j hlt sr a6
    simp only [if_true, Bool.false_eq_true, if_false] at b1 b2
    rw [hrun.headL] at b1; cases b1
    rw [hrun.headR] at b2; cases b2
    refine ⟨xl, yl, xr, yr, wl, wr, _, _, w, a1, a2, a3, a4, a5, a6, a7, a8.trans ?_⟩
    ext <;> simp <;> ring
  · exact C45_average hs h hl hr ho first hf j hj hge

/-- C45: the ZMP is on the segment between the ZMPs of the two feet (for walks whose weights stay between 0 and 1, see C44,
without previous steps). -/
theorem C45_hull (hv : ValidTimings cfg)
    (hinit : z.initialSpecified = true → 0 ≤ z.initialState.pos ∧ z.initialState.pos ≤ 1 ∧ z.initialState.vel = 0)
    (hs : SortedPtrs left right sorted) (h : timeline cfg left right initTime dT sorted = .ok (ordered, t))
    (hpos : t.shifts.Pairwise (· < ·)) (hl : Named left) (hr : Named right) (hps : z.previousSpecified = false)
    (ho : z.computeNewTrajectories cfg initTime dT t.merges left right (ordered.map Ptr.step) t.left t.right t.shifts = .ok (z', o))
    (j : Nat) (hj : j < t.left.length) :
    ∃ (xl yl xr yr : Motion K) (sl sr : Step K) (w : ZmpSample K), o.localL[j]? = some (xl, yl) ∧ o.localR[j]? = some (xr, yr) ∧
      Standing left.steps ((j : K) * dT + initTime) sl ∧ Standing right.steps ((j : K) * dT + initTime) sr ∧
      o.world[j]? = some w ∧ OnSegment (inWorld sl ⟨xl.pos, yl.pos⟩) (inWorld sr ⟨xr.pos, yr.pos⟩) w.pos := by
  obtain ⟨xl, yl, xr, yr, wl, wr, sl, sr, w, a1, a2, a3, a4, a5, a6, a7, a8⟩ := C45_average_all hs h hpos hl hr hps ho j hj
  have u := C44_unit_partial hv hinit h ho wr (Or.inr (List.mem_of_getElem? a4))
  have c := ((C44_complementary ho).2 j wl wr a3 a4).1
  refine ⟨xl, yl, xr, yr, sl, sr, w, a1, a2, a5, a6, a7, wr.pos, u.1, u.2, ?_⟩
  rw [a8, show wl.pos = 1 - wr.pos by linarith]

/-! ## C71 -/

theorem weight_landing (hv : ValidTimings cfg)
    (hs : SortedPtrs left right sorted) (h : timeline cfg left right initTime dT sorted = .ok (ordered, t))
    (hpos : t.shifts.Pairwise (· < ·)) (ha : Alternating left.steps right.steps)
    (ho : z.computeNewTrajectories cfg initTime dT t.merges left right (ordered.map Ptr.step) t.left t.right t.shifts = .ok (z', o))
    {l r : Step K} {tt : Timetable} (hr : Run cfg left right initTime dT sorted ordered t l r tt) (f : Bool) (m : Nat) (x : Slot)
    (hx : tt.slots[m]? = some x) (hxf : x.left = f) (w : Motion K)
    (hw : (if f then o.weightL else o.weightR)[slotStart tt.slots (m + 1)]? = some w) : w.pos = 0 := by
  obtain ⟨h1, h2⟩ := weights_at h ho
  have hp : tt.Positive := positive_of_shifts (by rw [← hr.built.shifts]; exact hpos)
  have hdT := hr.dT_pos
  obtain ⟨r1, r2⟩ := times_valid hv
  set j := slotStart tt.slots (m + 1) with hjdef
  have hT := total_eq tt
  have hN : t.left.length = total (tt.segs true) := by rw [hr.built.left, tt.length_phases]
  have hmlen := (List.getElem?_eq_some_iff.mp hx).1
  have hjN : j < t.left.length := by
    have := slotStart_mono tt.slots (show m + 1 ≤ tt.slots.length by omega)
    have := hp.2
    omega
  -- the phase of the left foot
  have hph : t.left[j]? = some (if f then .switchIn else .switchOut) := by
    rw [hr.built.left]
    by_cases hlast : m + 1 = tt.slots.length
    · have := phases_rest tt true j (by rw [hjdef, hlast]) (by omega)
      rw [this]
      have hc := hr.built.coherent x (by rw [List.getLast?_eq_getElem?, ← hlast]; exact hx)
      rw [hc, hxf]
    · have hy : tt.slots[m + 1]? = some tt.slots[m + 1] := List.getElem?_eq_getElem (by omega)
      have hne := slots_alternate hs h hr ha m x _ hx hy
      have := (phases_slot tt true (m + 1) _ hy).1 j (le_refl _) (by
        have := (hp.1 _ (List.mem_of_getElem? hy)).1; omega)
      rw [this]
      cases f <;> simp_all
  -- it begins here, and it is not the first
  have hshift : t.shifts[2 * (m + 1)]? = some j := by
    have e := (shifts_slot tt m x hx).2.2
    rw [← hr.built.shifts] at e
    rw [show 2 * (m + 1) = 2 * m + 2 by ring, e, hjdef, slotStart_succ _ _ _ hx]
  obtain ⟨i, a, b, p, l', q1, q2, q3, q4, q5, q6, q7⟩ := h2 j (by rw [h1]; exact hjN)
  have hi : i = 2 * (m + 1) := by
    have strict : ∀ (u v c d : Nat), t.shifts[u]? = some c → t.shifts[v]? = some d → u < v → c < d := by
      intro u v c d hu hv' huv
      obtain ⟨a1, a2⟩ := List.getElem?_eq_some_iff.mp hu
      obtain ⟨b1, b2⟩ := List.getElem?_eq_some_iff.mp hv'
      rw [← a2, ← b2]; exact List.pairwise_iff_getElem.mp hpos u v a1 b1 huv
    rcases lt_trichotomy i (2 * (m + 1)) with hlt | he | hlt
    · rcases Nat.eq_or_lt_of_le (show i + 1 ≤ 2 * (m + 1) by omega) with he | hlt'
      · rw [he, hshift] at q2; cases q2; omega
      · have := strict _ _ _ _ q2 hshift hlt'; omega
    · exact he
    · have := strict _ _ _ _ hshift q1 hlt; omega
  subst hi
  rw [hshift] at q1; cases q1
  have := q5 _ q3 q4
  rw [hph] at this; cases this
  have hd : (if f then Phase.switchIn else .switchOut) = .switchIn ∨ (if f then Phase.switchIn else .switchOut) = .switchOut := by
    cases f <;> simp
  have key : ∃ v, o.weightL[j]? = some v ∧ v.pos = if f then 0 else 1 := by
    obtain ⟨k1, k2⟩ := weightBody_double hdT r1.le r2.le q6 hd q5 (by omega) 0 (by omega)
    have zero : ((0 : Nat) : K) * dT = 0 := by simp
    rw [zero] at k1 k2
    rw [Nat.sub_self] at q7
    have eo : origin z.start (1 + 2 * (m + 1)) (if f then Phase.switchIn else .switchOut) = if f then 0 else 1 := by
      unfold origin; rw [if_neg (by omega)]; cases f <;> simp
    cases hpz : (ZmpTimes.of cfg).pauses dT (b - j) with
    | false => exact ⟨_, q7.trans (k1 hpz), by rw [(hermite_zero _ _ _ _ _).1, eo]⟩
    | true =>
      obtain ⟨m1, m2, m3, m4, m5, m6⟩ := k2 hpz
      have hpos' : 0 < (stdRound ((ZmpTimes.of cfg).endSwitch / dT)).toNat := by
        have := stdRound_pos (x := (ZmpTimes.of cfg).endSwitch / dT) (by
          rw [le_div_iff₀ hdT]; have := settling_time h hpos; show _ ≤ cfg.endSwitch; linarith)
        omega
      exact ⟨_, q7.trans (m4 hpos'), by rw [(hermite_zero _ _ _ _ _).1, eo]⟩
  obtain ⟨v, v1, v2⟩ := key
  cases f
  · simp only [Bool.false_eq_true, if_false] at hw v2
    have := ((C44_complementary ho).2 j v w v1 hw).1
    linarith
  · simp only [if_true] at hw v2
    rw [v1] at hw; cases hw; exact v2

/-- C71: whenever a foot carries some weight, the step with which its ZMP is brought to the world is the one on which the
trajectory of the foot is (the number of its landings so far), for walks in which the feet alternate.  Right after a landing
the two differ if the step is dated after the sample, but the foot carries no weight then. -/
theorem C71_contact (hv : ValidTimings cfg)
    (hs : SortedPtrs left right sorted) (h : timeline cfg left right initTime dT sorted = .ok (ordered, t))
    (hpos : t.shifts.Pairwise (· < ·)) (ha : Alternating left.steps right.steps)
    (ho : z.computeNewTrajectories cfg initTime dT t.merges left right (ordered.map Ptr.step) t.left t.right t.shifts = .ok (z', o))
    (f : Bool) (j : Nat) (w : Motion K) (hw : (if f then o.weightL else o.weightR)[j]? = some w) (hne : w.pos ≠ 0)
    (s : Step K) (hst : Standing (if f then left.steps else right.steps) ((j : K) * dT + initTime) s) :
    (if f then left.steps else right.steps)[landings (if f then t.left else t.right) j]? = some s := by
  obtain ⟨l, r, tt, hr⟩ := timeline_ok h
  have hj : j < t.left.length := by
    have h1 := (weights_at h ho).1
    have h2 := (C44_complementary ho).1
    have h3 := (List.getElem?_eq_some_iff.mp hw).1
    cases f
    · simp only [Bool.false_eq_true, if_false] at h3; omega
    · simp only [if_true] at h3; omega
  rcases standing_step hs h hpos hr f j hj s hst with h1 | ⟨m, x, m1, m2, m3⟩
  · exact h1
  · exact absurd (weight_landing hv hs h hpos ha ho hr f m x m1 m2 w (by rw [m3]; exact hw)) hne

/-- C70: when the support of the foot ends (and this is not the beginning of the walk) the ZMP goes back from the switch offset
to the stance offset, along the cubic that starts and ends at rest: in half of the double support, in the whole of it if it is
the last one, in the end-switch time if there is a pause; then it stays there. -/
theorem C70_back (hv : ValidTimings cfg) (h : timeline cfg left right initTime dT sorted = .ok (ordered, t))
    (ho : z.computeNewTrajectories cfg initTime dT t.merges left right (ordered.map Ptr.step) t.left t.right t.shifts = .ok (z', o))
    (f : Bool) (stance switch : Vec2 K) (hst : stance = if f then z.leftStance else z.rightStance)
    (hsw : switch = if f then z.leftSwitch else z.rightSwitch) (i a b j : Nat) (hi : 0 < i) (ha : t.shifts[i]? = some a)
    (hb : t.shifts[i + 1]? = some b) (haj : a ≤ j) (hjb : j < b) (hp : (if f then t.left else t.right)[j]? = some .switchOut)
    (L T : K) (hL : L = ((b - a : Nat) : K) * dT)
    (hT : T = if cfg.pauseActive = true ∧ max (cfg.switchPercentage * cfg.maxStepTime)
        (cfg.endSwitch + cfg.switchPercentage * cfg.nominalStepTime) < L then cfg.endSwitch
      else if i + 2 = t.shifts.length then L else L / 2) :
    ∃ (x y : Motion K) (s : K), (if f then o.localL else o.localR)[j]? = some (x, y) ∧
      s = min 1 (((j - a : Nat) : K) * dT / T) ∧ 0 < T ∧ T ≤ L ∧
      (⟨x.pos, y.pos⟩ : Vec2 K) = switch + (s ^ 2 * (3 - 2 * s)) * (stance - switch) := by
  obtain ⟨hlen, h2⟩ := local_at h ho f
  have hj : j < t.left.length := by
    obtain ⟨p1, -⟩ := C34_partition h
    have := (List.getElem?_eq_some_iff.mp hp).1
    cases f
    · simp only [Bool.false_eq_true, if_false] at this; omega
    · exact this
  obtain ⟨i', a', b', p, l, q1, q2, q3, q4, q5, q6, q7, -⟩ := h2 j hj
  obtain ⟨rfl, rfl, rfl⟩ := shift_unique h ha hb haj hjb q1 q2 q3 q4
  rw [← hst, ← hsw] at q6
  obtain ⟨l0, r0, tt, hr⟩ := timeline_ok h
  have hdT := hr.dT_pos
  have := q5 j q3 q4
  rw [hp] at this; cases this
  obtain ⟨m1, m2, m3⟩ := (localBody_at hdT q6 (j - a) (by omega)).2.2 rfl (by omega)
  have hB : backTime (ZmpTimes.of cfg) dT (decide (i + 2 = t.shifts.length)) (b - a) = T := by
    rw [hT, hL]
    unfold backTime ZmpTimes.pauses ZmpTimes.of
    simp only [Bool.and_eq_true, decide_eq_true_eq]
  have hle := backTime_le (c := ZmpTimes.of cfg) (last := decide (i + 2 = t.shifts.length)) (n := b - a) hdT (times_valid hv).2.le
  rw [hB] at m1 m2 m3 hle
  rcases lt_or_ge (((j - a : Nat) : K) * dT) T with hlt | hge
  · refine ⟨_, _, _, q7.trans (m2 hlt), rfl, m1, by rw [hL]; exact hle, ?_⟩
    rw [min_eq_right ((div_le_one m1).mpr hlt.le), hermite_rest _ _ m1.ne', hermite_rest _ _ m1.ne']
    unfold ease
    ext <;> simp
  · refine ⟨_, _, _, q7.trans (m3 hge), rfl, m1, by rw [hL]; exact hle, ?_⟩
    rw [min_eq_left ((one_le_div m1).mpr hge)]
    ext <;> simp <;> ring

end

/-! ## C45: velocity and acceleration -/

section
variable {cfg : GenSettings ℝ} {left right : FootPrint ℝ} {initTime dT : ℝ} {sorted ordered : List (Ptr ℝ)} {t : Timing ℝ}
variable {z z' : Zmp ℝ} {o : ZmpOut ℝ}

theorem pauses_false {a b : Nat} (hpz : cfg.pauseActive = true → ((b - a : Nat) : ℝ) * dT ≤
      max (cfg.switchPercentage * cfg.maxStepTime) (cfg.endSwitch + cfg.switchPercentage * cfg.nominalStepTime)) :
    (ZmpTimes.of cfg).pauses dT (b - a) = false := by
  unfold ZmpTimes.pauses ZmpTimes.of
  cases hp : cfg.pauseActive
  · rfl
  · simp only [Bool.true_and, decide_eq_false_iff_not, not_lt]; exact hpz hp

theorem weight_curve (hv : ValidTimings cfg) (h : timeline cfg left right initTime dT sorted = .ok (ordered, t))
    (ho : z.computeNewTrajectories cfg initTime dT t.merges left right (ordered.map Ptr.step) t.left t.right t.shifts = .ok (z', o))
    {i a b : Nat} (ha : t.shifts[i]? = some a) (hb : t.shifts[i + 1]? = some b) (hab : a < b)
    (hpz : cfg.pauseActive = true → ((b - a : Nat) : ℝ) * dT ≤
      max (cfg.switchPercentage * cfg.maxStepTime) (cfg.endSwitch + cfg.switchPercentage * cfg.nominalStepTime)) :
    ∃ wl wr : ℝ → Motion ℝ, (∀ τ, Smooth wl τ) ∧ (∀ τ, Smooth wr τ) ∧ ∀ m, a ≤ m → m < b →
      o.weightL[m]? = some (wl (((m - a : Nat) : ℝ) * dT)) ∧ o.weightR[m]? = some (wr (((m - a : Nat) : ℝ) * dT)) := by
  obtain ⟨h1, h2⟩ := weights_at h ho
  obtain ⟨r1, r2⟩ := times_valid hv
  obtain ⟨l0, r0, tt, hr⟩ := timeline_ok h
  have hbN : b ≤ t.left.length := by
    obtain ⟨-, p2, -⟩ := C34_partition h
    rw [List.getLast?_eq_getElem?] at p2
    have := (List.getElem?_eq_some_iff.mp hb).1
    exact shift_mono h hb p2 (by omega)
  obtain ⟨i', a', b', p, l, q1, q2, q3, q4, q5, q6, q7⟩ := h2 a (by rw [h1]; omega)
  obtain ⟨rfl, rfl, rfl⟩ := shift_unique h ha hb (le_refl _) hab q1 q2 q3 q4
  obtain ⟨f, f1, f2⟩ := weightBody_curve hr.dT_pos r1.le r2.le (pauses_false hpz) q6 q5 hab
  have hm := (compute_inv ho).2.2.1
  refine ⟨f, fun τ => ⟨1 - (f τ).pos, -(f τ).vel, -(f τ).acc⟩, f1, fun τ => ⟨?_, ?_⟩, fun m hm1 hm2 => ?_⟩
  · exact ((f1 τ).1.const_sub 1)
  · exact (f1 τ).2.neg
  · obtain ⟨i', a', b', p', l', s1, s2, s3, s4, s5, s6, s7⟩ := h2 m (by rw [h1]; omega)
    obtain ⟨rfl, rfl, rfl⟩ := shift_unique h ha hb hm1 hm2 s1 s2 s3 s4
    have := q5 m hm1 hm2
    rw [s5 m hm1 hm2] at this; cases this
    rw [q6] at s6; cases s6
    have e := s7.trans (f2 (m - a) (by omega))
    refine ⟨e, ?_⟩
    rw [hm, mirror, List.getElem?_map, e]; rfl

theorem standing_unique {steps : List (Step ℝ)} (hinc : steps.Pairwise fun a b => a.impactTime < b.impactTime) {time : ℝ}
    {s s' : Step ℝ} (h : Standing steps time s) (h' : Standing steps time s') : s = s' := by
  have e : s.impactTime = s'.impactTime := le_antisymm (h'.last s h.mem h.before) (h.last s' h'.mem h'.before)
  obtain ⟨i, hi, rfl⟩ := List.mem_iff_getElem.mp h.mem
  obtain ⟨j, hj, rfl⟩ := List.mem_iff_getElem.mp h'.mem
  have hp := List.pairwise_iff_getElem.mp hinc
  rcases lt_trichotomy i j with hlt | rfl | hlt
  · have := hp i j hi hj hlt; linarith
  · rfl
  · have := hp j i hj hi hlt; linarith

/-- C45 (partial).  Full statement: the velocity of the ZMP is the time derivative of its position and the acceleration that
of the velocity.  False after the first double support, see `C45_velocity_off`.  Proved for the first double support, without
a pause: there position, velocity and acceleration are samples of a curve, its derivative and its second derivative. -/
theorem C45_velocity_partial (hv : ValidTimings cfg) (hs : SortedPtrs left right sorted)
    (h : timeline cfg left right initTime dT sorted = .ok (ordered, t)) (hpos : t.shifts.Pairwise (· < ·))
    (hl : Named left) (hr : Named right)
    (ho : z.computeNewTrajectories cfg initTime dT t.merges left right (ordered.map Ptr.step) t.left t.right t.shifts = .ok (z', o))
    (first : Nat) (hf : t.shifts[1]? = some first)
    (hpz : cfg.pauseActive = true → (first : ℝ) * dT ≤
      max (cfg.switchPercentage * cfg.maxStepTime) (cfg.endSwitch + cfg.switchPercentage * cfg.nominalStepTime)) :
    ∃ c : ℝ → ZmpSample ℝ, (∀ j, j < first → o.world[j]? = some (c ((j : ℝ) * dT))) ∧ ∀ τ,
      HasDerivAt (fun τ => (c τ).pos.x) (c τ).vel.x τ ∧ HasDerivAt (fun τ => (c τ).pos.y) (c τ).vel.y τ ∧
      HasDerivAt (fun τ => (c τ).vel.x) (c τ).acc.x τ ∧ HasDerivAt (fun τ => (c τ).vel.y) (c τ).acc.y τ := by
  obtain ⟨l0, r0, tt, hrun⟩ := timeline_ok h
  obtain ⟨-, p2, p3, -, -⟩ := C34_partition h
  have h0 : t.shifts[0]? = some 0 := by rw [← List.head?_eq_getElem?]; exact p3
  have hN : first ≤ t.left.length := by
    rw [List.getLast?_eq_getElem?] at p2
    have := (List.getElem?_eq_some_iff.mp hf).1
    exact shift_mono h hf p2 (by omega)
  have hfpos : 0 < first := by
    obtain ⟨a1, a2⟩ := List.getElem?_eq_some_iff.mp h0
    obtain ⟨b1, b2⟩ := List.getElem?_eq_some_iff.mp hf
    have := List.pairwise_iff_getElem.mp hpos 0 1 a1 b1 (by omega)
    omega
  obtain ⟨wl, wr, w1, w2, w3⟩ := weight_curve hv h ho h0 hf hfpos (by simpa using hpz)
  obtain ⟨first', e1, -, e3⟩ := world_of hs h hl hr ho
  rw [hf] at e1; cases e1
  have hp : tt.Positive := positive_of_shifts (by rw [← hrun.built.shifts]; exact hpos)
  -- the feet are both on the ground
  have hdouble : ∀ f : Bool, (if f then t.left else t.right)[0]? = some .switchIn ∨
      (if f then t.left else t.right)[0]? = some .switchOut := by
    intro f
    have e : (if f then t.left else t.right) = tt.phases f := by
      cases f
      · exact hrun.built.right
      · exact hrun.built.left
    rw [e]
    cases hsl : tt.slots with
    | nil =>
      have := phases_rest tt f 0 (by rw [hsl]; simp [slotStart, slotSegs, total]) (by rw [total_eq]; have := hp.2; omega)
      rw [this]; split_ifs <;> simp
    | cons s ss =>
      have hk : tt.slots[0]? = some s := by rw [hsl]; rfl
      have e0 : slotStart tt.slots 0 = 0 := by simp [slotStart, slotSegs, total]
      have := (phases_slot tt f 0 s hk).1 0 (by omega) (by have := (hp.1 s (by rw [hsl]; simp)).1; omega)
      rw [this]; split_ifs <;> simp
  have hloc : ∀ f : Bool, ∀ j, j < first → (if f then o.localL else o.localR)[j]? =
      some (still (if f then z.leftStance else z.rightStance)) := by
    intro f j hj
    obtain ⟨-, h2⟩ := local_at h ho f
    obtain ⟨i', a', b', p, l, q1, q2, q3, q4, q5, q6, q7, -⟩ := h2 j (by omega)
    obtain ⟨rfl, rfl, rfl⟩ := shift_unique h h0 hf (by omega) hj q1 q2 q3 q4
    rw [q7]
    refine (localBody_at hrun.dT_pos q6 (j - 0) (by omega)).1 ?_
    have := q5 0 (le_refl _) hfpos
    rcases hdouble f with hd | hd
    · rw [hd] at this; cases this; simp
    · rw [hd] at this; cases this; simp
  refine ⟨fun τ => worldFirst (hermite 1 0 0 0 ((first : ℝ) * dT) τ) (wl τ) (wr τ) l0 r0 z'.previousLeft z'.previousRight
    (still z.leftStance) (still z.rightStance), fun j hj => ?_, fun τ => ?_⟩
  · obtain ⟨a, b, c, d, sl, sr, a1, a2, a3, a4, a5, a6, a7⟩ := e3 j (by omega)
    have b1 := standing_first hs h hpos true first hf j hj sl a5
    have b2 := standing_first hs h hpos false first hf j hj sr a6
    simp only [if_true, Bool.false_eq_true, if_false] at b1 b2
    rw [hrun.headL] at b1; cases b1
    rw [hrun.headR] at b2; cases b2
    have c1 := hloc true j hj
    have c2 := hloc false j hj
    simp only [if_true, Bool.false_eq_true, if_false] at c1 c2
    rw [a1] at c1; cases c1
    rw [a2] at c2; cases c2
    obtain ⟨d1, d2⟩ := w3 j (by omega) hj
    rw [Nat.sub_zero] at d1 d2
    rw [a3] at d1; cases d1
    rw [a4] at d2; cases d2
    rw [if_pos hj] at a7
    exact a7
  · obtain ⟨⟨x1, x2⟩, x3, x4⟩ := worldFirst_deriv (fun τ => hermite_smooth 1 0 0 0 ((first : ℝ) * dT) τ) w1 w2 l0 r0
      z'.previousLeft z'.previousRight (still z.leftStance) (still z.rightStance) τ
    exact ⟨x1, x2, x3, x4⟩

/-- C45 (negative): after the first double support the reported velocity exceeds the derivative of the reported position by the
weighted average of the positions of the feet, and the reported acceleration exceeds the derivative of the reported velocity (from the
right) by this average plus its derivative.  In every phase without a pause, and for all the samples of it at which the feet stand on
`sl` and `sr`, position, velocity and acceleration are samples of a curve with this property. -/
theorem C45_velocity_off (hv : ValidTimings cfg) (hs : SortedPtrs left right sorted)
    (h : timeline cfg left right initTime dT sorted = .ok (ordered, t)) (hl : Named left) (hr : Named right)
    (hincL : left.steps.Pairwise fun a b => a.impactTime < b.impactTime)
    (hincR : right.steps.Pairwise fun a b => a.impactTime < b.impactTime)
    (ho : z.computeNewTrajectories cfg initTime dT t.merges left right (ordered.map Ptr.step) t.left t.right t.shifts = .ok (z', o))
    (i a b : Nat) (hi : 0 < i) (ha : t.shifts[i]? = some a) (hb : t.shifts[i + 1]? = some b) (hab : a < b)
    (hpz : cfg.pauseActive = true → ((b - a : Nat) : ℝ) * dT ≤
      max (cfg.switchPercentage * cfg.maxStepTime) (cfg.endSwitch + cfg.switchPercentage * cfg.nominalStepTime))
    (sl sr : Step ℝ) :
    ∃ (c : ℝ → ZmpSample ℝ) (wl wr : ℝ → Motion ℝ), (∀ j, a ≤ j → j < b →
        o.weightL[j]? = some (wl (((j - a : Nat) : ℝ) * dT)) ∧ o.weightR[j]? = some (wr (((j - a : Nat) : ℝ) * dT)) ∧
        (Standing left.steps ((j : ℝ) * dT + initTime) sl → Standing right.steps ((j : ℝ) * dT + initTime) sr →
          o.world[j]? = some (c (((j - a : Nat) : ℝ) * dT)))) ∧ ∀ τ,
      (HasDerivAt (fun τ => (c τ).pos.x) ((c τ).vel.x - ((wl τ).pos * sl.position.x + (wr τ).pos * sr.position.x)) τ ∧
      HasDerivAt (fun τ => (c τ).pos.y) ((c τ).vel.y - ((wl τ).pos * sl.position.y + (wr τ).pos * sr.position.y)) τ) ∧
      HasDerivWithinAt (fun τ => (c τ).vel.x) ((c τ).acc.x - (((wl τ).pos + (wl τ).vel) * sl.position.x +
        ((wr τ).pos + (wr τ).vel) * sr.position.x)) (Set.Ici τ) τ ∧
      HasDerivWithinAt (fun τ => (c τ).vel.y) ((c τ).acc.y - (((wl τ).pos + (wl τ).vel) * sl.position.y +
        ((wr τ).pos + (wr τ).vel) * sr.position.y)) (Set.Ici τ) τ := by
  obtain ⟨l0, r0, tt, hrun⟩ := timeline_ok h
  have hN : b ≤ t.left.length := by
    obtain ⟨-, p2, -⟩ := C34_partition h
    rw [List.getLast?_eq_getElem?] at p2
    have := (List.getElem?_eq_some_iff.mp hb).1
    exact shift_mono h hb p2 (by omega)
  obtain ⟨wl, wr, w1, w2, w3⟩ := weight_curve hv h ho ha hb hab hpz
  have hloc : ∀ f : Bool, ∃ x y : ℝ → Motion ℝ, Steady x ∧ Steady y ∧ ∀ m, a ≤ m → m < b →
      (if f then o.localL else o.localR)[m]? = some (x (((m - a : Nat) : ℝ) * dT), y (((m - a : Nat) : ℝ) * dT)) := by
    intro f
    obtain ⟨-, h2⟩ := local_at h ho f
    obtain ⟨i', a', b', p, l, q1, q2, q3, q4, q5, q6, -, q8⟩ := h2 a (by omega)
    obtain ⟨rfl, rfl, rfl⟩ := shift_unique h ha hb (le_refl _) hab q1 q2 q3 q4
    obtain ⟨x, y, x1, x2, x3⟩ := localBody_curve hrun.dT_pos q6 hab
    exact ⟨x, y, x1, x2, fun m hm1 hm2 => (q8 m hm1 hm2).trans (x3 (m - a) (by omega))⟩
  obtain ⟨xl, yl, u1, u2, u3⟩ := hloc true
  obtain ⟨xr, yr, v1, v2, v3⟩ := hloc false
  simp only [if_true, Bool.false_eq_true, if_false] at u3 v3
  obtain ⟨first, e1, -, e3⟩ := world_of hs h hl hr ho
  refine ⟨fun τ => worldAfter (wl τ) (wr τ) sl sr (xl τ, yl τ) (xr τ, yr τ), wl, wr, fun j hj1 hj2 => ?_, fun τ =>
    worldAfter_deriv (Steady.of_smooth w1) (Steady.of_smooth w2) u1 u2 v1 v2 sl sr τ⟩
  obtain ⟨d1, d2⟩ := w3 j hj1 hj2
  refine ⟨d1, d2, fun s1 s2 => ?_⟩
  obtain ⟨a', b', c, d, sl', sr', a1, a2, a3, a4, a5, a6, a7⟩ := e3 j (by omega)
  cases standing_unique hincL s1 a5
  cases standing_unique hincR s2 a6
  have := u3 j hj1 hj2
  rw [a1] at this; cases this
  have := v3 j hj1 hj2
  rw [a2] at this; cases this
  rw [a3] at d1; cases d1
  rw [a4] at d2; cases d2
  rw [if_neg (by have := shift_mono h e1 ha (by omega); omega)] at a7
  exact a7

end

/-! ## Examples and witnesses -/

private local instance : Trig ℚ := ⟨fun _ => 1, fun _ => 0, fun x => x, fun x => x, fun x => x, fun x _ => x, 3⟩

private def st (x t : ℚ) (n : String) : Step ℚ := ⟨⟨x, 0⟩, 0, t, n⟩
private def lf (l : List (ℚ × ℚ)) : FootPrint ℚ := ⟨l.map (fun p => st p.1 p.2 "left"), "left"⟩
private def rf (l : List (ℚ × ℚ)) : FootPrint ℚ := ⟨l.map (fun p => st p.1 p.2 "right"), "right"⟩
private def pl (i : Nat) (x t : ℚ) : Ptr ℚ := ⟨true, i, st x t "left"⟩
private def pr (i : Nat) (x t : ℚ) : Ptr ℚ := ⟨false, i, st x t "right"⟩
private def gen : Zmp ℚ := Zmp.new ⟨0, 0, 0, 0, ⟨0, 0, 0⟩, true, st 0 0 "", st 0 0 "", true, []⟩

private def run (z : Zmp ℚ) (cfg : GenSettings ℚ) (dT : ℚ) (l r : FootPrint ℚ) (s : List (Ptr ℚ)) :
    Out (Timing ℚ × ZmpOut ℚ) := do
  let t ← timeline cfg l r 0 dT s
  let o ← z.computeNewTrajectories cfg 0 dT t.2.merges l r (t.1.map Ptr.step) t.2.left t.2.right t.2.shifts
  .ok (t.2, o.2)

/-- Non-vacuity of C45, C70 and C71: the robot makes a step with each foot, the offsets move the ZMP from 1 to 3 in the frame of
the foot that supports it, and back in half of the next double support. -/
example : ValidTimings (GenSettings.new : GenSettings ℚ) ∧
    SortedPtrs (lf [(0, 0), (1, 8)]) (rf [(0, 0), (2, 16)]) [pl 0 0 0, pr 0 0 0, pl 1 1 8, pr 1 2 16] ∧
    Named (lf [(0, 0), (1, 8)]) ∧ Named (rf [(0, 0), (2, 16)]) ∧
    Alternating (lf [(0, 0), (1, 8)]).steps (rf [(0, 0), (2, 16)]).steps ∧
    (run ((gen.setStanceZMPDelta ⟨1, 0⟩ ⟨1, 0⟩).setInitialSwitchZMPDelta ⟨3, 0⟩ ⟨3, 0⟩) GenSettings.new 1
        (lf [(0, 0), (1, 8)]) (rf [(0, 0), (2, 16)]) [pl 0 0 0, pr 0 0 0, pl 1 1 8, pr 1 2 16]).bind
      (fun o => .ok (o.1.shifts, o.2.localL.map (·.1.pos), o.2.localR.map (·.1.pos), o.2.weightL.map (·.pos))) =
    .ok ([0, 4, 8, 12, 16, 17],
      [1, 1, 1, 1, 1, 1, 1, 1, 1, 1, 1, 1, 1, 21 / 16, 2, 43 / 16, 3],
      [1, 1, 1, 1, 1, 21 / 16, 2, 43 / 16, 3, 2, 1, 1, 1, 1, 1, 1, 1],
      [1 / 2, 27 / 64, 1 / 4, 5 / 64, 0, 0, 0, 0, 0, 5 / 32, 1 / 2, 27 / 32, 1, 1, 1, 1, 1]) := by
  refine ⟨⟨by decide +kernel, by decide +kernel, by decide +kernel, by decide +kernel, by decide +kernel, by decide +kernel,
    by decide +kernel, by decide +kernel⟩, by unfold SortedPtrs; decide +kernel, by unfold Named; decide +kernel,
    by unfold Named; decide +kernel, ⟨?_, ?_⟩, by decide +kernel⟩ <;>
  · intro i a b _ h
    simp [lf, rf] at h

/-- Non-vacuity of `C45_first` and `C45_start`: with previous steps two metres behind, the ZMP starts there. -/
example : (run (gen.setPreviousSteps (st (-2) 0 "left") (st (-2) 0 "right")) GenSettings.new 1 (lf [(0, 0), (1, 4)]) (rf [(0, 0)])
      [pl 0 0 0, pr 0 0 0, pl 1 1 4]).bind (fun o => .ok (o.1.shifts, o.2.world.map fun w => (w.pos.x, w.vel.x))) =
    .ok ([0, 2, 4, 5], [(-2, 0), (-1, 3 / 2), (0, 0), (0, 0), (0, 0)]) := by decide +kernel

/-- C45 (negative): a robot that marks time five metres from the origin.  The ZMP does not move at all, but from the third
sample on it is said to move at five metres per second. -/
theorem C45_velocity_witness :
    SortedPtrs (lf [(5, 0), (5, 4)]) (rf [(5, 0)]) [pl 0 5 0, pr 0 5 0, pl 1 5 4] ∧
    (run gen GenSettings.new 1 (lf [(5, 0), (5, 4)]) (rf [(5, 0)]) [pl 0 5 0, pr 0 5 0, pl 1 5 4]).bind
      (fun o => .ok (o.1.shifts, o.2.world.map fun w => (w.pos.x, w.vel.x))) =
    .ok ([0, 2, 4, 5], [(5, 0), (5, 0), (5, 5), (5, 5), (5, 5)]) :=
  ⟨by unfold SortedPtrs; decide +kernel, by decide +kernel⟩

end Zmp
end Uni
