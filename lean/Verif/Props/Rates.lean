import Verif.Spec.Rates
import Verif.Lemmas.Rates
import Verif.Props.ZMP
import Verif.Props.CoMHeight

/-! # C105: how fast the load and the height of the centre of mass change -/

set_option autoImplicit false
set_option linter.unusedSectionVars false

namespace Uni
open Spec Gen

section
variable {K : Type} [Field K] [LinearOrder K] [IsStrictOrderedRing K] [FloorRing K] [Trig K]
variable {cfg : GenSettings K} {left right : FootPrint K} {initTime dT : K} {sorted ordered : List (Ptr K)} {t : Timing K}
variable {z z' : Zmp K} {o : ZmpOut K} {c : HeightSettings K} {out : List (Motion K)}

/-- C105: a foot goes through its phases in order: it takes the load, carries it, gives it away, swings; it changes its phase
exactly at the phase shifts. -/
theorem C105_order (hs : SortedPtrs left right sorted) (h : timeline cfg left right initTime dT sorted = .ok (ordered, t))
    (hpos : t.shifts.Pairwise (· < ·)) (ha : Alternating left.steps right.steps) (f : Bool) (j : Nat) (p q : Phase)
    (hp : (if f then t.left else t.right)[j]? = some p) (hq : (if f then t.left else t.right)[j + 1]? = some q) :
    (q = p ∧ j + 1 ∉ t.shifts) ∨ (q = p.after ∧ j + 1 ∈ t.shifts) := by
  rcases phase_after hs h hpos ha f j p q hp hq with h | ⟨h, ⟨rfl, rfl⟩ | ⟨rfl, rfl⟩ | ⟨rfl, rfl⟩ | ⟨rfl, rfl⟩⟩
  · exact Or.inl h
  all_goals exact Or.inr ⟨rfl, h⟩

/-! ## The height -/

namespace CoMHeight

private theorem next_phase {i a b i' a' b' j : Nat} (h : timeline cfg left right initTime dT sorted = .ok (ordered, t))
    (h1 : t.shifts[i]? = some a) (h2 : t.shifts[i + 1]? = some b) (h3 : a ≤ j) (h4 : j < b)
    (h1' : t.shifts[i']? = some a') (h2' : t.shifts[i' + 1]? = some b') (h3' : a' ≤ j + 1) (h4' : j + 1 < b') :
    (i' = i ∧ a' = a ∧ b' = b ∧ j + 1 < b) ∨ (a' = j + 1 ∧ b = j + 1 ∧ i < i') := by
  by_cases hc : j + 1 < b
  · obtain ⟨x, y, w⟩ := Zmp.shift_unique h h1 h2 (by omega) hc h1' h2' h3' h4'
    exact Or.inl ⟨x.symm, y.symm, w.symm, hc⟩
  · have hb : b = j + 1 := by omega
    have ha : a' = j + 1 := by
      by_contra hne
      obtain ⟨x, y, w⟩ := Zmp.shift_unique h h1 h2 h3 h4 h1' h2' (by omega) (by omega)
      omega
    refine Or.inr ⟨ha, hb, ?_⟩
    by_contra hle
    have := Zmp.shift_mono h h2' h2 (by omega)
    omega

/-- The first sample of a phase is at the nominal height. -/
private theorem first_sample (h : timeline cfg left right initTime dT sorted = .ok (ordered, t))
    (ho : computeNewTrajectories c dT t.left t.shifts = .ok out) (i' a' b' : Nat) (y : Motion K) (g1 : t.shifts[i']? = some a')
    (g2 : t.shifts[i' + 1]? = some b') (g3 : a' < b') (hy : out[a']? = some y) : y.pos = c.height := by
  obtain ⟨h1, h2⟩ := samples h ho
  obtain ⟨i₂, a₂, b₂, p₂, k₂, e₂, l₂, s1, s2, s3, s4, s5, s6, s7⟩ := h2 a' (List.getElem?_eq_some_iff.mp hy).1
  obtain ⟨rfl, rfl, rfl⟩ := Zmp.shift_unique h g1 g2 (le_refl _) g3 s1 s2 s3 s4
  by_cases hp : p₂ = .stance ∨ p₂ = .swing
  · obtain ⟨hL', rfl⟩ := body_single s6 hp
    rw [hy, List.getElem?_map, List.getElem?_range (by omega)] at s7
    simp only [Option.map_some, Option.some.injEq] at s7
    rw [s7, bump_at, Nat.sub_self, Nat.cast_zero, zero_mul, if_pos (by linarith)]
    exact (hermite_zero _ _ _ _ _).1
  · have hp' : p₂ = .switchIn ∨ p₂ = .switchOut := by cases p₂ <;> simp_all
    have := (C51_double h ho).2 a' p₂ (s5 a' s3 s4) hp'
    rw [hy] at this
    cases this; rfl

/-- C105: in a single support of `b - a` samples the height changes by at most `3 |delta| / (b - a)` from a sample to the next,
the first of the following double support included; its velocity and its acceleration are bounded accordingly.  (In double
support it does not change, C51.) -/
theorem C105_height (h : timeline cfg left right initTime dT sorted = .ok (ordered, t))
    (ho : computeNewTrajectories c dT t.left t.shifts = .ok out) (i a b j : Nat) (hi : t.shifts[i]? = some a)
    (hb : t.shifts[i + 1]? = some b) (haj : a ≤ j) (hjb : j < b) (x : Motion K) (hx : out[j]? = some x) :
    |x.vel| ≤ 3 * |c.delta| / (((b - a : Nat) : K) * dT) ∧ |x.acc| ≤ 24 * |c.delta| / (((b - a : Nat) : K) * dT) ^ 2 ∧
    ∀ y, out[j + 1]? = some y → |y.pos - x.pos| ≤ 3 * |c.delta| / ((b - a : Nat) : K) := by
  obtain ⟨l0, r0, tt, hr⟩ := timeline_ok h
  have hd := hr.dT_pos
  obtain ⟨h1, h2⟩ := samples h ho
  obtain ⟨i', a', b', p, k, e, l, q1, q2, q3, q4, q5, q6, q7⟩ := h2 j (List.getElem?_eq_some_iff.mp hx).1
  obtain ⟨rfl, rfl, rfl⟩ := Zmp.shift_unique h hi hb haj hjb q1 q2 q3 q4
  have hn : (0 : K) < ((b - a : Nat) : K) := by exact_mod_cast (by omega : 0 < b - a)
  have hL := mul_pos hn hd
  have hnn : 0 ≤ 3 * |c.delta| / ((b - a : Nat) : K) := div_nonneg (mul_nonneg (by norm_num) (abs_nonneg _)) hn.le
  by_cases hp : p = .stance ∨ p = .swing
  · obtain ⟨-, rfl⟩ := body_single q6 hp
    rw [hx, List.getElem?_map, List.getElem?_range (by omega)] at q7
    simp only [Option.map_some, Option.some.injEq] at q7
    have hm0 : (0 : K) ≤ ((j - a : Nat) : K) * dT := mul_nonneg (Nat.cast_nonneg _) hd.le
    have hm1 : ((j - a : Nat) : K) * dT ≤ ((b - a : Nat) : K) * dT :=
      mul_le_mul_of_nonneg_right (by exact_mod_cast (by omega : j - a ≤ b - a)) hd.le
    obtain ⟨v1, v2⟩ := bump_rates (h := c.height) (δ := c.delta) hL hm0 hm1
    rw [← q7] at v1 v2
    refine ⟨v1, v2, fun y hy => ?_⟩
    -- the height at the next instant
    have hs : ((j + 1 - a : Nat) : K) * dT ≤ ((b - a : Nat) : K) * dT :=
      mul_le_mul_of_nonneg_right (by exact_mod_cast (by omega : j + 1 - a ≤ b - a)) hd.le
    have e1 : ((j + 1 - a : Nat) : K) = ((j - a : Nat) : K) + 1 := by
      rw [show j + 1 - a = (j - a) + 1 by omega]; push_cast; ring
    have sl := bump_slope (h := c.height) (δ := c.delta) hL hm0
      (by rw [e1]; nlinarith : ((j - a : Nat) : K) * dT ≤ ((j + 1 - a : Nat) : K) * dT) hs
    rw [← q7, show 3 * |c.delta| / (((b - a : Nat) : K) * dT) * (((j + 1 - a : Nat) : K) * dT - ((j - a : Nat) : K) * dT) =
      3 * |c.delta| / ((b - a : Nat) : K) by rw [e1]; field_simp; ring] at sl
    suffices hy' : y.pos = (spline3At c.height 0 (c.height + c.delta) c.height 0 (((b - a : Nat) : K) * dT / 2)
        (((b - a : Nat) : K) * dT) (((j + 1 - a : Nat) : K) * dT)).pos by rw [hy']; exact sl
    obtain ⟨i₂, a₂, b₂, p₂, k₂, e₂, l₂, s1, s2, s3, s4, s5, s6, s7⟩ := h2 (j + 1) (List.getElem?_eq_some_iff.mp hy).1
    rcases next_phase h hi hb haj hjb s1 s2 s3 s4 with ⟨rfl, rfl, rfl, hlt⟩ | ⟨ea, eb, -⟩
    · have hpp : p₂ = p := by
        have x1 := q5 j q3 q4
        have x2 := s5 j q3 q4
        rw [x1] at x2; cases x2; rfl
      subst hpp
      obtain ⟨-, rfl⟩ := body_single s6 hp
      rw [hy, List.getElem?_map, List.getElem?_range (by omega)] at s7
      simp only [Option.map_some, Option.some.injEq] at s7
      rw [s7]
    · rw [first_sample h ho i₂ a₂ b₂ y s1 s2 (by omega) (by rw [ea]; exact hy), show j + 1 - a = b - a by omega, bump_at,
        if_neg (by linarith), show ((b - a : Nat) : K) * dT - ((b - a : Nat) : K) * dT / 2 = ((b - a : Nat) : K) * dT / 2 by ring,
        (hermite_end _ _ _ _ (half_pos hL).ne').1]
  · have hp' : p = .switchIn ∨ p = .switchOut := by cases p <;> simp_all
    have hx' := (C51_double h ho).2 j p (q5 j q3 q4) hp'
    rw [hx] at hx'
    cases hx'
    refine ⟨?_, ?_, fun y hy => ?_⟩
    · simp only [abs_zero]; positivity
    · simp only [abs_zero]; positivity
    · suffices hy' : y.pos = c.height by
        rw [hy', sub_self, abs_zero]; exact hnn
      obtain ⟨i₂, a₂, b₂, p₂, k₂, e₂, l₂, s1, s2, s3, s4, s5, s6, s7⟩ := h2 (j + 1) (List.getElem?_eq_some_iff.mp hy).1
      rcases next_phase h hi hb haj hjb s1 s2 s3 s4 with ⟨rfl, rfl, rfl, hlt⟩ | ⟨ea, eb, -⟩
      · have hy' := (C51_double h ho).2 (j + 1) p (q5 (j + 1) (by omega) hlt) hp'
        rw [hy] at hy'; cases hy'; rfl
      · exact first_sample h ho i₂ a₂ b₂ y s1 s2 (by omega) (by rw [ea]; exact hy)

end CoMHeight

/-! ## The load -/

namespace Zmp

private theorem pauses_iff (n : Nat) : (ZmpTimes.of cfg).pauses dT n = true ↔ Waits cfg dT n := by
  simp only [ZmpTimes.pauses, ZmpTimes.of, Waits, Bool.and_eq_true]
  exact and_congr Iff.rfl decide_eq_true_iff

private theorem origin_unit {init : Motion K} (h0 : 0 ≤ init.pos) (h1 : init.pos ≤ 1) (k : Nat) (p : Phase) :
    0 ≤ origin init k p ∧ origin init k p ≤ 1 := by
  unfold origin; split_ifs <;> constructor <;> linarith

set_option maxHeartbeats 1000000 in
/-- The samples of a double support. -/
private theorem body_rates (hv : ValidTimings cfg) (hd : 0 < dT) {init : Motion K} (h0 : 0 ≤ init.pos) (h1 : init.pos ≤ 1)
    {phases : List Phase} {k : Nat} {e : Bool} {p : Phase} {a b : Nat} {l : List (Motion K)}
    (h : weightBody (ZmpTimes.of cfg) init phases dT k e p a b () = .ok ((), l)) (hp : p = .switchIn ∨ p = .switchOut)
    (hph : ∀ m, a ≤ m → m < b → phases[m]? = some p) (hab : a < b) (m : Nat) (hm : m < b - a) (x : Motion K)
    (hx : l[m]? = some x) :
    |x.vel| ≤ transferRate cfg dT (b - a) (3 / 2) + |originV init k| ∧
    |x.acc| ≤ transferAcc cfg dT (b - a) |originV init k| ∧
    ∀ y : K, (m + 1 < b - a → l[m + 1]?.map Motion.pos = some y) → (m + 1 = b - a → y = target e p) →
      |y - x.pos| ≤ (transferRate cfg dT (b - a) (9 / 4) + 3 / 2 * |originV init k|) * dT := by
  obtain ⟨r1, r2⟩ := times_valid hv
  have key := fun m hm => weightBody_double hd r1.le r2.le h hp hph hab m hm
  obtain ⟨o0, o1⟩ := origin_unit h0 h1 k p
  obtain ⟨t0, t1⟩ := target_unit (K := K) e p
  have hV := abs_nonneg (originV init k)
  generalize origin init k p = y0 at *
  generalize originV init k = v0 at *
  generalize (target e p : K) = y1 at *
  have hn : (0 : K) < ((b - a : Nat) : K) := by exact_mod_cast (by omega : 0 < b - a)
  set n := b - a with hndef
  have hN := mul_pos hn hd
  by_cases hw : Waits cfg dT n
  · have hpz := (pauses_iff n).mpr hw
    have er : ∀ c, transferRate cfg dT n c = max (c / 2 / cfg.endSwitch) (3 / 2 / 2 / ((leaving cfg dT : K) * dT)) :=
      fun c => if_pos hw
    have ea : ∀ v, transferAcc cfg dT n v =
        max (6 / 2 / cfg.endSwitch ^ 2 + 4 * v / cfg.endSwitch) (6 / 2 / ((leaving cfg dT : K) * dT) ^ 2) := fun v => if_pos hw
    rw [er, er, ea]
    obtain ⟨hE, hr0, hsum, -, -, -⟩ := (key m hm).2 hpz
    change 0 < leaving cfg dT at hr0
    change _ + leaving cfg dT ≤ n at hsum
    change 0 < cfg.endSwitch at hE
    have ha1 := (stdRound_bounds (cfg.endSwitch / dT)).1
    have ha2 := (stdRound_bounds (cfg.endSwitch / dT)).2
    have han : ((stdRound (cfg.endSwitch / dT)).toNat : K) = (stdRound (cfg.endSwitch / dT) : K) := by
      have := Int.toNat_of_nonneg (stdRound_nonneg (div_nonneg hE.le hd.le))
      exact_mod_cast congrArg (Int.cast (R := K)) this
    have key1 : ∀ m, m < n → m < (stdRound (cfg.endSwitch / dT)).toNat →
        l[m]? = some (hermite y0 v0 (1 / 2) 0 cfg.endSwitch ((m : K) * dT)) := fun m hm hh => ((key m hm).2 hpz).2.2.2.1 hh
    have key2 : ∀ m, m < n → (stdRound (cfg.endSwitch / dT)).toNat ≤ m → m + leaving cfg dT < n →
        l[m]? = some ⟨1 / 2, 0, 0⟩ := fun m hm hh => ((key m hm).2 hpz).2.2.2.2.1 hh
    have key3 : ∀ m, m < n → n ≤ m + leaving cfg dT →
        l[m]? = some (hermite (1 / 2) 0 y1 0 ((leaving cfg dT : K) * dT) (((m + leaving cfg dT - n : Nat) : K) * dT)) :=
      fun m hm hh => ((key m hm).2 hpz).2.2.2.2.2 hh
    change (stdRound (cfg.endSwitch / dT)).toNat + leaving cfg dT ≤ n at hsum
    rw [← han] at ha1 ha2
    generalize (stdRound (cfg.endSwitch / dT)).toNat = q at *
    generalize leaving cfg dT = r at *
    generalize cfg.endSwitch = E at *
    have hq1 : (q : K) * dT ≤ E + dT / 2 := by
      have := mul_le_mul_of_nonneg_right ha1 hd.le
      rw [add_mul, div_mul_cancel₀ _ hd.ne'] at this; linarith
    have hq2 : E ≤ (q : K) * dT + dT / 2 := by
      have := mul_le_mul_of_nonneg_right ha2 hd.le
      rw [sub_mul, div_mul_cancel₀ _ hd.ne'] at this; linarith
    have hR : (0 : K) < (r : K) * dT := mul_pos (by exact_mod_cast hr0) hd
    have d0 : |1 / 2 - y0| ≤ 1 / 2 := by rw [abs_le]; constructor <;> linarith
    have d1 : |y1 - 1 / 2| ≤ 1 / 2 := by rw [abs_le]; constructor <;> linarith
    -- the middle
    have middle : ∀ y : K, ∀ m', m' < n → q ≤ m' → m' + r ≤ n → l[m']?.map Motion.pos = some y → y = 1 / 2 := by
      intro y m' g1 g2 g3 hy
      rcases Nat.eq_or_lt_of_le g3 with g | g
      · rw [key3 m' g1 (by omega), g] at hy
        simp only [Nat.sub_self, Nat.cast_zero, zero_mul, Option.map_some, Option.some.injEq] at hy
        rw [← hy]; exact (hermite_zero _ _ _ _ _).1
      · rw [key2 m' g1 g2 g] at hy
        simp only [Option.map_some, Option.some.injEq] at hy
        exact hy.symm
    have maxE : ∀ (c : K), c / 2 / E ≤ max (c / 2 / E) (3 / 2 / 2 / ((r : K) * dT)) := fun c => le_max_left _ _
    have maxR : ∀ (c : K), 3 / 2 / 2 / ((r : K) * dT) ≤ max (c / 2 / E) (3 / 2 / 2 / ((r : K) * dT)) := fun c => le_max_right _ _
    by_cases c1 : m < q
    · have hmq : (m : K) + 1 ≤ q := by exact_mod_cast c1
      have hm0 : (0 : K) ≤ (m : K) * dT := mul_nonneg (Nat.cast_nonneg _) hd.le
      have hmE : ((m : K) + 1) * dT ≤ E + dT / 2 := (mul_le_mul_of_nonneg_right hmq hd.le).trans hq1
      have hm1 : (m : K) * dT ≤ E := by linarith
      rw [key1 m hm c1] at hx
      cases hx
      have hv' := hermite_vel_le (y0 := y0) (v0 := v0) (y1 := 1 / 2) hE hm0 hm1
      have ha' := hermite_acc_le (y0 := y0) (v0 := v0) (y1 := 1 / 2) hE hm0 hm1
      have b1 : 3 / 2 * |1 / 2 - y0| / E ≤ 3 / 2 / 2 / E := div_le_div_of_nonneg_right (by linarith) hE.le
      have b2 : 6 * |1 / 2 - y0| / E ^ 2 ≤ 6 / 2 / E ^ 2 := div_le_div_of_nonneg_right (by linarith) (pow_pos hE 2).le
      refine ⟨by linarith [maxE (3 / 2)], (ha'.trans (by linarith)).trans (le_max_left _ _), fun y hy1 hy2 => ?_⟩
      have step : ∀ u : K, (m : K) * dT ≤ u → u ≤ E → u - (m : K) * dT ≤ 3 / 2 * dT →
          y = (hermite y0 v0 (1 / 2) 0 E u).pos →
          |y - (hermite y0 v0 (1 / 2) 0 E ((m : K) * dT)).pos| ≤
            (max (9 / 4 / 2 / E) (3 / 2 / 2 / ((r : K) * dT)) + 3 / 2 * |v0|) * dT := by
        intro u hu1 hu2 hu3 hyu
        rw [hyu]
        refine (hermite_slope hE hm0 hu1 hu2).trans ?_
        have c0 : 0 ≤ 3 / 2 * |1 / 2 - y0| / E + |v0| := by positivity
        have c2 : (3 / 2 * |1 / 2 - y0| / E + |v0|) * (u - (m : K) * dT) ≤ (3 / 2 / 2 / E + |v0|) * (3 / 2 * dT) :=
          mul_le_mul (by linarith) hu3 (by linarith) (by positivity)
        refine c2.trans ?_
        have c3 : (3 / 2 / 2 / E + |v0|) * (3 / 2 * dT) = (9 / 4 / 2 / E + 3 / 2 * |v0|) * dT := by ring
        rw [c3]
        exact mul_le_mul_of_nonneg_right (by linarith [maxE (9 / 4)]) hd.le
      by_cases c2 : m + 1 < q
      · have hy := hy1 (by omega)
        rw [key1 (m + 1) (by omega) c2] at hy
        simp only [Option.map_some, Option.some.injEq] at hy
        have hmq' : (m : K) + 1 + 1 ≤ q := by exact_mod_cast c2
        have := (mul_le_mul_of_nonneg_right hmq' hd.le).trans hq1
        refine step (((m + 1 : Nat) : K) * dT) ?_ ?_ ?_ hy.symm <;> push_cast <;> linarith
      · have hq : (q : K) = m + 1 := by
          have : q = m + 1 := by omega
          rw [this]; push_cast; ring
        have hy := middle y (m + 1) (by omega) (by omega) (by omega) (hy1 (by omega))
        rw [hq] at hq2
        refine step E hm1 (le_refl _) (by linarith) ?_
        rw [hy, (hermite_end _ _ _ _ hE.ne').1]
    · by_cases c2 : m + r < n
      · rw [key2 m hm (by omega) c2] at hx
        cases hx
        have n1 : 0 ≤ max (3 / 2 / 2 / E) (3 / 2 / 2 / ((r : K) * dT)) := (maxE _).trans' (by positivity)
        have n2 : 0 ≤ max (9 / 4 / 2 / E) (3 / 2 / 2 / ((r : K) * dT)) := (maxE _).trans' (by positivity)
        refine ⟨by simp only [abs_zero]; linarith, ?_, fun y hy1 hy2 => ?_⟩
        · simp only [abs_zero]; exact (le_max_right _ _).trans' (by positivity)
        · have hy := middle y (m + 1) (by omega) (by omega) (by omega) (hy1 (by omega))
          simp only [hy, sub_self, abs_zero]
          positivity
      · rw [key3 m hm (by omega)] at hx
        cases hx
        have hm0 : (0 : K) ≤ ((m + r - n : Nat) : K) * dT := mul_nonneg (Nat.cast_nonneg _) hd.le
        have hs1 : ((m + r - n : Nat) : K) + 1 ≤ r := by exact_mod_cast (by omega : m + r - n + 1 ≤ r)
        have hs2 := mul_le_mul_of_nonneg_right hs1 hd.le
        have hm1 : ((m + r - n : Nat) : K) * dT ≤ (r : K) * dT := by linarith
        have hv' := hermite_vel_le (y0 := 1 / 2) (v0 := 0) (y1 := y1) hR hm0 hm1
        have ha' := hermite_acc_le (y0 := 1 / 2) (v0 := 0) (y1 := y1) hR hm0 hm1
        have b1 : 3 / 2 * |y1 - 1 / 2| / ((r : K) * dT) ≤ 3 / 2 / 2 / ((r : K) * dT) :=
          div_le_div_of_nonneg_right (by linarith) hR.le
        have b2 : 6 * |y1 - 1 / 2| / ((r : K) * dT) ^ 2 ≤ 6 / 2 / ((r : K) * dT) ^ 2 :=
          div_le_div_of_nonneg_right (by linarith) (pow_pos hR 2).le
        rw [abs_zero] at hv' ha'
        simp only [mul_zero, zero_div, add_zero] at hv' ha'
        refine ⟨by linarith [maxR (3 / 2)], (ha'.trans b2).trans (le_max_right _ _), fun y hy1 hy2 => ?_⟩
        have hy : y = (hermite (1 / 2) 0 y1 0 ((r : K) * dT) ((((m + r - n : Nat) : K) + 1) * dT)).pos := by
          rcases Nat.eq_or_lt_of_le (show m + 1 ≤ n by omega) with g | g
          · rw [hy2 g, show ((m + r - n : Nat) : K) + 1 = r by exact_mod_cast (by omega : m + r - n + 1 = r),
              (hermite_end _ _ _ _ hR.ne').1]
          · have hy := hy1 g
            rw [key3 (m + 1) g (by omega)] at hy
            simp only [Option.map_some, Option.some.injEq] at hy
            rw [← hy, show ((m + 1 + r - n : Nat) : K) = ((m + r - n : Nat) : K) + 1 by
              exact_mod_cast (by omega : m + 1 + r - n = m + r - n + 1)]
        rw [hy]
        refine (hermite_slope hR hm0 (by linarith) hs2).trans ?_
        rw [abs_zero, add_zero, show (((m + r - n : Nat) : K) + 1) * dT - ((m + r - n : Nat) : K) * dT = dT by ring]
        exact mul_le_mul_of_nonneg_right (by linarith [maxR (9 / 4)]) hd.le
  · have hpz : (ZmpTimes.of cfg).pauses dT n = false := by
      rw [Bool.eq_false_iff]; exact fun hh => hw ((pauses_iff n).mp hh)
    have er : ∀ c, transferRate cfg dT n c = 3 / 2 / ((n : K) * dT) := fun c => if_neg hw
    have ea : ∀ v, transferAcc cfg dT n v = 6 / ((n : K) * dT) ^ 2 + 4 * v / ((n : K) * dT) := fun v => if_neg hw
    rw [er, er, ea]
    have key1 := fun m hm => (key m hm).1 hpz
    rw [key1 m hm] at hx
    cases hx
    have hm0 : (0 : K) ≤ (m : K) * dT := mul_nonneg (Nat.cast_nonneg _) hd.le
    have hs1 : (m : K) + 1 ≤ n := by exact_mod_cast hm
    have hs2 := mul_le_mul_of_nonneg_right hs1 hd.le
    have hm1 : (m : K) * dT ≤ (n : K) * dT := by linarith
    have d1 : |y1 - y0| ≤ 1 := by rw [abs_le]; constructor <;> linarith
    have hv' := hermite_vel_le (y0 := y0) (v0 := v0) (y1 := y1) hN hm0 hm1
    have ha' := hermite_acc_le (y0 := y0) (v0 := v0) (y1 := y1) hN hm0 hm1
    have b1 : 3 / 2 * |y1 - y0| / ((n : K) * dT) ≤ 3 / 2 / ((n : K) * dT) :=
      div_le_div_of_nonneg_right (by linarith) hN.le
    have b2 : 6 * |y1 - y0| / ((n : K) * dT) ^ 2 ≤ 6 / ((n : K) * dT) ^ 2 :=
      div_le_div_of_nonneg_right (by linarith) (pow_pos hN 2).le
    refine ⟨by linarith, by linarith, fun y hy1 hy2 => ?_⟩
    have hy : y = (hermite y0 v0 y1 0 ((n : K) * dT) (((m : K) + 1) * dT)).pos := by
      rcases Nat.eq_or_lt_of_le (show m + 1 ≤ n by omega) with g | g
      · rw [hy2 g, show (m : K) + 1 = n by exact_mod_cast g, (hermite_end _ _ _ _ hN.ne').1]
      · have hy := hy1 g
        rw [key1 (m + 1) g] at hy
        simp only [Option.map_some, Option.some.injEq] at hy
        rw [← hy]; push_cast; ring_nf
    rw [hy]
    refine (hermite_slope hN hm0 (by linarith) hs2).trans ?_
    rw [show ((m : K) + 1) * dT - (m : K) * dT = dT by ring]
    exact mul_le_mul_of_nonneg_right (by linarith) hd.le

private theorem start_unit (hinit : z.initialSpecified = true → 0 ≤ z.initialState.pos ∧ z.initialState.pos ≤ 1) :
    0 ≤ z.start.pos ∧ z.start.pos ≤ 1 := by
  unfold start
  split_ifs with h
  · exact hinit h
  · constructor <;> norm_num

private theorem originV_eq (i : Nat) : |originV z.start (1 + i)| =
    if i = 0 ∧ z.initialSpecified = true then |z.initialState.vel| else 0 := by
  unfold originV start
  by_cases h : i = 0 <;> by_cases h2 : z.initialSpecified = true <;> simp [h, h2]

/-- The weight on the right foot changes as much as that on the left one. -/
private theorem both (ho : z.computeNewTrajectories cfg initTime dT t.merges left right (ordered.map Ptr.step) t.left t.right t.shifts = .ok (z', o))
    {f : Bool} {j : Nat} {x : Motion K} (hx : (if f then o.weightL else o.weightR)[j]? = some x) :
    ∃ w, o.weightL[j]? = some w ∧ |x.vel| = |w.vel| ∧ |x.acc| = |w.acc| ∧ x.pos = if f then w.pos else 1 - w.pos := by
  cases f
  · simp only [Bool.false_eq_true, if_false] at hx ⊢
    obtain ⟨-, -, hm, -⟩ := compute_inv ho
    rw [hm, mirror, List.getElem?_map] at hx
    cases hw : o.weightL[j]? with
    | none => rw [hw] at hx; simp at hx
    | some w => rw [hw] at hx; cases hx; exact ⟨w, rfl, abs_neg _, abs_neg _, rfl⟩
  · exact ⟨x, hx, rfl, rfl, rfl⟩

/-- C105: how fast the load goes from one foot to the other during a double support of `b - a` samples. -/
theorem C105_load_rates (hv : ValidTimings cfg)
    (hinit : z.initialSpecified = true → 0 ≤ z.initialState.pos ∧ z.initialState.pos ≤ 1)
    (h : timeline cfg left right initTime dT sorted = .ok (ordered, t))
    (ho : z.computeNewTrajectories cfg initTime dT t.merges left right (ordered.map Ptr.step) t.left t.right t.shifts = .ok (z', o))
    (f : Bool) (i a b j : Nat) (hi : t.shifts[i]? = some a) (hb : t.shifts[i + 1]? = some b) (haj : a ≤ j) (hjb : j < b)
    (p : Phase) (hp : t.left[j]? = some p) (hd : p = .switchIn ∨ p = .switchOut) (x : Motion K)
    (hx : (if f then o.weightL else o.weightR)[j]? = some x) (v : K)
    (hvel : v = if i = 0 ∧ z.initialSpecified = true then |z.initialState.vel| else 0) :
    |x.vel| ≤ transferRate cfg dT (b - a) (3 / 2) + v ∧ |x.acc| ≤ transferAcc cfg dT (b - a) v := by
  obtain ⟨w, hw, e1, e2, -⟩ := both ho hx
  rw [e1, e2, hvel, ← originV_eq]
  obtain ⟨h1, h2⟩ := weights_at h ho
  obtain ⟨l0, r0, tt, hr⟩ := timeline_ok h
  obtain ⟨i', a', b', p', l, q1, q2, q3, q4, q5, q6, q7⟩ := h2 j (List.getElem?_eq_some_iff.mp hw).1
  obtain ⟨rfl, rfl, rfl⟩ := shift_unique h hi hb haj hjb q1 q2 q3 q4
  have := q5 j q3 q4
  rw [hp] at this; cases this
  obtain ⟨u0, u1⟩ := start_unit hinit
  obtain ⟨k1, k2, -⟩ := body_rates hv hr.dT_pos u0 u1 q6 hd q5 (by omega) (j - a) (by omega) w (by rw [← q7]; exact hw)
  exact ⟨k1, k2⟩

/-- C105: how much the load changes from a sample to the next, also when the phase changes in between, in a walk in which the
feet alternate. -/
theorem C105_load (hv : ValidTimings cfg)
    (hinit : z.initialSpecified = true → 0 ≤ z.initialState.pos ∧ z.initialState.pos ≤ 1) (hs : SortedPtrs left right sorted)
    (h : timeline cfg left right initTime dT sorted = .ok (ordered, t)) (hpos : t.shifts.Pairwise (· < ·))
    (ha : Alternating left.steps right.steps)
    (ho : z.computeNewTrajectories cfg initTime dT t.merges left right (ordered.map Ptr.step) t.left t.right t.shifts = .ok (z', o))
    (f : Bool) (i a b j : Nat) (hi : t.shifts[i]? = some a) (hb : t.shifts[i + 1]? = some b) (haj : a ≤ j) (hjb : j < b)
    (p : Phase) (hp : t.left[j]? = some p) (x y : Motion K) (hx : (if f then o.weightL else o.weightR)[j]? = some x)
    (hy : (if f then o.weightL else o.weightR)[j + 1]? = some y) (v : K)
    (hvel : v = if i = 0 ∧ z.initialSpecified = true then |z.initialState.vel| else 0) :
    (p = .switchIn ∨ p = .switchOut → |y.pos - x.pos| ≤ (transferRate cfg dT (b - a) (9 / 4) + 3 / 2 * v) * dT) ∧
    (p = .stance ∨ p = .swing → y.pos = x.pos) := by
  obtain ⟨w, hw, -, -, ex⟩ := both ho hx
  obtain ⟨w', hw', -, -, ey⟩ := both ho hy
  have e : |y.pos - x.pos| = |w'.pos - w.pos| := by
    rw [ex, ey]
    cases f
    · rw [← abs_neg]; congr 1; simp
    · rfl
  have e' : w'.pos = w.pos → y.pos = x.pos := by intro hh; rw [ex, ey, hh]
  rw [e]
  obtain ⟨h1, h2⟩ := weights_at h ho
  obtain ⟨l0, r0, tt, hr⟩ := timeline_ok h
  have hdT := hr.dT_pos
  have hend := settling_time h hpos
  obtain ⟨r1, r2⟩ := times_valid hv
  obtain ⟨i', a', b', p', l, q1, q2, q3, q4, q5, q6, q7⟩ := h2 j (List.getElem?_eq_some_iff.mp hw).1
  obtain ⟨rfl, rfl, rfl⟩ := shift_unique h hi hb haj hjb q1 q2 q3 q4
  have := q5 j q3 q4
  rw [hp] at this; cases this
  obtain ⟨i₂, a₂, b₂, p₂, l₂, s1, s2, s3, s4, s5, s6, s7⟩ := h2 (j + 1) (List.getElem?_eq_some_iff.mp hw').1
  obtain ⟨u0, u1⟩ := start_unit hinit
  have hp₂ := s5 (j + 1) s3 s4
  have hord := phase_after hs h hpos ha true j p p₂ hp hp₂
  have hlen := (List.getElem?_eq_some_iff.mp s2).1
  rcases CoMHeight.next_phase h hi hb haj hjb s1 s2 s3 s4 with ⟨rfl, rfl, rfl, hlt⟩ | ⟨ea, eb, hii⟩
  · -- inside a phase
    have hpp : p₂ = p := by
      have x2 := s5 j q3 q4
      rw [hp] at x2; cases x2; rfl
    subst hpp
    rw [q6] at s6
    cases s6
    constructor
    · intro hd
      obtain ⟨-, -, k3⟩ := body_rates hv hdT u0 u1 q6 hd q5 (by omega) (j - a₂) (by omega) w (by rw [← q7]; exact hw)
      rw [hvel, ← originV_eq]
      refine k3 w'.pos (fun _ => ?_) (fun hh => by omega)
      rw [show j - a₂ + 1 = j + 1 - a₂ by omega, ← s7, hw']; rfl
    · intro hd
      rw [weightBody_single q6 hd q5 _ (by omega), hw] at q7
      rw [weightBody_single q6 hd q5 _ (by omega), hw'] at s7
      cases q7; cases s7
      exact e' rfl
  · -- at a change of phase
    have hmem : j + 1 ∈ t.shifts := by rw [← ea]; exact List.mem_of_getElem? s1
    have horder : (p = .switchIn ∧ p₂ = .stance) ∨ (p = .stance ∧ p₂ = .switchOut) ∨ (p = .switchOut ∧ p₂ = .swing) ∨
        (p = .swing ∧ p₂ = .switchIn) := by
      rcases hord with ⟨-, hh⟩ | ⟨-, hh⟩
      · exact absurd hmem hh
      · exact hh
    -- a single support that follows
    have single : p₂ = .stance ∨ p₂ = .swing → w'.pos = if p₂ = .stance then 1 else 0 := by
      intro hd
      rw [weightBody_single s6 hd s5 _ (by omega), hw'] at s7
      cases s7; rfl
    -- a double support that follows
    have double : p₂ = .switchIn ∨ p₂ = .switchOut → w'.pos = if p₂ = .switchIn then 0 else 1 := by
      intro hd
      have eo : origin z.start (1 + i₂) p₂ = if p₂ = .switchIn then 0 else 1 := by
        unfold origin; rw [if_neg (by omega)]
      obtain ⟨k1, k2⟩ := weightBody_double hdT r1.le r2.le s6 hd s5 (by omega) (j + 1 - a₂) (by omega)
      have zero : ((j + 1 - a₂ : Nat) : K) * dT = 0 := by rw [ea]; simp
      rw [zero] at k1 k2
      rw [hw'] at s7
      cases hpz : (ZmpTimes.of cfg).pauses dT (b₂ - a₂) with
      | false =>
        rw [k1 hpz] at s7
        cases s7
        rw [(hermite_zero _ _ _ _ _).1, eo]
      | true =>
        obtain ⟨m1, m2, m3, m4, m5, m6⟩ := k2 hpz
        have hpos' : 0 < (stdRound ((ZmpTimes.of cfg).endSwitch / dT)).toNat := by
          have := stdRound_pos (x := (ZmpTimes.of cfg).endSwitch / dT) (by
            rw [le_div_iff₀ hdT]; have := hend; show _ ≤ cfg.endSwitch; linarith)
          omega
        rw [m4 (by rw [ea]; simpa using hpos')] at s7
        cases s7
        rw [(hermite_zero _ _ _ _ _).1, eo]
    constructor
    · intro hd
      obtain ⟨-, -, k3⟩ := body_rates hv hdT u0 u1 q6 hd q5 (by omega) (j - a) (by omega) w (by rw [← q7]; exact hw)
      rw [hvel, ← originV_eq]
      refine k3 w'.pos (fun hh => by omega) (fun _ => ?_)
      have hl : decide (i + 2 = t.shifts.length) = false := by simp; omega
      rw [hl]
      unfold target
      rcases horder with ⟨rfl, rfl⟩ | ⟨rfl, rfl⟩ | ⟨rfl, rfl⟩ | ⟨rfl, rfl⟩
      · rw [single (by simp)]; simp
      · simp at hd
      · rw [single (by simp)]; simp
      · simp at hd
    · intro hd
      rw [weightBody_single q6 hd q5 _ (by omega), hw] at q7
      cases q7
      refine e' ?_
      rcases horder with ⟨rfl, rfl⟩ | ⟨rfl, rfl⟩ | ⟨rfl, rfl⟩ | ⟨rfl, rfl⟩
      · simp at hd
      · rw [double (by simp)]; simp
      · simp at hd
      · rw [double (by simp)]; simp

end Zmp
end

/-! ## Examples -/

private local instance trigRates : Trig ℚ := ⟨fun _ => 1, fun _ => 0, fun x => x, fun x => x, fun x => x, fun x _ => x, 3⟩

private def st (x t : ℚ) (n : String) : Step ℚ := ⟨⟨x, 0⟩, 0, t, n⟩
private def lf (l : List (ℚ × ℚ)) : FootPrint ℚ := ⟨l.map (fun p => st p.1 p.2 "left"), "left"⟩
private def rf (l : List (ℚ × ℚ)) : FootPrint ℚ := ⟨l.map (fun p => st p.1 p.2 "right"), "right"⟩
private def pl (i : Nat) (x t : ℚ) : Ptr ℚ := ⟨true, i, st x t "left"⟩
private def pr (i : Nat) (x t : ℚ) : Ptr ℚ := ⟨false, i, st x t "right"⟩
private def gen : Zmp ℚ := Zmp.new ⟨0, 0, 0, 0, ⟨0, 0, 0⟩, true, st 0 0 "", st 0 0 "", true, []⟩

private def run (z : Zmp ℚ) (cfg : GenSettings ℚ) (c : HeightSettings ℚ) (dT : ℚ) (l r : FootPrint ℚ) (s : List (Ptr ℚ)) :
    Out (Timing ℚ × ZmpOut ℚ × List (Motion ℚ)) := do
  let t ← timeline cfg l r 0 dT s
  let o ← z.computeNewTrajectories cfg 0 dT t.2.merges l r (t.1.map Ptr.step) t.2.left t.2.right t.2.shifts
  let h ← CoMHeight.computeNewTrajectories c dT t.2.left t.2.shifts
  .ok (t.2, o.2, h)

/-- C105: the bounds on the rates are attained.  In the double support from sample 8 to sample 12 the load goes at 3/8 in the
middle, with an acceleration of 6/16 at the start; in the single supports, of four samples too, the height changes at
`3 / 10 / 4`, with an acceleration of `24 / 10 / 16`.  (Also the non-vacuity of C105.) -/
theorem C105_attained :
    ValidTimings (GenSettings.new : GenSettings ℚ) ∧
    SortedPtrs (lf [(0, 0), (1, 8)]) (rf [(0, 0), (2, 16)]) [pl 0 0 0, pr 0 0 0, pl 1 1 8, pr 1 2 16] ∧
    Alternating (lf [(0, 0), (1, 8)]).steps (rf [(0, 0), (2, 16)]).steps ∧
    (run gen GenSettings.new ⟨1, 1 / 10⟩ 1 (lf [(0, 0), (1, 8)]) (rf [(0, 0), (2, 16)])
        [pl 0 0 0, pr 0 0 0, pl 1 1 8, pr 1 2 16]).bind
      (fun o => .ok (o.1.shifts, o.1.left, o.2.1.weightL.map (·.pos))) =
    .ok ([0, 4, 8, 12, 16, 17],
      [.switchOut, .switchOut, .switchOut, .switchOut, .swing, .swing, .swing, .swing, .switchIn, .switchIn, .switchIn, .switchIn,
        .stance, .stance, .stance, .stance, .switchOut],
      [1 / 2, 27 / 64, 1 / 4, 5 / 64, 0, 0, 0, 0, 0, 5 / 32, 1 / 2, 27 / 32, 1, 1, 1, 1, 1]) ∧
    (run gen GenSettings.new ⟨1, 1 / 10⟩ 1 (lf [(0, 0), (1, 8)]) (rf [(0, 0), (2, 16)])
        [pl 0 0 0, pr 0 0 0, pl 1 1 8, pr 1 2 16]).bind
      (fun o => .ok ((o.2.1.weightL.drop 8).map (·.vel), (o.2.1.weightL.drop 8).map (·.acc), (o.2.2.drop 4).map (·.vel),
        (o.2.2.drop 4).map (·.acc))) =
    .ok ([0, 9 / 32, 3 / 8, 9 / 32, 0, 0, 0, 0, 0], [6 / 16, 3 / 16, 0, -3 / 16, 0, 0, 0, 0, -3],
      [0, 3 / 10 / 4, 0, -3 / 10 / 4, 0, 0, 0, 0, 0, 3 / 10 / 4, 0, -3 / 10 / 4, 0],
      [24 / 10 / 16, 0, -(24 / 10 / 16), 0, 0, 0, 0, 0, 24 / 10 / 16, 0, -(24 / 10 / 16), 0, 0]) := by
  refine ⟨⟨by decide +kernel, by decide +kernel, by decide +kernel, by decide +kernel, by decide +kernel, by decide +kernel,
    by decide +kernel, by decide +kernel⟩, by unfold SortedPtrs; decide +kernel, ⟨?_, ?_⟩, by decide +kernel,
    by decide +kernel⟩ <;>
  · intro i a b _ h
    simp [lf, rf] at h

end Uni
