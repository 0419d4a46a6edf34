import Verif.Lemmas.ZMPSteps
import Verif.Lemmas.CoMHeight

/-! # How fast the cubic pieces move -/

set_option autoImplicit false
set_option linter.unusedSectionVars false

namespace Uni
open Spec

section
variable {K : Type} [Field K] [LinearOrder K] [IsStrictOrderedRing K]

private theorem ease_steep {a b : K} (ha : 0 ≤ a) (hab : a ≤ b) (hb : b ≤ 1) : |ease b - ease a| ≤ 3 / 2 * (b - a) := by
  have key : ease b - ease a = (b - a) * ((a * (1 - a)) + 4 * ((a + b) / 2 * (1 - (a + b) / 2)) + b * (1 - b)) := by
    unfold ease; ring
  have q : ∀ s : K, s * (1 - s) ≤ 1 / 4 := fun s => by nlinarith [sq_nonneg (s - 1 / 2)]
  have h0 : 0 ≤ (a * (1 - a)) + 4 * ((a + b) / 2 * (1 - (a + b) / 2)) + b * (1 - b) := by nlinarith
  have h := mul_le_mul_of_nonneg_left (a := b - a)
    (by linarith [q a, q ((a + b) / 2), q b] :
      (a * (1 - a)) + 4 * ((a + b) / 2 * (1 - (a + b) / 2)) + b * (1 - b) ≤ 3 / 2) (sub_nonneg.mpr hab)
  rw [key, abs_of_nonneg (mul_nonneg (sub_nonneg.mpr hab) h0)]; linarith

/-- The part of a cubic piece that comes from its initial velocity. -/
private theorem drift_slope {a b : K} (ha : 0 ≤ a) (hab : a ≤ b) (hb : b ≤ 1) :
    |b * (1 - b) ^ 2 - a * (1 - a) ^ 2| ≤ b - a := by
  have key : b * (1 - b) ^ 2 - a * (1 - a) ^ 2 = (b - a) * (1 - 2 * (a + b) + a ^ 2 + a * b + b ^ 2) := by ring
  have h1 : 1 - 2 * (a + b) + a ^ 2 + a * b + b ^ 2 ≤ 1 := by nlinarith
  have h2 : -1 ≤ 1 - 2 * (a + b) + a ^ 2 + a * b + b ^ 2 := by
    nlinarith [sq_nonneg (1 - a), sq_nonneg (1 - b), mul_nonneg ha (ha.trans hab)]
  have h3 := sub_nonneg.mpr hab
  rw [key, abs_le]
  constructor <;> nlinarith

theorem hermite_slope {y0 v0 y1 T x y : K} (hT : 0 < T) (hx : 0 ≤ x) (hxy : x ≤ y) (hy : y ≤ T) :
    |(hermite y0 v0 y1 0 T y).pos - (hermite y0 v0 y1 0 T x).pos| ≤ (3 / 2 * |y1 - y0| / T + |v0|) * (y - x) := by
  have a0 := div_nonneg hx hT.le
  have ab := (div_le_div_iff_of_pos_right hT).mpr hxy
  have b1 := (div_le_one hT).mpr hy
  rw [hermite_pos _ _ _ _ hT.ne', hermite_pos _ _ _ _ hT.ne']
  generalize ea : x / T = a at *
  generalize eb : y / T = b at *
  have e : y - x = T * (b - a) := by rw [← ea, ← eb]; field_simp
  have e1 : (y0 * ((1 - b) ^ 2 * (1 + 2 * b)) + v0 * T * (b * (1 - b) ^ 2) + y1 * (b ^ 2 * (3 - 2 * b)) -
      0 * T * (b ^ 2 * (1 - b))) - (y0 * ((1 - a) ^ 2 * (1 + 2 * a)) + v0 * T * (a * (1 - a) ^ 2) +
      y1 * (a ^ 2 * (3 - 2 * a)) - 0 * T * (a ^ 2 * (1 - a))) =
      (y1 - y0) * (ease b - ease a) + v0 * (T * (b * (1 - b) ^ 2 - a * (1 - a) ^ 2)) := by unfold ease; ring
  rw [e1, e]
  refine (abs_add_le _ _).trans ?_
  rw [abs_mul, abs_mul, abs_mul, abs_of_pos hT]
  have h1 := ease_steep a0 ab b1
  have h2 := drift_slope a0 ab b1
  have e2 : (3 / 2 * |y1 - y0| / T + |v0|) * (T * (b - a)) = |y1 - y0| * (3 / 2 * (b - a)) + |v0| * (T * (b - a)) := by
    field_simp
  rw [e2]
  exact add_le_add (mul_le_mul_of_nonneg_left h1 (abs_nonneg _))
    (mul_le_mul_of_nonneg_left (mul_le_mul_of_nonneg_left h2 hT.le) (abs_nonneg _))

theorem hermite_vel_le {y0 v0 y1 T x : K} (hT : 0 < T) (hx : 0 ≤ x) (hxT : x ≤ T) :
    |(hermite y0 v0 y1 0 T x).vel| ≤ 3 / 2 * |y1 - y0| / T + |v0| := by
  have a0 := div_nonneg hx hT.le
  have a1 := (div_le_one hT).mpr hxT
  have e : (hermite y0 v0 y1 0 T x).vel =
      (y1 - y0) * (6 * (x / T * (1 - x / T)) / T) + v0 * ((1 - x / T) * (1 - 3 * (x / T))) := by
    simp only [hermite]; field_simp; ring
  rw [e]
  generalize x / T = a at *
  refine (abs_add_le _ _).trans ?_
  rw [abs_mul, abs_mul]
  have h1 : |6 * (a * (1 - a)) / T| ≤ 3 / 2 / T := by
    rw [abs_of_nonneg (div_nonneg (by nlinarith) hT.le)]
    exact div_le_div_of_nonneg_right (by nlinarith [sq_nonneg (a - 1 / 2)]) hT.le
  have h2 : |(1 - a) * (1 - 3 * a)| ≤ 1 := by rw [abs_le]; constructor <;> nlinarith [sq_nonneg (a - 2 / 3)]
  have h3 := mul_le_mul_of_nonneg_left h1 (abs_nonneg (y1 - y0))
  have h4 := mul_le_mul_of_nonneg_left h2 (abs_nonneg v0)
  calc _ ≤ |y1 - y0| * (3 / 2 / T) + |v0| * 1 := add_le_add h3 h4
    _ = _ := by ring

theorem hermite_acc_le {y0 v0 y1 T x : K} (hT : 0 < T) (hx : 0 ≤ x) (hxT : x ≤ T) :
    |(hermite y0 v0 y1 0 T x).acc| ≤ 6 * |y1 - y0| / T ^ 2 + 4 * |v0| / T := by
  have a0 := div_nonneg hx hT.le
  have a1 := (div_le_one hT).mpr hxT
  have e : (hermite y0 v0 y1 0 T x).acc =
      (y1 - y0) * (6 * (1 - 2 * (x / T)) / T ^ 2) + v0 * ((6 * (x / T) - 4) / T) := by
    simp only [hermite]; field_simp; ring
  rw [e]
  generalize x / T = a at *
  refine (abs_add_le _ _).trans ?_
  rw [abs_mul, abs_mul, abs_div, abs_div, abs_of_pos (pow_pos hT 2), abs_of_pos hT]
  have h1 : |6 * (1 - 2 * a)| ≤ 6 := by rw [abs_le]; constructor <;> linarith
  have h2 : |6 * a - 4| ≤ 4 := by rw [abs_le]; constructor <;> linarith
  have h3 := mul_le_mul_of_nonneg_left (div_le_div_of_nonneg_right h1 (pow_pos hT 2).le) (abs_nonneg (y1 - y0))
  have h4 := mul_le_mul_of_nonneg_left (div_le_div_of_nonneg_right h2 hT.le) (abs_nonneg v0)
  calc _ ≤ |y1 - y0| * (6 / T ^ 2) + |v0| * (4 / T) := add_le_add h3 h4
    _ = _ := by ring

/-! ## The bump of a single support -/

theorem bump_mid (h δ L : K) : midVelocity h 0 (h + δ) h 0 (L / 2) (L / 2) = 0 := by
  unfold midVelocity
  rw [show (L / 2) ^ 2 * (h - (h + δ)) + (L / 2) ^ 2 * (h + δ - h) = 0 by ring]
  simp

theorem bump_at (h δ L t : K) : spline3At h 0 (h + δ) h 0 (L / 2) L t =
    if t ≤ L / 2 then hermite h 0 (h + δ) 0 (L / 2) t else hermite (h + δ) 0 h 0 (L / 2) (t - L / 2) := by
  have e : L - L / 2 = L / 2 := by ring
  simp only [spline3At, e, bump_mid]

theorem bump_slope {h δ L x y : K} (hL : 0 < L) (hx : 0 ≤ x) (hxy : x ≤ y) (hy : y ≤ L) :
    |(spline3At h 0 (h + δ) h 0 (L / 2) L y).pos - (spline3At h 0 (h + δ) h 0 (L / 2) L x).pos| ≤ 3 * |δ| / L * (y - x) := by
  have h2 : 0 < L / 2 := by linarith
  have c : ∀ d : K, |d| = |δ| → 3 / 2 * |d| / (L / 2) + |(0 : K)| = 3 * |δ| / L := by
    intro d hd; rw [hd, abs_zero]; field_simp; ring
  have up : ∀ u v : K, 0 ≤ u → u ≤ v → v ≤ L / 2 → _ := fun u v hu huv hv =>
    hermite_slope (y0 := h) (v0 := 0) (y1 := h + δ) h2 hu huv hv
  have down : ∀ u v : K, 0 ≤ u → u ≤ v → v ≤ L / 2 → _ := fun u v hu huv hv =>
    hermite_slope (y0 := h + δ) (v0 := 0) (y1 := h) h2 hu huv hv
  rw [c (h + δ - h) (by congr 1; ring)] at up
  rw [c (h - (h + δ)) (by rw [← abs_neg]; congr 1; ring)] at down
  rw [bump_at, bump_at]
  split_ifs with a b b
  · exact up x y hx hxy a
  · exact absurd (hxy.trans a) b
  · have u := up x (L / 2) hx b (le_refl _)
    have d := down 0 (y - L / 2) (le_refl _) (by linarith) (by linarith)
    rw [(hermite_end h 0 (h + δ) 0 h2.ne').1] at u
    rw [(hermite_zero (h + δ) 0 h 0 (L / 2)).1] at d
    have e := abs_sub_le (hermite (h + δ) 0 h 0 (L / 2) (y - L / 2)).pos (h + δ) (hermite h 0 (h + δ) 0 (L / 2) x).pos
    calc _ ≤ _ := e
      _ ≤ _ := add_le_add d u
      _ = _ := by ring
  · have d := down (x - L / 2) (y - L / 2) (by linarith) (by linarith) (by linarith)
    rwa [show y - L / 2 - (x - L / 2) = y - x by ring] at d

theorem bump_rates {h δ L x : K} (hL : 0 < L) (hx : 0 ≤ x) (hxL : x ≤ L) :
    |(spline3At h 0 (h + δ) h 0 (L / 2) L x).vel| ≤ 3 * |δ| / L ∧
    |(spline3At h 0 (h + δ) h 0 (L / 2) L x).acc| ≤ 24 * |δ| / L ^ 2 := by
  have h2 : 0 < L / 2 := by linarith
  have c : ∀ d : K, |d| = |δ| → 3 / 2 * |d| / (L / 2) + |(0 : K)| = 3 * |δ| / L := by
    intro d hd; rw [hd, abs_zero]; field_simp; ring
  have c' : ∀ d : K, |d| = |δ| → 6 * |d| / (L / 2) ^ 2 + 4 * |(0 : K)| / (L / 2) = 24 * |δ| / L ^ 2 := by
    intro d hd; rw [hd, abs_zero]; field_simp; ring
  have e1 : |h + δ - h| = |δ| := by congr 1; ring
  have e2 : |h - (h + δ)| = |δ| := by rw [← abs_neg]; congr 1; ring
  rw [bump_at]
  split_ifs with a
  · have u := hermite_vel_le (y0 := h) (v0 := 0) (y1 := h + δ) h2 hx a
    have v := hermite_acc_le (y0 := h) (v0 := 0) (y1 := h + δ) h2 hx a
    rw [c _ e1] at u
    rw [c' _ e1] at v
    exact ⟨u, v⟩
  · have u := hermite_vel_le (y0 := h + δ) (v0 := 0) (y1 := h) h2 (x := x - L / 2) (by linarith) (by linarith)
    have v := hermite_acc_le (y0 := h + δ) (v0 := 0) (y1 := h) h2 (x := x - L / 2) (by linarith) (by linarith)
    rw [c _ e2] at u
    rw [c' _ e2] at v
    exact ⟨u, v⟩

end

/-! ## The order of the phases -/

namespace Gen
section
variable {K : Type} [Field K] [LinearOrder K] [IsStrictOrderedRing K] [FloorRing K] [Trig K]
variable {cfg : GenSettings K} {left right : FootPrint K} {initTime dT : K} {sorted ordered : List (Ptr K)} {t : Timing K}

theorem not_shift {s : List Nat} (hs : s.Pairwise (· < ·)) {i a b x : Nat} (ha : s[i]? = some a) (hb : s[i + 1]? = some b)
    (h1 : a < x) (h2 : x < b) : x ∉ s := by
  intro hx
  obtain ⟨u, hu⟩ := List.getElem?_of_mem hx
  obtain ⟨a1, a2⟩ := List.getElem?_eq_some_iff.mp ha
  obtain ⟨b1, b2⟩ := List.getElem?_eq_some_iff.mp hb
  obtain ⟨u1, u2⟩ := List.getElem?_eq_some_iff.mp hu
  rcases Nat.lt_or_ge i u with h | h
  · rcases Nat.eq_or_lt_of_le (show i + 1 ≤ u by omega) with rfl | h'
    · omega
    · have := List.pairwise_iff_getElem.mp hs (i + 1) u b1 u1 h'; omega
  · rcases Nat.eq_or_lt_of_le h with rfl | h'
    · omega
    · have := List.pairwise_iff_getElem.mp hs u i u1 a1 h'; omega

theorem shifts_tail (t : Timetable) : t.shifts[2 * t.slots.length]? = some (slotStart t.slots t.slots.length) ∧
    t.shifts[2 * t.slots.length + 1]? = some (total (t.segs true)) := by
  constructor
  · cases hl : t.slots.length with
    | zero =>
      have : t.slots = [] := List.length_eq_zero_iff.mp hl
      simp [Timetable.shifts, slotStart, slotSegs, total]
    | succ n =>
      have hk : t.slots[n]? = some t.slots[n] := List.getElem?_eq_getElem (by omega)
      rw [slotStart_succ _ _ _ hk]
      exact (shifts_slot t n _ hk).2.2
  · have hsl : (t.segs true).length = 2 * t.slots.length + 1 := by simp [segs_eq, slotSegs_length true t.slots]
    unfold Timetable.shifts
    rw [List.getElem?_cons_succ, ends_getElem _ _ _ (by omega), ← hsl, List.take_length]; simp

/-- The phase that follows. -/
theorem phase_after (hs : SortedPtrs left right sorted) (h : timeline cfg left right initTime dT sorted = .ok (ordered, t))
    (hpos : t.shifts.Pairwise (· < ·)) (ha : Alternating left.steps right.steps) (f : Bool) (j : Nat) (p q : Phase)
    (hp : (if f then t.left else t.right)[j]? = some p) (hq : (if f then t.left else t.right)[j + 1]? = some q) :
    (q = p ∧ j + 1 ∉ t.shifts) ∨ (j + 1 ∈ t.shifts ∧ ((p = .switchIn ∧ q = .stance) ∨ (p = .stance ∧ q = .switchOut) ∨
      (p = .switchOut ∧ q = .swing) ∨ (p = .swing ∧ q = .switchIn))) := by
  obtain ⟨l, r, tt, hr⟩ := timeline_ok h
  have hp' : tt.Positive := positive_of_shifts (by rw [← hr.built.shifts]; exact hpos)
  have e : (if f then t.left else t.right) = tt.phases f := by
    cases f
    · exact hr.built.right
    · exact hr.built.left
  rw [e] at hp hq
  have hT := total_eq tt
  have hlen : (tt.phases f).length = total (tt.segs true) := by
    cases f
    · rw [← hr.built.right, ← (C34_partition h).1, hr.built.left, tt.length_phases]
    · rw [tt.length_phases]
  have hj := (List.getElem?_eq_some_iff.mp hq).1
  rw [hlen] at hj
  by_cases hc : j < slotStart tt.slots tt.slots.length
  · obtain ⟨k, s, h1, h2, h3, h4⟩ := Zmp.slot_find tt.slots j tt.slots.length (le_refl _) hc
    rw [slotStart_succ _ _ _ h1] at h3
    obtain ⟨a1, a2⟩ := phases_slot tt f k s h1
    obtain ⟨s1, s2, s3⟩ := shifts_slot tt k s h1
    have hsp := hp'.1 s (List.mem_of_getElem? h1)
    by_cases c1 : j < slotStart tt.slots k + s.ds
    · have x1 := a1 j h2 c1
      rw [hp] at x1; cases x1
      by_cases c2 : j + 1 < slotStart tt.slots k + s.ds
      · have x2 := a1 (j + 1) (by omega) c2
        rw [hq] at x2; cases x2
        exact Or.inl ⟨rfl, not_shift hpos (by rw [hr.built.shifts]; exact s1) (by rw [hr.built.shifts]; exact s2) (by omega) c2⟩
      · have x2 := a2 (j + 1) (by omega) (by omega)
        rw [hq] at x2; cases x2
        refine Or.inr ⟨List.mem_of_getElem? (by rw [hr.built.shifts, s2]; congr 1; omega), ?_⟩
        split_ifs <;> simp
    · have x1 := a2 j (by omega) h3
      rw [hp] at x1; cases x1
      by_cases c2 : j + 1 < slotStart tt.slots k + s.ds + s.ss
      · have x2 := a2 (j + 1) (by omega) c2
        rw [hq] at x2; cases x2
        exact Or.inl ⟨rfl, not_shift hpos (by rw [hr.built.shifts]; exact s2) (by rw [hr.built.shifts]; exact s3) (by omega) c2⟩
      · have hk : slotStart tt.slots (k + 1) = j + 1 := by rw [slotStart_succ _ _ _ h1]; omega
        refine Or.inr ⟨List.mem_of_getElem? (by rw [hr.built.shifts, s3]; congr 1; omega), ?_⟩
        by_cases hlast : k + 1 = tt.slots.length
        · have x2 := phases_rest tt f (j + 1) (by rw [← hlast]; omega) hj
          rw [hq] at x2; cases x2
          rw [hr.built.coherent s (by rw [List.getLast?_eq_getElem?, ← hlast]; exact h1)]
          split_ifs <;> simp
        · have hy : tt.slots[k + 1]? = some tt.slots[k + 1] := List.getElem?_eq_getElem (by omega)
          have hne := Zmp.slots_alternate hs h hr ha k s _ h1 hy
          have x2 := (phases_slot tt f (k + 1) _ hy).1 (j + 1) (by omega) (by
            have := (hp'.1 _ (List.mem_of_getElem? hy)).1; omega)
          rw [hq] at x2; cases x2
          cases f <;> cases hs1 : s.left <;> cases hs2 : tt.slots[k + 1].left <;> simp_all
  · have x1 := phases_rest tt f j (by omega) (by omega)
    have x2 := phases_rest tt f (j + 1) (by omega) hj
    rw [hp] at x1; rw [hq] at x2
    cases x1; cases x2
    obtain ⟨s1, s2⟩ := shifts_tail tt
    exact Or.inl ⟨rfl, not_shift hpos (by rw [hr.built.shifts]; exact s1) (by rw [hr.built.shifts]; exact s2) (by omega) hj⟩

end
end Gen
end Uni
