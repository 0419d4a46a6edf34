import Verif.Lemmas.Rounded
import Verif.Lemmas.Binary64

/-! # C92: the phases computed with rounded arithmetic

`Rounded.timeline fl` is `generateFromFootPrints` up to (excluding) the trajectory generators, every floating point operation being
rounded by `fl`.  `ToNearest fl` is the rounding of IEEE 754 doubles (no overflow), `Rounding fl` what the proofs need of it. -/

set_option autoImplicit false
set_option linter.unusedSectionVars false

namespace Uni.Rounded
open Uni Uni.Gen Spec
variable {K : Type} [Field K] [LinearOrder K] [IsStrictOrderedRing K] [FloorRing K]
variable {fl : K → K} {cfg : GenSettings K} {left right : FootPrint K} {initTime dT : K} {sorted ordered : List (Ptr K)} {t : Timing K}

/-- C92: without rounding, this is the function of C34-C39. -/
theorem C92_exact (cfg : GenSettings K) (left right : FootPrint K) (initTime dT : K) (sorted : List (Ptr K)) :
    timeline id cfg left right initTime dT sorted = Gen.timeline cfg left right initTime dT sorted :=
  timeline_id cfg left right initTime dT sorted

/-- C92: rounding doubles to nearest, with any rule for ties, satisfies the requirements; and it exists. -/
theorem C92_ieee [Archimedean K] : (∃ fl : K → K, ToNearest fl) ∧ ∀ fl : K → K, ToNearest fl → Rounding fl :=
  ⟨exists_toNearest, fun _ h => h.rounding⟩

/-- C92: any sequence of calls of the setters, with doubles as arguments, leaves settings fit for use. -/
theorem C92_settings (h : Rounding fl) (ops : List (GenSettings.Op K)) (ho : ∀ o ∈ ops, ArgsRounded fl o) :
    ValidRounded fl (runAll fl GenSettings.new ops) := runAll_valid h ops ho

/-- C92: the only undefined behaviours are those of C36, with the same causes: all the contacts are in the past, or the last
double support is shorter than half a sample. -/
theorem C92_only_two_ways (h : Rounding fl) (hv : ValidRounded fl cfg) (hs : SortedPtrs left right sorted) (w : UB)
    (ht : timeline fl cfg left right initTime dT sorted = .ub w) :
    (w = .negativeToUnsigned ∧ 2 < left.steps.length + right.steps.length ∧
      ∀ s ∈ left.steps ++ right.steps, s.impactTime < initTime) ∨
    (w = .unsignedWrap ∧ cfg.endSwitch < dT / 2 ∧ 2 < left.steps.length + right.steps.length) := timeline_ub h hv hs ht

/-- C92: no length wraps and nothing negative is converted, if some contact is not in the past and the last double support lasts half
a sample or more. -/
theorem C92_no_wrap (h : Rounding fl) (hv : ValidRounded fl cfg) (hs : SortedPtrs left right sorted) (hend : dT / 2 ≤ cfg.endSwitch)
    (hlate : ∃ s ∈ left.steps ++ right.steps, initTime ≤ s.impactTime) (w : UB) :
    timeline fl cfg left right initTime dT sorted ≠ .ub w := by
  intro ht
  rcases timeline_ub h hv hs ht with ⟨-, -, h⟩ | ⟨-, h, -⟩
  · obtain ⟨s, hs, hl⟩ := hlate
    exact absurd hl (not_le.mpr (h s hs))
  · exact absurd hend (not_le.mpr h)

/-- C92: the vectors of phases and the shifts fit together, whatever the rounding. -/
theorem C92_partition (h : timeline fl cfg left right initTime dT sorted = .ok (ordered, t)) :
    t.left.length = t.right.length ∧ t.shifts.getLast? = some t.left.length ∧ t.shifts.head? = some 0 ∧
    t.shifts.Pairwise (· ≤ ·) ∧
    ∀ i a b, t.shifts[i]? = some a → t.shifts[i + 1]? = some b →
      ∃ pl pr, ∀ j, a ≤ j → j < b → t.left[j]? = some pl ∧ t.right[j]? = some pr := by
  obtain ⟨l, r, tt, hr⟩ := timeline_ok h
  have e1 := hr.built.left
  have e2 := hr.built.right
  have e3 := hr.built.shifts
  have hne : tt.segs true ≠ [] := by simp [Timetable.segs]
  refine ⟨by rw [e1, e2, Timetable.length_phases, Timetable.length_phases], ?_, by rw [e3]; rfl, ?_, ?_⟩
  · rw [e3, e1, Timetable.length_phases, Timetable.shifts]
    have h1 := getLastD_ends 0 0 _ hne
    rw [List.getLast?_cons]
    rw [List.getLastD_eq_getLast?] at h1
    rw [h1, Nat.zero_add]
  · rw [e3, Timetable.shifts, List.pairwise_cons]
    exact ⟨fun _ _ => Nat.zero_le _, ends_pairwise _ _⟩
  · intro i a b ha hb
    rw [e3] at ha hb
    have key : ∀ f, ∃ p, ∀ j, a ≤ j → j < b → (tt.phases f)[j]? = some p := by
      intro f
      rw [Timetable.shifts_eq tt f] at ha hb
      rw [List.getElem?_cons_succ] at hb
      have hi : i < (tt.segs f).length := by
        rw [← length_ends 0]; exact (List.getElem?_eq_some_iff.mp hb).1
      rw [ends_getElem _ _ _ hi] at hb
      have ha' : a = total ((tt.segs f).take i) := by
        cases i with
        | zero => simp at ha; simp [← ha]
        | succ i =>
          rw [List.getElem?_cons_succ, ends_getElem _ _ _ (by omega)] at ha
          simpa using ha.symm
      refine ⟨(tt.segs f)[i].1, fun j h1 h2 => expand_getElem _ i _ (List.getElem?_eq_getElem hi) j (by omega) ?_⟩
      have : b = total ((tt.segs f).take (i + 1)) := by simpa using hb.symm
      omega
    obtain ⟨pl, hpl⟩ := key true
    obtain ⟨pr, hpr⟩ := key false
    exact ⟨pl, pr, fun j h1 h2 => by rw [e1, e2]; exact ⟨hpl j h1 h2, hpr j h1 h2⟩⟩

/-- C92: at every sample the feet are in complementary phases, whatever the rounding. -/
theorem C92_complementary (h : timeline fl cfg left right initTime dT sorted = .ok (ordered, t)) (j : Nat)
    (hj : j < t.left.length) : ∃ a b, t.left[j]? = some a ∧ t.right[j]? = some b ∧ Complementary a b := by
  obtain ⟨l, r, tt, hr⟩ := timeline_ok h
  rw [hr.built.left] at hj ⊢
  rw [hr.built.right]
  rw [Timetable.length_phases] at hj
  exact complementary_runs tt j hj

/-- C92: every step of the footprints but the first of each foot has its double support and its swing, in the order of landing, and
the steps of each foot in their order, whatever the rounding. -/
theorem C92_all_steps (hs : SortedPtrs left right sorted) (h : timeline fl cfg left right initTime dT sorted = .ok (ordered, t)) :
    ordered.Perm (Ptr.ofFeet left right) ∧ t.shifts.length = 2 * (ordered.drop 2).length + 2 ∧
    ∀ k q, ordered[k + 2]? = some q →
      q.index = 1 + ((ordered.drop 2).take k).countP (fun p => p.left == q.left) ∧
      (if q.left then left.steps else right.steps)[q.index]? = some q.step ∧
      ∃ a b c, t.shifts[2 * k]? = some a ∧ t.shifts[2 * k + 1]? = some b ∧ t.shifts[2 * k + 2]? = some c ∧ a ≤ b ∧ b ≤ c ∧
        (∀ j, a ≤ j → j < b → (if q.left then t.left else t.right)[j]? = some .switchOut ∧
          (if q.left then t.right else t.left)[j]? = some .switchIn) ∧
        (∀ j, b ≤ j → j < c → (if q.left then t.left else t.right)[j]? = some .swing ∧
          (if q.left then t.right else t.left)[j]? = some .stance) := by
  obtain ⟨l, r, tt, hr⟩ := timeline_ok h
  obtain ⟨hperm, -, -⟩ := orderSteps_ok hr.order hs.2
  refine ⟨hperm.trans hs.1, ?_, fun k q hq => ?_⟩
  · rw [hr.built.shifts, Timetable.shifts]
    have : tt.slots.length = (ordered.drop 2).length := by
      rcases hr.built.cases with ⟨h2, h3, -⟩ | ⟨-, ms, hsl, -⟩
      · rw [List.drop_of_length_le (by omega), h3]; rfl
      · exact hsl.get.1
    simp only [List.length_cons, length_ends, segs_eq, List.length_append, slotSegs_length, List.length_nil]
    omega
  · have hq' : (ordered.drop 2)[k]? = some q := by rw [List.getElem?_drop, Nat.add_comm]; exact hq
    refine ⟨?_, mem_ofFeet.mp ((hperm.trans hs.1).mem_iff.mp (List.mem_of_getElem? hq)), ?_⟩
    · rcases hr.built.cases with ⟨h2, -⟩ | ⟨-, ms, -, -, -, hc, -⟩
      · rw [List.drop_of_length_le (by omega)] at hq'; simp at hq'
      · have := hc.get k q hq'
        simpa using this
    · rcases hr.built.cases with ⟨h2, -⟩ | ⟨-, ms, hsl, -⟩
      · rw [List.drop_of_length_le (by omega)] at hq'; simp at hq'
      · obtain ⟨s, p, m, h1, -, h2, -⟩ := hsl.get.2.2 k q hq'
        obtain ⟨a1, a2, a3⟩ := shifts_slot tt k s h1
        have hl := h2.left
        refine ⟨_, _, _, by rw [hr.built.shifts]; exact a1, by rw [hr.built.shifts]; exact a2,
          by rw [hr.built.shifts]; exact a3, by omega, by omega, ?_, ?_⟩
        · intro j b1 b2
          have p1 := (phases_slot tt true k s h1).1 j b1 b2
          have p2 := (phases_slot tt false k s h1).1 j b1 b2
          rw [hl] at p1 p2
          rw [hr.built.left, hr.built.right]
          cases hb : q.left <;> rw [hb] at p1 p2 <;> simp at p1 p2 ⊢ <;> exact ⟨by assumption, by assumption⟩
        · intro j b1 b2
          have p1 := (phases_slot tt true k s h1).2 j b1 b2
          have p2 := (phases_slot tt false k s h1).2 j b1 b2
          rw [hl] at p1 p2
          rw [hr.built.left, hr.built.right]
          cases hb : q.left <;> rw [hb] at p1 p2 <;> simp at p1 p2 ⊢ <;> exact ⟨by assumption, by assumption⟩

/-- C92: the end of the `k`-th swing, converted to time without error, is within half a sample of the planned landing but for two
rounding errors per step. -/
theorem C92_drift {R ε : K} (ha : Accurate fl R dT ε) (hR : dT ≤ R) (hε : 8 * ε ≤ R) (hs : SortedPtrs left right sorted)
    (hi : |initTime| ≤ R) (hq : ∀ s ∈ left.steps ++ right.steps, |s.impactTime| ≤ R)
    (h : timeline fl cfg left right initTime dT sorted = .ok (ordered, t)) (k : Nat) (q : Ptr K)
    (hk : ordered[k + 2]? = some q) :
    ∃ c, t.shifts[2 * k + 2]? = some c ∧ |initTime + (c : K) * dT - q.step.impactTime| ≤ dT / 2 + 2 * (k + 1) * ε := by
  obtain ⟨l, r, tt, hr⟩ := timeline_ok h
  obtain ⟨hperm, -, -⟩ := orderSteps_ok hr.order hs.2
  have hq' : (ordered.drop 2)[k]? = some q := by rw [List.getElem?_drop, Nat.add_comm]; exact hk
  have hall : ∀ q ∈ ordered, |q.step.impactTime| ≤ R := by
    intro q hm
    have := mem_ofFeet.mp ((hperm.trans hs.1).mem_iff.mp hm)
    refine hq _ (List.mem_append.mpr ?_)
    cases hb : q.left <;> rw [hb] at this
    · exact .inr (List.mem_of_getElem? (by simpa using this))
    · exact .inl (List.mem_of_getElem? (by simpa using this))
  rcases hr.built.cases with ⟨h2, -⟩ | ⟨-, ms, hsl, -⟩
  · rw [List.drop_of_length_le (by omega)] at hq'; simp at hq'
  · obtain ⟨s, p, m, h1, -, -, -⟩ := hsl.get.2.2 k q hq'
    obtain ⟨-, -, a3⟩ := shifts_slot tt k s h1
    have hd := hr.dT_pos
    have hR0 : 0 ≤ R := hd.le.trans hR
    have := hsl.drift ha hd hR hε (hi.trans (by linarith)) (fun q hm => hall q (List.mem_of_mem_drop hm)) (t0 := initTime) (E := 0)
      (by simp) k q s hq' h1
    refine ⟨_, by rw [hr.built.shifts]; exact a3, ?_⟩
    rw [Nat.zero_add, add_zero] at this
    exact this

/-- C92: with doubles, times up to `2 ^ r` seconds and a period between `2 ^ d` and `2 ^ (d + 1)`, the `k`-th landing is missed by
at most half a sample and `k + 1` times `2 ^ (r - 50)`: for a thousand steps within 1024 seconds, less than a nanosecond. -/
theorem C92_ieee_drift (hfl : ToNearest fl) {r d : ℤ} (hr : -1000 ≤ r) (h1 : d < r) (h2 : r ≤ d + 51) (hd1 : 2 ^ d ≤ dT)
    (hd2 : dT ≤ 2 ^ (d + 1)) (hs : SortedPtrs left right sorted) (hi : |initTime| ≤ 2 ^ r)
    (hq : ∀ s ∈ left.steps ++ right.steps, |s.impactTime| ≤ 2 ^ r)
    (h : timeline fl cfg left right initTime dT sorted = .ok (ordered, t)) (k : Nat) (q : Ptr K)
    (hk : ordered[k + 2]? = some q) :
    ∃ c, t.shifts[2 * k + 2]? = some c ∧
      |initTime + (c : K) * dT - q.step.impactTime| ≤ dT / 2 + (k + 1) * 2 ^ (r - 50) := by
  have hd0 := zpow_pos2 (K := K) d
  have hr0 := zpow_pos2 (K := K) r
  have e4 : (4 : K) * 2 ^ r = 2 ^ (r + 2) := by rw [zpow_add₀ (by norm_num)]; norm_num; ring
  have ediv : ∀ x : K, |x * dT| ≤ 4 * 2 ^ r → |x| ≤ 2 ^ (r + 2 - d) := by
    intro x hx
    rw [zpow_sub₀ (by norm_num), le_div_iff₀ hd0, ← e4]
    rw [abs_mul, abs_of_pos (hd0.trans_le hd1)] at hx
    exact (mul_le_mul_of_nonneg_left hd1 (abs_nonneg x)).trans hx
  have e1 : (2 : K) ^ (r - 50) = 2 * 2 ^ (r - 51) := by
    rw [show r - 50 = r - 51 + 1 by ring, zpow_add_one₀ (by norm_num)]; ring
  have ha : Accurate fl (2 ^ r) dT (2 ^ (r - 51)) := by
    refine ⟨fun x hx => ?_, fun x hx => ?_, fun n hn => ?_⟩
    · rw [e4] at hx
      refine (hfl.error (by omega) hx).trans (zpow_le_zpow_right₀ (by norm_num) (by omega))
    · have h3 := hfl.error (by omega) (ediv x hx)
      calc |fl x - x| * dT ≤ 2 ^ (r + 2 - d - 54) * 2 ^ (d + 1) :=
            mul_le_mul h3 hd2 (hd0.le.trans hd1) (zpow_pos2 _).le
        _ = 2 ^ (r - 51) := by rw [← zpow_add₀ (by norm_num)]; congr 1; ring
    · have h3 := ediv n (by rw [abs_of_nonneg (by have := hd0.trans_le hd1; positivity)]; exact hn)
      have h4 : (2 : K) ^ (r + 2 - d) ≤ 2 ^ (53 : ℤ) := zpow_le_zpow_right₀ (by norm_num) (by omega)
      have h5 : ((n : ℤ) : K) ≤ ((2 ^ 53 : ℤ) : K) := by
        have h3 := (le_abs_self _).trans (h3.trans h4)
        push_cast
        have e : (2 : K) ^ (53 : ℤ) = 2 ^ 53 := by norm_num
        rw [e] at h3
        norm_num at h3 ⊢
        exact h3
      have h6 : (n : ℤ) ≤ 2 ^ 53 := by exact_mod_cast h5
      have := hfl.fixed (binary64_int (K := K) (m := n) (by rw [abs_of_nonneg (by positivity)]; exact h6))
      simpa using this
  have hR : dT ≤ 2 ^ r := hd2.trans (zpow_le_zpow_right₀ (by norm_num) (by omega))
  have hε : (8 : K) * 2 ^ (r - 51) ≤ 2 ^ r := by
    have : (8 : K) * 2 ^ (r - 51) = 2 ^ (r - 48) := by
      rw [show r - 48 = 3 + (r - 51) by ring, zpow_add₀ (by norm_num)]; norm_num
    rw [this]
    exact zpow_le_zpow_right₀ (by norm_num) (by omega)
  obtain ⟨c, h3, h4⟩ := C92_drift ha hR hε hs hi hq h k q hk
  refine ⟨c, h3, h4.trans (le_of_eq ?_)⟩
  rw [e1]; ring

/-- C92: the merge points of a step lie in the double support that precedes its swing, there is one for every step but the first one,
they never decrease and are indices of samples. -/
theorem C92_merges (hfl : Rounding fl) (hv : ValidRounded fl cfg) (hend : dT / 2 ≤ cfg.endSwitch)
    (h : timeline fl cfg left right initTime dT sorted = .ok (ordered, t)) :
    t.merges.Pairwise (· ≤ ·) ∧ (∀ m ∈ t.merges, m < t.left.length) ∧
    (ordered.length ≠ 2 → ∃ groups : List (List Nat), t.merges = 0 :: groups.flatten ++ [t.left.length - 1] ∧
      groups.length = ordered.length - 2 ∧
      ∀ k g, groups[k]? = some g → (g = [] ↔ k = 0) ∧ ∃ a b, t.shifts[2 * k]? = some a ∧ t.shifts[2 * k + 1]? = some b ∧
        ∀ m ∈ g, a ≤ m ∧ m ≤ b) := by
  obtain ⟨l, r, tt, hr⟩ := timeline_ok h
  have hrest : 0 < tt.rest := by
    have h1 := hr.built.rest
    have h2 : 1 / 2 ≤ fl ((effective fl cfg).endSwitch / dT) := le_fl hfl hfl.half (by
      rw [le_div_iff₀ hr.dT_pos]
      show 1 / 2 * dT ≤ cfg.endSwitch
      linarith)
    have := stdRound_pos h2
    omega
  have hT := total_eq tt
  rw [hr.built.left, Timetable.length_phases]
  rcases hr.built.cases with ⟨h2, h3, -, hm, -⟩ | ⟨-, ms, hsl, h0, hm, -⟩
  · refine ⟨?_, ?_, fun hc => absurd h2 hc⟩
    · rw [hm, List.pairwise_cons]
      exact ⟨fun _ _ => Nat.zero_le _, List.Pairwise.imp (fun h => Nat.le_of_lt h) List.pairwise_lt_range'⟩
    · intro m hm'
      rw [hm, List.mem_cons, List.mem_range'_1] at hm'
      omega
  · obtain ⟨g1, g2⟩ := hsl.merges_sorted hfl hv hr.dT_pos
    have e : slotStart tt.slots tt.slots.length = total (slotSegs true tt.slots) := by unfold slotStart; rw [List.take_length]
    refine ⟨?_, ?_, fun _ => ?_⟩
    · rw [hm, List.cons_append, List.pairwise_cons]
      refine ⟨fun _ _ => Nat.zero_le _, ?_⟩
      rw [List.pairwise_append]
      refine ⟨g1, by simp, fun a ha b hb => ?_⟩
      simp only [List.mem_singleton] at hb
      have := g2 a ha; omega
    · intro m hm'
      rw [hm] at hm'
      simp only [List.cons_append, List.mem_cons, List.mem_append, List.not_mem_nil, or_false] at hm'
      rcases hm' with rfl | hm' | rfl
      · omega
      · have := g2 m hm'; omega
      · omega
    · obtain ⟨e1, e3⟩ := hsl.groups hfl hv hr.dT_pos
      refine ⟨ms, hm, by rw [hsl.get.2.1]; simp, fun k g hg => ?_⟩
      have hk : k < tt.slots.length := by rw [← e1]; exact (List.getElem?_eq_some_iff.mp hg).1
      have hk' : tt.slots[k]? = some tt.slots[k] := List.getElem?_eq_getElem hk
      obtain ⟨a, b, c⟩ := e3 k _ g hk' hg
      obtain ⟨s1, s2, -⟩ := shifts_slot tt k _ hk'
      refine ⟨by simpa using a, _, _, by rw [hr.built.shifts]; exact s1, by rw [hr.built.shifts]; exact s2, ?_⟩
      intro m hm; simpa using c m hm

/-! ## Non-vacuity -/

/-- A coarse rounding: to the nearest multiple of 1/8. -/
private def coarse (x : ℚ) : ℚ := ⌊8 * x + 1 / 2⌋ / 8

private theorem coarse_rounding : Rounding coarse := by
  have hfix : ∀ n : ℤ, coarse (n / 8) = n / 8 := by
    intro n
    unfold coarse
    have : ⌊8 * ((n : ℚ) / 8) + 1 / 2⌋ = n := by
      rw [Int.floor_eq_iff]; constructor <;> ring_nf <;> norm_num
    rw [this]
  have hval : ∀ x, ∃ n : ℤ, coarse x = n / 8 := fun x => ⟨_, rfl⟩
  refine ⟨fun x y h => ?_, fun x => ?_, ?_, ?_, ?_, ?_, fun x hx => ?_⟩
  · unfold coarse
    have : ⌊8 * x + 1 / 2⌋ ≤ ⌊8 * y + 1 / 2⌋ := Int.floor_le_floor (by linarith)
    have : ((⌊8 * x + 1 / 2⌋ : ℤ) : ℚ) ≤ ⌊8 * y + 1 / 2⌋ := by exact_mod_cast this
    linarith
  · obtain ⟨n, hn⟩ := hval x
    rw [hn, hfix]
  · decide +kernel
  · decide +kernel
  · decide +kernel
  · decide +kernel
  · obtain ⟨n, hn⟩ := hval x
    rw [hx] at hn
    have : 2 * x = ((2 * n : ℤ) : ℚ) / 8 := by rw [hn]; push_cast; ring
    rw [this, hfix]

private def st (t : ℚ) (n : String) : Step ℚ := ⟨⟨0, 0⟩, 0, t, n⟩
private def lf (ts : List ℚ) : FootPrint ℚ := ⟨ts.map (st · "left"), "left"⟩
private def rf (ts : List ℚ) : FootPrint ℚ := ⟨ts.map (st · "right"), "right"⟩
private def pl (i : Nat) (t : ℚ) : Ptr ℚ := ⟨true, i, st t "left"⟩
private def pr (i : Nat) (t : ℚ) : Ptr ℚ := ⟨false, i, st t "right"⟩

private theorem coarse_accurate : Accurate coarse 3 (2 / 5) (1 / 16) := by
  have h : ∀ x, |coarse x - x| ≤ 1 / 16 := by
    intro x
    unfold coarse
    have h1 := Int.floor_le (8 * x + 1 / 2)
    have h2 := Int.lt_floor_add_one (8 * x + 1 / 2)
    exact abs_le.mpr ⟨by linarith, by linarith⟩
  refine ⟨fun x _ => h x, fun x _ => by linarith [h x], fun n _ => ?_⟩
  unfold coarse
  have : ⌊8 * (n : ℚ) + 1 / 2⌋ = 8 * n := by
    rw [Int.floor_eq_iff]; push_cast; constructor <;> linarith
  rw [this]; push_cast; ring

/-- A walk of three steps computed with the coarse rounding: the instant computed for the end of the last swing is not the one
computed without rounding. -/
example : Rounding coarse ∧ ValidRounded coarse GenSettings.new ∧ Accurate coarse 3 (2 / 5) (1 / 16) ∧
    SortedPtrs (lf [0, 1, 3]) (rf [0, 2]) [pl 0 0, pr 0 0, pl 1 1, pr 1 2, pl 2 3] ∧
    timeline coarse GenSettings.new (lf [0, 1, 3]) (rf [0, 2]) 0 (2 / 5) [pl 0 0, pr 0 0, pl 1 1, pr 1 2, pl 2 3] =
      .ok ([pl 0 0, pr 0 0, pl 1 1, pr 1 2, pl 2 3],
        ⟨[.switchOut, .swing, .swing, .switchIn, .stance, .switchOut, .swing, .swing, .switchIn, .switchIn, .switchIn],
          [.switchIn, .stance, .stance, .switchOut, .swing, .switchIn, .stance, .stance, .switchOut, .switchOut, .switchOut],
          [0, 1, 3, 4, 5, 6, 8, 11], [0, 3, 5, 10], 3, 2, 13 / 4, true, false⟩) ∧
    timeline id GenSettings.new (lf [0, 1, 3]) (rf [0, 2]) 0 (2 / 5) [pl 0 0, pr 0 0, pl 1 1, pr 1 2, pl 2 3] =
      .ok ([pl 0 0, pr 0 0, pl 1 1, pr 1 2, pl 2 3],
        ⟨[.switchOut, .swing, .swing, .switchIn, .stance, .switchOut, .swing, .swing, .switchIn, .switchIn, .switchIn],
          [.switchIn, .stance, .stance, .switchOut, .swing, .switchIn, .stance, .stance, .switchOut, .switchOut, .switchOut],
          [0, 1, 3, 4, 5, 6, 8, 11], [0, 3, 5, 10], 3, 2, 16 / 5, true, false⟩) :=
  ⟨coarse_rounding, C92_settings coarse_rounding [] (by simp), coarse_accurate, by unfold SortedPtrs; decide +kernel,
    by decide +kernel, by decide +kernel⟩

/-- Standing, with doubles rounded to nearest. -/
example : ∃ fl : ℚ → ℚ, ToNearest fl ∧
    timeline fl GenSettings.new (lf [0]) (rf [0]) 0 (1 / 2) [pl 0 0, pr 0 0] =
      .ok ([pl 0 0, pr 0 0], ⟨[.switchOut, .switchOut], [.switchIn, .switchIn], [0, 2], [0, 1], 1, 1, 0, false, false⟩) := by
  obtain ⟨fl, h⟩ := exists_toNearest (K := ℚ)
  refine ⟨fl, h, ?_⟩
  have e1 : roundSize (fl 2) = .ok 2 := by rw [h.rounding.two]; decide +kernel
  have e2 : orderSteps [pl 0 0, pr 0 0] = .ok [pl 0 0, pr 0 0] := by decide +kernel
  simp [timeline, lf, rf, st, e2, createPhasesTimings, GenSettings.new, e1]

end Uni.Rounded
