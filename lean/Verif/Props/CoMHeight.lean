import Verif.Lemmas.CoMHeight
import Verif.Props.Generator

/-! # C51: the height of the centre of mass -/

set_option autoImplicit false
set_option linter.unusedSectionVars false

namespace Uni
open Spec Gen
namespace CoMHeight

section
variable {K : Type} [Field K] [LinearOrder K] [IsStrictOrderedRing K] [FloorRing K]
variable {cfg : GenSettings K} {left right : FootPrint K} {initTime dT : K} {sorted ordered : List (Ptr K)} {t : Timing K}
variable {c : HeightSettings K} {out : List (Motion K)}

/-- C51: whatever calls are made, either no settings were ever accepted (and nothing is generated), or the two heights
between which the centre of mass moves are not negative. -/
theorem C51_settings (l : List (K × K)) :
    (((HeightSettings.new : HeightSettings K).runAll l).height < 0 ∧ ∀ (dT : K) ph sh,
      computeNewTrajectories ((HeightSettings.new : HeightSettings K).runAll l) dT ph sh = .fail) ∨
    (0 ≤ ((HeightSettings.new : HeightSettings K).runAll l).height ∧
      0 ≤ ((HeightSettings.new : HeightSettings K).runAll l).height + ((HeightSettings.new : HeightSettings K).runAll l).delta) := by
  have key : ∀ (l : List (K × K)) (c : HeightSettings K), c.height < 0 ∨ (0 ≤ c.height ∧ 0 ≤ c.height + c.delta) →
      (c.runAll l).height < 0 ∨ (0 ≤ (c.runAll l).height ∧ 0 ≤ (c.runAll l).height + (c.runAll l).delta) := by
    intro l
    induction l with
    | nil => exact fun c h => h
    | cons a l ih =>
      intro c h
      refine ih _ ?_
      simp only [HeightSettings.set]
      split_ifs with h1 h2
      · exact h
      · exact h
      · exact Or.inr ⟨not_lt.mp h1, not_lt.mp h2⟩
  rcases key l HeightSettings.new (Or.inl (by simp [HeightSettings.new])) with h | h
  · refine Or.inl ⟨h, fun dT ph sh => ?_⟩
    unfold computeNewTrajectories
    rw [if_pos h]
  · exact Or.inr h

/-- C51: a setting is accepted exactly if both heights are not negative; a refused one changes nothing. -/
theorem C51_accepts (c : HeightSettings K) (h d : K) :
    ((c.set h d).1 = true ↔ 0 ≤ h ∧ 0 ≤ h + d) ∧ ((c.set h d).1 = true → (c.set h d).2 = ⟨h, d⟩) ∧
    ((c.set h d).1 = false → (c.set h d).2 = c) := by
  unfold HeightSettings.set
  split_ifs with h1 h2
  · simp; intro h0; exact absurd h1 (not_lt.mpr h0)
  · simp; intro h0; exact h2
  · simp; exact ⟨not_lt.mp h1, not_lt.mp h2⟩

/-- C51: over a timeline without empty phases the generation succeeds. -/
theorem C51_succeeds (hc : 0 ≤ c.height) (h : timeline cfg left right initTime dT sorted = .ok (ordered, t))
    (hpos : t.shifts.Pairwise (· < ·)) : ∃ out, computeNewTrajectories c dT t.left t.shifts = .ok out := by
  obtain ⟨l, r, tt, hr⟩ := timeline_ok h
  have hp : tt.Positive := positive_of_shifts (by rw [← hr.built.shifts]; exact hpos)
  unfold computeNewTrajectories
  rw [if_neg (not_lt.mpr hc), hr.built.left, hr.built.shifts, overPhases_timetable _ tt true hp]
  have hseg : ∀ g ∈ tt.segs true, 0 < g.2 := by
    intro g hg
    unfold Timetable.segs at hg
    rw [List.mem_append, List.mem_flatMap, List.mem_singleton] at hg
    rcases hg with ⟨s, hs, hg⟩ | rfl
    · have := hp.1 s hs
      unfold Slot.segs at hg
      split_ifs at hg <;> simp at hg <;> rcases hg with rfl | rfl <;> simp [this]
    · exact hp.2
  obtain ⟨out, ho, -⟩ := runSegs_ok c hr.dT_pos _ hseg 1 0
  exact ⟨out, by rw [ho]; rfl⟩

theorem samples (h : timeline cfg left right initTime dT sorted = .ok (ordered, t))
    (ho : computeNewTrajectories c dT t.left t.shifts = .ok out) :
    out.length = t.left.length ∧ ∀ j, j < out.length → ∃ i a b p k e l, t.shifts[i]? = some a ∧ t.shifts[i + 1]? = some b ∧
      a ≤ j ∧ j < b ∧ (∀ m, a ≤ m → m < b → t.left[m]? = some p) ∧ body c dT k e p a b () = .ok ((), l) ∧ out[j]? = l[j - a]? := by
  obtain ⟨-, p2, p3, -, p5⟩ := C34_partition h
  unfold computeNewTrajectories at ho
  split_ifs at ho with hc
  rw [Out.bind_eq_ok] at ho
  obtain ⟨r, hr, ho⟩ := ho
  cases ho
  unfold overPhases at hr
  obtain ⟨q1, q2⟩ := phaseLoop_at (s' := r.1) (out := r.2) (body_length c dT) hr
  have e : (0 :: t.shifts.tail) = t.shifts := by
    cases hsh : t.shifts with
    | nil => rw [hsh] at p3; simp at p3
    | cons a l => rw [hsh] at p3; simp at p3; simp [p3]
  rw [e] at q1 q2
  refine ⟨?_, ?_⟩
  · rw [List.getLastD_eq_getLast?, p2] at q1
    simpa using q1
  · intro j hj
    obtain ⟨i, a, b, p, s1, s2, l, h1, h2, h3, h4, h5, h6, h7⟩ := q2 j hj
    simp only [Nat.zero_add] at h3 h4 h7
    obtain ⟨pl, pr, hpp⟩ := p5 i a b h1 h2
    have := (hpp a (le_refl _) (by omega)).1
    rw [h5] at this
    cases this
    exact ⟨i, a, b, p, _, _, l, h1, h2, h3, h4, fun m h1 h2 => (hpp m h1 h2).1, h6, h7⟩

/-- C51: one sample per phase sample; in double support the height is the nominal one, at rest. -/
theorem C51_double (h : timeline cfg left right initTime dT sorted = .ok (ordered, t))
    (ho : computeNewTrajectories c dT t.left t.shifts = .ok out) :
    out.length = t.left.length ∧ ∀ (j : Nat) (p : Phase), t.left[j]? = some p → (p = .switchIn ∨ p = .switchOut) →
      out[j]? = some ⟨c.height, 0, 0⟩ := by
  obtain ⟨h1, h2⟩ := samples h ho
  refine ⟨h1, fun j p hj hp => ?_⟩
  obtain ⟨i, a, b, p', k, e, l, -, -, h5, h6, h7, h8, h9⟩ := h2 j (by rw [h1]; exact (List.getElem?_eq_some_iff.mp hj).1)
  have := h7 j h5 h6
  rw [hj] at this
  cases this
  have hl : body c dT k e p a b () = .ok ((), List.replicate (b - a) ⟨c.height, 0, 0⟩) := by rcases hp with rfl | rfl <;> rfl
  rw [hl] at h8
  cases h8
  rw [h9, List.getElem?_replicate, if_pos (by omega)]

/-- C51: the height of every sample is between the nominal height and the nominal height plus the delta. -/
theorem C51_between (h : timeline cfg left right initTime dT sorted = .ok (ordered, t))
    (ho : computeNewTrajectories c dT t.left t.shifts = .ok out) :
    ∀ o ∈ out, min c.height (c.height + c.delta) ≤ o.pos ∧ o.pos ≤ max c.height (c.height + c.delta) := by
  obtain ⟨l, r, tt, hr⟩ := timeline_ok h
  have hd := hr.dT_pos
  intro o hmem
  obtain ⟨j, hj, rfl⟩ := List.getElem_of_mem hmem
  obtain ⟨h1, h2⟩ := samples h ho
  obtain ⟨i, a, b, p, k, e, l, -, -, h5, h6, h7, h8, h9⟩ := h2 j hj
  rw [List.getElem?_eq_getElem hj] at h9
  by_cases hp : p = .stance ∨ p = .swing
  · obtain ⟨hL, rfl⟩ := body_single h8 hp
    rw [List.getElem?_map, List.getElem?_range (by omega)] at h9
    simp only [Option.map_some, Option.some.injEq] at h9
    rw [h9, bump _ _ hL]
    have hm : ((j - a : Nat) : K) ≤ ((b - a : Nat) : K) := by exact_mod_cast (by omega : j - a ≤ b - a)
    obtain ⟨b0, b1⟩ := bump_range hL (mul_nonneg (Nat.cast_nonneg (j - a)) hd.le) (mul_le_mul_of_nonneg_right hm hd.le)
    rcases le_total 0 c.delta with hdl | hdl
    · rw [min_eq_left (by linarith), max_eq_right (by linarith)]
      constructor <;> nlinarith
    · rw [min_eq_right (by linarith), max_eq_left (by linarith)]
      constructor <;> nlinarith
  · have hp' : p = .switchIn ∨ p = .switchOut := by cases p <;> simp_all
    have := (C51_double h ho).2 j p (h7 j h5 h6) hp'
    rw [List.getElem?_eq_getElem hj] at this
    simp only [Option.some.injEq] at this
    rw [this]
    exact ⟨min_le_left _ _, le_max_left _ _⟩

end

/-- C51: in each single support the samples are taken from a twice differentiable curve that leaves the nominal height at
rest, passes through the nominal height plus the delta at half time, and comes back to the nominal height at rest; the
reported velocities and accelerations are its derivatives. -/
theorem C51_single {cfg : GenSettings ℝ} {left right : FootPrint ℝ} {initTime dT : ℝ} {sorted ordered : List (Ptr ℝ)}
    {t : Timing ℝ} {c : HeightSettings ℝ} {out : List (Motion ℝ)}
    (h : timeline cfg left right initTime dT sorted = .ok (ordered, t))
    (ho : computeNewTrajectories c dT t.left t.shifts = .ok out) (j : Nat) (p : Phase) (hj : t.left[j]? = some p)
    (hp : p = .stance ∨ p = .swing) :
    ∃ i a b, t.shifts[i]? = some a ∧ t.shifts[i + 1]? = some b ∧ a ≤ j ∧ j < b ∧
    ∃ f v w : ℝ → ℝ, (∀ x, HasDerivAt f (v x) x) ∧ (∀ x, HasDerivAt v (w x) x) ∧
      f 0 = c.height ∧ v 0 = 0 ∧ f (((b - a : Nat) : ℝ) * dT / 2) = c.height + c.delta ∧
      f (((b - a : Nat) : ℝ) * dT) = c.height ∧ v (((b - a : Nat) : ℝ) * dT) = 0 ∧
      ∃ o, out[j]? = some o ∧ o.pos = f (((j - a : Nat) : ℝ) * dT) ∧ o.vel = v (((j - a : Nat) : ℝ) * dT) ∧
        o.acc = w (((j - a : Nat) : ℝ) * dT) := by
  obtain ⟨h1, h2⟩ := samples h ho
  obtain ⟨i, a, b, p', k, e, l, h3, h4, h5, h6, h7, h8, h9⟩ := h2 j (by rw [h1]; exact (List.getElem?_eq_some_iff.mp hj).1)
  have := h7 j h5 h6
  rw [hj] at this
  cases this
  obtain ⟨hL, rfl⟩ := body_single h8 hp
  rw [List.getElem?_map, List.getElem?_range (by omega)] at h9
  refine ⟨i, a, b, h3, h4, h5, h6, _, _, _, fun x => (spline3_smooth _ _ _ _ _ (by linarith) (by linarith) x).pos,
    fun x => (spline3_smooth _ _ _ _ _ (by linarith) (by linarith) x).vel, ?_, ?_, ?_, ?_, ?_, _, h9, rfl, rfl, rfl⟩
  · rw [bump _ _ hL, if_pos (by linarith), zero_div, ease_zero]; ring
  · simp only [spline3At]
    rw [if_pos (by linarith)]
    exact (hermite_zero _ _ _ _ _).2
  · rw [bump _ _ hL, if_pos (le_refl _), div_self (by linarith), ease_one]; ring
  · rw [bump _ _ hL, if_neg (by linarith), show ((b - a : Nat) : ℝ) * dT - ((b - a : Nat) : ℝ) * dT / 2 =
      ((b - a : Nat) : ℝ) * dT / 2 by ring, div_self (by linarith), ease_one]; ring
  · simp only [spline3At]
    rw [if_neg (by linarith)]
    exact (hermite_end _ _ _ _ (by linarith)).2

private def st (t : ℚ) (n : String) : Step ℚ := ⟨⟨0, 0⟩, 0, t, n⟩
private def lf (ts : List ℚ) : FootPrint ℚ := ⟨ts.map (st · "left"), "left"⟩
private def rf (ts : List ℚ) : FootPrint ℚ := ⟨ts.map (st · "right"), "right"⟩
private def pl (i : Nat) (t : ℚ) : Ptr ℚ := ⟨true, i, st t "left"⟩
private def pr (i : Nat) (t : ℚ) : Ptr ℚ := ⟨false, i, st t "right"⟩

/-- The heights after a generation. -/
private def run (cfg : GenSettings ℚ) (c : HeightSettings ℚ) (l r : FootPrint ℚ) (s : List (Ptr ℚ)) : Out (List ℚ) := do
  let t ← timeline cfg l r 0 1 s
  let o ← computeNewTrajectories c 1 t.2.left t.2.shifts
  .ok (o.map (·.pos))

/-- Non-vacuity of C51. -/
example : run GenSettings.new ⟨1, 1 / 10⟩ (lf [0, 8]) (rf [0]) [pl 0 0, pr 0 0, pl 1 8] =
    .ok [1, 1, 1, 1, 1, 21 / 20, 11 / 10, 21 / 20, 1] := by decide +kernel

/-- C51: the peak is not necessarily sampled, and a double support without samples makes the generation fail. -/
theorem C51_empty_switch_witness :
    timeline { (GenSettings.new : GenSettings ℚ) with switchPercentage := 1 / 10 } (lf [0, 4]) (rf [0]) 0 1
      [pl 0 0, pr 0 0, pl 1 4] ≠ .fail ∧
    run { (GenSettings.new : GenSettings ℚ) with switchPercentage := 1 / 10 } ⟨1, 1 / 10⟩ (lf [0, 4]) (rf [0])
      [pl 0 0, pr 0 0, pl 1 4] = .fail := ⟨by decide +kernel, by decide +kernel⟩

end CoMHeight
end Uni
