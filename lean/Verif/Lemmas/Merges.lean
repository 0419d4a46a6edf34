import Verif.Lemmas.TimingSafe

/-! # Merge points -/

set_option autoImplicit false
set_option linter.unusedSectionVars false

namespace Uni.Gen
open Spec
variable {K : Type} [Field K] [LinearOrder K] [IsStrictOrderedRing K] [FloorRing K]

/-- The merge points of a step lie in its double support and there is at least one. -/
theorem MergesOf.bounds {cfg : GenSettings K} (hv : ValidTimings cfg) {dT sw : K} (hd : 0 < dT) (hsw : 0 ≤ sw) {n ds : Nat}
    {ms : List Nat} (hds : (ds : ℤ) = stdRound (sw / dT)) (h : MergesOf (effective cfg) dT sw n ds ms) :
    ms ≠ [] ∧ ms.Pairwise (· < ·) ∧ ∀ m ∈ ms, n ≤ m ∧ m ≤ n + ds := by
  obtain ⟨i, f, hi, hf, rfl⟩ := h
  have hi : (i : ℤ) = n + ds - stdRound (sw * (1 - cfg.mergeBegin) / dT) := hi
  have hf : (f : ℤ) = n + ds - stdRound (sw * (1 - cfg.mergeEnd) / dT) := hf
  have b0 := hv.begin_nonneg
  have b1 := hv.begin_le
  have b2 := hv.end_le
  have h1 : 0 ≤ sw * (1 - cfg.mergeEnd) / dT := div_nonneg (mul_nonneg hsw (by linarith)) hd.le
  have h2 : sw * (1 - cfg.mergeEnd) / dT ≤ sw * (1 - cfg.mergeBegin) / dT :=
    div_le_div_of_nonneg_right (by nlinarith) hd.le
  have h3 : sw * (1 - cfg.mergeBegin) / dT ≤ sw / dT := div_le_div_of_nonneg_right (by nlinarith) hd.le
  have m1 := stdRound_nonneg h1
  have m2 := stdRound_mono h1 h2
  have m3 := stdRound_mono (h1.trans h2) h3
  refine ⟨?_, List.pairwise_lt_range', ?_⟩
  · intro hc
    have := congrArg List.length hc
    simp at this
    omega
  · intro m hm
    rw [List.mem_range'_1] at hm
    omega

/-- Merge points grouped by step. -/
theorem Slots.groups {cfg : GenSettings K} (hv : ValidTimings cfg) {dT t0 : K} (hd : 0 < dT) {half first : Bool} {n : Nat}
    {l : List (Ptr K)} {slots : List Slot} {ms : List Nat} (h : Slots (effective cfg) dT t0 half first n l slots ms) :
    ∃ gs : List (List Nat), gs.length = slots.length ∧ ms = gs.flatten ∧
      ∀ k s g, slots[k]? = some s → gs[k]? = some g →
        (g = [] ↔ first = true ∧ k = 0) ∧ g.Pairwise (· < ·) ∧
        ∀ m ∈ g, n + slotStart slots k ≤ m ∧ m ≤ n + slotStart slots k + s.ds := by
  induction h with
  | nil => exact ⟨[], rfl, rfl, by simp⟩
  | cons first n q l s ss ms mss h1 h2 h3 ih =>
    obtain ⟨gs, e1, e2, e3⟩ := ih
    refine ⟨ms :: gs, by simp [e1], by simp [e2], fun k s' g hs hg => ?_⟩
    cases k with
    | zero =>
      simp only [List.getElem?_cons_zero, Option.some.injEq] at hs hg
      subst hs hg
      have e0 : slotStart (s :: ss) 0 = 0 := by simp [slotStart, slotSegs]
      cases first with
      | true => simp at h2; simp [h2]
      | false =>
        rw [if_neg (by simp)] at h2
        obtain ⟨a, b, c⟩ := h2.bounds hv hd (switchTime_bounds hv _ h1.nonneg).1 h1.double
        rw [e0]
        exact ⟨by simp [a], b, c⟩
    | succ k =>
      simp only [List.getElem?_cons_succ] at hs hg
      obtain ⟨a, b, c⟩ := e3 k s' g hs hg
      have e : n + slotStart (s :: ss) (k + 1) = n + s.ds + s.ss + slotStart ss k := by
        unfold slotStart
        simp [slotSegs, total_segs]; omega
      rw [e]
      refine ⟨?_, b, c⟩
      rw [a]; simp

/-- All merge points of the steps, in order. -/
theorem Slots.merges_sorted {cfg : GenSettings K} (hv : ValidTimings cfg) {dT t0 : K} (hd : 0 < dT) {half first : Bool} {n : Nat}
    {l : List (Ptr K)} {slots : List Slot} {ms : List Nat} (h : Slots (effective cfg) dT t0 half first n l slots ms) :
    ms.Pairwise (· ≤ ·) ∧ (∀ m ∈ ms, n ≤ m ∧ m ≤ n + total (slotSegs true slots)) ∧
    ((∀ s ∈ slots, 0 < s.ss) → ms.Pairwise (· < ·) ∧ ∀ m ∈ ms, m < n + total (slotSegs true slots)) ∧
    (first = true → ∀ s, slots.head? = some s → ∀ m ∈ ms, n + s.ds + s.ss ≤ m) := by
  induction h with
  | nil => simp
  | cons first n q l s ss ms mss h1 h2 h3 ih =>
    obtain ⟨i1, i2, i3, -⟩ := ih
    have ht : total (slotSegs true (s :: ss)) = s.ds + s.ss + total (slotSegs true ss) := by
      simp [slotSegs, total_segs]
    have hms : ms.Pairwise (· < ·) ∧ (∀ m ∈ ms, n ≤ m ∧ m ≤ n + s.ds) ∧ (first = true → ms = []) := by
      cases first with
      | true => simp at h2; simp [h2]
      | false =>
        rw [if_neg (by simp)] at h2
        obtain ⟨a, b, c⟩ := h2.bounds hv hd (switchTime_bounds hv _ h1.nonneg).1 h1.double
        exact ⟨b, c, by simp⟩
    obtain ⟨g1, g2, g3⟩ := hms
    refine ⟨?_, ?_, ?_, ?_⟩
    · rw [List.pairwise_append]
      refine ⟨g1.imp (fun h => h.le), i1, fun a ha b hb => ?_⟩
      have := g2 a ha; have := i2 b hb; omega
    · intro m hm
      rw [ht]
      rcases List.mem_append.mp hm with hm | hm
      · have := g2 m hm; omega
      · have := i2 m hm; omega
    · intro hpos
      have hp1 := hpos s (by simp)
      obtain ⟨j1, j2⟩ := i3 (fun x hx => hpos x (by simp [hx]))
      refine ⟨?_, ?_⟩
      · rw [List.pairwise_append]
        refine ⟨g1, j1, fun a ha b hb => ?_⟩
        have := g2 a ha; have := i2 b hb; omega
      · intro m hm
        rw [ht]
        rcases List.mem_append.mp hm with hm | hm
        · have := g2 m hm; omega
        · have := j2 m hm; omega
    · intro hf s' hs' m hm
      simp only [List.head?_cons, Option.some.injEq] at hs'
      subst hs'
      rw [g3 hf] at hm
      simp only [List.nil_append] at hm
      exact (i2 m hm).1

end Uni.Gen
