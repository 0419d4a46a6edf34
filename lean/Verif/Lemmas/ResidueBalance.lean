import Verif.Model.ResidueBalance
import Verif.Lemmas.Residue
import Verif.Lemmas.Walker
import Verif.Lemmas.DCMWalk
import Verif.Lemmas.Round

/-! # What the ZMP and DCM generators leave behind -/

set_option autoImplicit false
set_option linter.unusedSectionVars false

namespace Uni
open Spec

variable {S O : Type}

/-- Where a loop fails.  The phases before the one that fails are not the last one. -/
theorem phaseLoop_stops {body : Nat → Bool → Phase → Nat → Nat → S → Out (S × List O)}
    (part : Nat → Bool → Phase → Nat → Nat → S → List O) (hl : Fills body) {phases : List Phase} {l : List Nat} {phase start : Nat} {s : S}
    (h : phaseLoop body phases l phase start s = .fail) :
    ∃ (k b : Nat) (r : S × List O) (p : Phase) (f : Bool), l[k]? = some b ∧ (start :: l)[k]? = some (start + r.2.length) ∧
      phaseLoop (fun n _ => body n false) phases (l.take k) phase start s = .ok r ∧ phases[start + r.2.length]? = some p ∧
      start + r.2.length ≤ b ∧ b ≤ phases.length ∧ body (phase + k) f p (start + r.2.length) b r.1 = .fail ∧
      (f = true ↔ k + 1 = l.length) ∧
      phaseWrites body part phases l phase start s = r.2 ++ part (phase + k) f p (start + r.2.length) b r.1 := by
  induction l generalizing phase start s with
  | nil => simp [phaseLoop] at h
  | cons stop rest ih =>
    simp only [phaseLoop] at h
    cases hp : phases[start]? with
    | none => rw [hp] at h; simp at h
    | some p =>
      rw [hp] at h
      simp only at h
      by_cases h1 : phases.length < stop
      · rw [if_pos h1] at h; simp at h
      rw [if_neg h1] at h
      by_cases h2 : stop < start
      · rw [if_pos h2] at h; simp at h
      rw [if_neg h2] at h
      cases ha : body phase rest.isEmpty p start stop s with
      | ub w => rw [ha] at h; cases h
      | fail =>
        refine ⟨0, stop, (s, []), p, rest.isEmpty, rfl, rfl, rfl, by simpa using hp, by simpa using Nat.le_of_not_lt h2,
          Nat.le_of_not_lt h1, by simpa using ha, ?_, ?_⟩
        · cases rest <;> simp
        simp only [phaseWrites, hp, if_neg h1, if_neg h2, ha, List.nil_append, List.length_nil, Nat.add_zero]
      | ok a =>
        rw [ha] at h
        have hlen := hl _ _ _ _ _ _ _ ha
        cases hr : phaseLoop body phases rest (phase + 1) stop a.1 with
        | ok b =>
          exfalso
          change (phaseLoop body phases rest (phase + 1) stop a.1 >>= _) = _ at h
          rw [hr] at h
          cases h
        | ub w =>
          exfalso
          change (phaseLoop body phases rest (phase + 1) stop a.1 >>= _) = _ at h
          rw [hr] at h
          cases h
        | fail =>
          obtain ⟨k, b, r, q, f, h3, h4, h5, h6, h7, h8, h9, hf, h10⟩ := ih hr
          have e : start + (a.2 ++ r.2).length = stop + r.2.length := by
            rw [List.length_append, hlen]; omega
          have e' : phase + (k + 1) = phase + 1 + k := by omega
          have hne : rest.isEmpty = false := by
            cases rest with
            | nil => simp at h3
            | cons _ _ => rfl
          refine ⟨k + 1, b, (r.1, a.2 ++ r.2), q, f, by simpa using h3, ?_, ?_, ?_, ?_, h8, ?_, ?_, ?_⟩
          · rw [e]; simpa using h4
          · simp only [List.take_succ_cons, phaseLoop, hp, if_neg h1, if_neg h2]
            rw [← hne, ha]
            rw [hne] at *
            change (phaseLoop _ phases (rest.take k) (phase + 1) stop a.1 >>= _) = _
            rw [h5]
            rfl
          · simp only [e]; exact h6
          · simp only [e]; exact h7
          · simp only [e, e']; exact h9
          · rw [hf, List.length_cons]; omega
          · simp only [e, e']
            simp only [phaseWrites, hp, if_neg h1, if_neg h2, ha, h10, List.append_assoc]

namespace Zmp
variable {K : Type} [Field K] [LinearOrder K] [IsStrictOrderedRing K] [FloorRing K]

theorem spline2_fail {y0 v0 y1 v1 T : K} (h : spline2 y0 v0 y1 v1 T = .fail) : T ≤ 0 := by
  unfold spline2 at h
  split_ifs at h with hT
  exact hT

theorem samples_nonpos {dT : K} {n : Nat} (hd : 0 < dT) (h : (n : K) * dT ≤ 0) : n = 0 := by
  by_contra hn
  have : 0 < (n : K) * dT := mul_pos (Nat.cast_pos.mpr (Nat.pos_of_ne_zero hn)) hd
  linarith

theorem finalWeight_fail {phases : List Phase} {last : Bool} {i : Nat} : (finalWeight phases last i : Out K) ≠ .fail := by
  unfold finalWeight
  split_ifs
  · simp
  · split <;> simp

/-- Why a phase fails while the weights are computed, and how many of its samples have been assigned. -/
theorem weightBody_fail {c : ZmpTimes K} {init : Motion K} {phases : List Phase} {dT : K} {k : Nat} {last : Bool} {p : Phase}
    {i j : Nat} (hd : 0 < dT) (h : weightBody c init phases dT k last p i j () = .fail) :
    (p = .switchIn ∨ p = .switchOut) ∧
    ((j - i = 0 ∧ weightWrites c init dT k last p i j () = []) ∨
     (c.pauses dT (j - i) = true ∧ c.endSwitch ≤ 0 ∧ weightWrites c init dT k last p i j () = []) ∨
     (c.pauses dT (j - i) = true ∧ stdRound (c.nominalSwitch / dT) ≤ 0 ∧
        (weightWrites c init dT k last p i j ()).length = j - i)) := by
  have key : ∀ y0 v0 : K, y0 = (if k = 1 then init.pos else if p = .switchIn then 0 else 1) → v0 = (if k = 1 then init.vel else 0) →
      (if c.pauses dT (j - i) then do
        let f ← spline2 y0 v0 (1 / 2) 0 c.endSwitch
        let a := (stdRound (c.endSwitch / dT)).toNat
        let h := (((j - i : Nat) : ℤ) - stdRound (c.nominalSwitch / dT) - a).toNat
        if (j - i) < a + h then .ub .unsignedWrap
        else do
          let y1 ← finalWeight phases last (i + a + h)
          let g ← spline2 (1 / 2) 0 y1 0 ((((j - i) - (a + h) : Nat) : K) * dT)
          .ok ((), samples dT f a ++ List.replicate h ⟨1 / 2, 0, 0⟩ ++ samples dT g ((j - i) - (a + h)))
      else do
        let y1 ← finalWeight phases last i
        let f ← spline2 y0 v0 y1 0 (((j - i : Nat) : K) * dT)
        .ok ((), samples dT f (j - i)) : Out (Unit × List (Motion K))) = .fail →
      ((j - i = 0 ∧ weightWrites c init dT k last p i j () = []) ∨
       (c.pauses dT (j - i) = true ∧ c.endSwitch ≤ 0 ∧ weightWrites c init dT k last p i j () = []) ∨
       (c.pauses dT (j - i) = true ∧ stdRound (c.nominalSwitch / dT) ≤ 0 ∧
          (weightWrites c init dT k last p i j ()).length = j - i)) := by
    intro y0 v0 e1 e2 h
    unfold weightWrites
    simp only [← e1, ← e2]
    by_cases hp : c.pauses dT (j - i) = true
    · rw [if_pos hp] at h
      rw [if_pos hp]
      right
      cases hs : spline2 y0 v0 (1 / 2) 0 c.endSwitch with
      | ub w => rw [hs] at h; cases h
      | fail => exact Or.inl ⟨hp, spline2_fail hs, rfl⟩
      | ok f =>
        right
        rw [hs] at h
        simp only [Out.bind_ok] at h
        split_ifs at h with hn
        cases hy : (finalWeight phases last (i + (stdRound (c.endSwitch / dT)).toNat +
            (((j - i : Nat) : ℤ) - stdRound (c.nominalSwitch / dT) - (stdRound (c.endSwitch / dT)).toNat).toNat) : Out K) with
        | ub w => rw [hy] at h; cases h
        | fail => exact absurd hy finalWeight_fail
        | ok y1 =>
          rw [hy] at h
          simp only [Out.bind_ok] at h
          have h0 : (j - i) - ((stdRound (c.endSwitch / dT)).toNat +
              (((j - i : Nat) : ℤ) - stdRound (c.nominalSwitch / dT) - (stdRound (c.endSwitch / dT)).toNat).toNat) = 0 := by
            by_contra hne
            cases hg : spline2 (1 / 2) 0 y1 0 ((((j - i) - ((stdRound (c.endSwitch / dT)).toNat +
              (((j - i : Nat) : ℤ) - stdRound (c.nominalSwitch / dT) - (stdRound (c.endSwitch / dT)).toNat).toNat) : Nat) : K) * dT) with
            | ub w => rw [hg] at h; cases h
            | ok g => rw [hg] at h; cases h
            | fail => exact hne (samples_nonpos hd (spline2_fail hg))
          refine ⟨hp, ?_, ?_⟩
          · by_contra hr
            have he : 0 < c.endSwitch := by
              unfold spline2 at hs
              split_ifs at hs with h1
              exact not_le.mp h1
            have hsum : (c.endSwitch + c.nominalSwitch) / dT < ((j - i : Nat) : K) := by
              unfold ZmpTimes.pauses at hp
              rw [Bool.and_eq_true, decide_eq_true_iff] at hp
              rw [div_lt_iff₀ hd]
              exact (le_max_right _ _).trans_lt hp.2
            rw [add_div] at hsum
            have b1 := (stdRound_bounds (c.nominalSwitch / dT)).1
            have b2 := (stdRound_bounds (c.endSwitch / dT)).1
            have e1 : (1 : K) ≤ (stdRound (c.nominalSwitch / dT) : K) := by exact_mod_cast not_le.mp hr
            have he' : 0 < c.endSwitch / dT := div_pos he hd
            rcases Nat.eq_zero_or_pos (j - i) with hz | hz
            · rw [hz, Nat.cast_zero] at hsum
              linarith
            · have e2 : ((j - i : Nat) : ℤ) ≤ stdRound (c.endSwitch / dT) := by omega
              have e3 : ((j - i : Nat) : K) ≤ (stdRound (c.endSwitch / dT) : K) := by exact_mod_cast e2
              linarith
          · simp only [List.length_append, samples, List.length_map, List.length_range, List.length_replicate]
            omega
    · rw [if_neg hp] at h
      rw [if_neg hp]
      left
      refine ⟨?_, rfl⟩
      cases hy : (finalWeight phases last i : Out K) with
      | ub w => rw [hy] at h; cases h
      | fail => exact absurd hy finalWeight_fail
      | ok y1 =>
        rw [hy] at h
        simp only [Out.bind_ok] at h
        cases hg : spline2 y0 v0 y1 0 (((j - i : Nat) : K) * dT) with
        | ub w => rw [hg] at h; cases h
        | ok g => rw [hg] at h; cases h
        | fail => exact samples_nonpos hd (spline2_fail hg)
  cases p with
  | stance => simp [weightBody] at h
  | swing => simp [weightBody] at h
  | switchIn => exact ⟨Or.inl rfl, key _ _ rfl rfl h⟩
  | switchOut => exact ⟨Or.inr rfl, key _ _ rfl rfl h⟩

/-- Why a phase fails while the ZMP in the frame of a foot is computed. -/
theorem localBody_fail {c : ZmpTimes K} {stance switch : Vec2 K} {dT : K} {k : Nat} {last : Bool} {p : Phase}
    {i j : Nat} (hd : 0 < dT) (h : localBody c stance switch dT k last p i j () = .fail) :
    (p = .stance ∨ p = .switchOut ∧ k ≠ 1) ∧ (j - i = 0 ∨ c.pauses dT (j - i) = true ∧ c.endSwitch ≤ 0) := by
  have mv : ∀ {a b : Vec2 K} {T : K}, move a b T = .fail → T ≤ 0 := by
    intro a b T h
    unfold move at h
    cases hx : spline2 a.x 0 b.x 0 T with
    | ub w => rw [hx] at h; cases h
    | fail => exact spline2_fail hx
    | ok f =>
      rw [hx] at h
      simp only [Out.bind_ok] at h
      cases hy : spline2 a.y 0 b.y 0 T with
      | ub w => rw [hy] at h; cases h
      | fail => exact spline2_fail hy
      | ok f => rw [hy] at h; cases h
  cases p with
  | swing => simp [localBody] at h
  | switchIn => simp [localBody] at h
  | stance =>
    refine ⟨Or.inl rfl, Or.inl ?_⟩
    simp only [localBody] at h
    cases hm : move stance switch (((j - i : Nat) : K) * dT) with
    | ub w => rw [hm] at h; cases h
    | ok f => rw [hm] at h; cases h
    | fail => exact samples_nonpos hd (mv hm)
  | switchOut =>
    simp only [localBody] at h
    by_cases hk : k = 1
    · rw [if_pos hk] at h; simp at h
    rw [if_neg hk] at h
    refine ⟨Or.inr ⟨rfl, hk⟩, ?_⟩
    cases hm : move switch stance (backTime c dT last (j - i)) with
    | ub w => rw [hm] at h; cases h
    | ok f =>
      rw [hm] at h
      simp only [Out.bind_ok] at h
      split_ifs at h <;> cases h
    | fail =>
      have h0 := mv hm
      unfold backTime at h0
      split_ifs at h0 with h1 h2
      · exact Or.inr ⟨h1, h0⟩
      · exact Or.inl (samples_nonpos hd h0)
      · exact Or.inl (samples_nonpos hd (by linarith))

end Zmp
end Uni
