import Verif.Model.CoMHeight
import Verif.Lemmas.Loop
import Verif.Lemmas.Spline

/-! # The height of the centre of mass -/

set_option autoImplicit false
set_option linter.unusedSectionVars false

namespace Uni
open Spec

namespace CoMHeight
variable {K : Type} [Field K] [LinearOrder K] [IsStrictOrderedRing K]

/-- The bump of a single support of duration `L`. -/
theorem bump (h δ : K) {L : K} (hL : 0 < L) (t : K) :
    (spline3At h 0 (h + δ) h 0 (L / 2) L t).pos =
      h + δ * (if t ≤ L / 2 then ease (t / (L / 2)) else 1 - ease ((t - L / 2) / (L / 2))) := by
  have h2 : (0 : K) < L / 2 := by linarith
  have e : L - L / 2 = L / 2 := by ring
  have e0 : midVelocity h 0 (h + δ) h 0 (L / 2) (L / 2) = 0 := by
    unfold midVelocity
    rw [show (L / 2) ^ 2 * (h - (h + δ)) + (L / 2) ^ 2 * (h + δ - h) = 0 by ring]
    simp
  simp only [spline3At, e, e0]
  split_ifs with ht
  · rw [hermite_rest _ _ h2.ne']; ring
  · rw [hermite_rest _ _ h2.ne']; ring

theorem bump_range {L t : K} (hL : 0 < L) (h0 : 0 ≤ t) (h1 : t ≤ L) :
    0 ≤ (if t ≤ L / 2 then ease (t / (L / 2)) else 1 - ease ((t - L / 2) / (L / 2))) ∧
    (if t ≤ L / 2 then ease (t / (L / 2)) else 1 - ease ((t - L / 2) / (L / 2))) ≤ 1 := by
  have h2 : (0 : K) < L / 2 := by linarith
  split_ifs with ht
  · have a := div_nonneg h0 h2.le
    have b := (div_le_one h2).mpr ht
    exact ⟨ease_nonneg a b, ease_le_one a b⟩
  · have a := div_nonneg (sub_nonneg.mpr (not_le.mp ht).le) h2.le
    have b : (t - L / 2) / (L / 2) ≤ 1 := (div_le_one h2).mpr (by linarith)
    have := ease_nonneg a b
    have := ease_le_one a b
    constructor <;> linarith

theorem body_length (c : HeightSettings K) (dT : K) (k : Nat) (b : Bool) (p : Phase) (i j : Nat) (s s' : Unit)
    (l : List (Motion K)) (h : body c dT k b p i j s = .ok (s', l)) : l.length = j - i := by
  cases p <;> simp only [body] at h
  case switchIn => cases h; simp
  case switchOut => cases h; simp
  all_goals
    rw [Out.bind_eq_ok] at h
    obtain ⟨f, -, h⟩ := h
    cases h
    simp

theorem body_single {c : HeightSettings K} {dT : K} {k : Nat} {b : Bool} {p : Phase} {i j : Nat} {s s' : Unit}
    {l : List (Motion K)} (h : body c dT k b p i j s = .ok (s', l)) (hp : p = .stance ∨ p = .swing) :
    0 < ((j - i : Nat) : K) * dT ∧
    l = (List.range (j - i)).map fun (m : Nat) => spline3At c.height 0 (c.height + c.delta) c.height 0
      (((j - i : Nat) : K) * dT / 2) (((j - i : Nat) : K) * dT) ((m : K) * dT) := by
  have h' : (do
      let f ← spline3 c.height 0 (c.height + c.delta) c.height 0 (((j - i : Nat) : K) * dT / 2) (((j - i : Nat) : K) * dT)
      Out.ok (s, (List.range (j - i)).map fun (m : Nat) => f ((m : K) * dT))) = Out.ok (s', l) := by
    rcases hp with rfl | rfl <;> exact h
  rw [Out.bind_eq_ok] at h'
  obtain ⟨f, hf, h'⟩ := h'
  cases h'
  unfold spline3 at hf
  split_ifs at hf with hn
  cases hf
  rw [not_or, not_le, not_le] at hn
  exact ⟨by linarith [hn.1], rfl⟩

/-- Every phase with samples can be interpolated. -/
theorem body_ok (c : HeightSettings K) {dT : K} (hd : 0 < dT) (k : Nat) (b : Bool) (p : Phase) {i j : Nat} (hij : i < j) :
    ∃ l, body c dT k b p i j () = .ok ((), l) ∧ l.length = j - i := by
  suffices ∃ l, body c dT k b p i j () = .ok ((), l) by
    obtain ⟨l, hl⟩ := this
    exact ⟨l, hl, body_length c dT k b p i j () () l hl⟩
  have hn : (0 : K) < ((j - i : Nat) : K) := by exact_mod_cast (by omega : 0 < j - i)
  have hL := mul_pos hn hd
  cases p
  case switchIn => exact ⟨_, rfl⟩
  case switchOut => exact ⟨_, rfl⟩
  all_goals
    simp only [body]
    rw [spline3_ok _ _ _ _ _ (by linarith) (by linarith)]
    exact ⟨_, rfl⟩

theorem runSegs_ok (c : HeightSettings K) {dT : K} (hd : 0 < dT) (segs : List Seg) (hpos : ∀ g ∈ segs, 0 < g.2) (phase start : Nat) :
    ∃ l, runSegs (body c dT) segs phase start () = .ok ((), l) ∧ l.length = total segs := by
  induction segs generalizing phase start with
  | nil => exact ⟨[], rfl, rfl⟩
  | cons g gs ih =>
    have hg := hpos g (by simp)
    obtain ⟨l1, a1, a2⟩ := body_ok c hd phase gs.isEmpty g.1 (by omega : start < start + g.2)
    obtain ⟨l2, b1, b2⟩ := ih (fun g hg => hpos g (by simp [hg])) (phase + 1) (start + g.2)
    refine ⟨l1 ++ l2, ?_, ?_⟩
    · simp only [runSegs, a1, Out.bind_ok, b1]
    · rw [List.length_append, a2, b2]; simp [total]

end CoMHeight
end Uni
