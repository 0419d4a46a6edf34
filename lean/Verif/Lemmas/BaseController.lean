import Verif.Spec.Limits
import Mathlib.Tactic.Linarith
import Mathlib.Tactic.Positivity

/-! Helper lemmas on saturations. -/

set_option autoImplicit false
set_option linter.unusedSectionVars false

namespace Uni.BaseCtrl
section
variable {K : Type*} [Field K] [LinearOrder K] [IsStrictOrderedRing K]

theorem saturate_bounds (x p n : K) (hp : 0 ≤ p) (hn : n ≤ p) :
    n ≤ saturate x p n ∧ saturate x p n ≤ p := by
  unfold saturate
  rw [if_neg (by push Not; exact ⟨hp, hn⟩)]
  split_ifs with h1 h2
  · exact ⟨hn, le_rfl⟩
  · exact ⟨le_rfl, hn⟩
  · exact ⟨not_lt.mp h2, not_lt.mp h1⟩

theorem saturateSym_bounds (x p : K) (hp : 0 ≤ p) : |saturateSym x p| ≤ p := by
  have := saturate_bounds x p (-p) hp (by linarith)
  exact abs_le.mpr this

/-- Invariant of the settings: gains are non-negative; the saturations are either the
"don't saturate" pair `(-1,-1)` or non-negative. -/
structure Valid (c : BaseCtrl K) : Prop where
  turn : 0 ≤ c.turnGain
  back : 0 ≤ c.backFactor
  side : 0 ≤ c.sideFactor
  sat : (c.maxLinear = -1 ∧ c.maxAngular = -1) ∨ (0 ≤ c.maxLinear ∧ 0 ≤ c.maxAngular)

theorem valid_new : (new : BaseCtrl K).Valid :=
  ⟨le_rfl, zero_le_one, zero_le_one, Or.inl ⟨rfl, rfl⟩⟩

theorem valid_run (c : BaseCtrl K) (o : Op K) (h : c.Valid) : (c.run o).2.Valid := by
  cases o with
  | setSaturations l a =>
    simp only [run, setSaturations]
    split_ifs with hl
    · exact h
    · push Not at hl
      exact ⟨h.turn, h.back, h.side, Or.inr hl⟩
  | setSlowWhenTurnGain g =>
    simp only [run, setSlowWhenTurnGain]
    split_ifs with hl
    · exact h
    · exact ⟨not_lt.mp hl, h.back, h.side, h.sat⟩
  | setSlowWhenBackwardFactor g =>
    simp only [run, setSlowWhenBackwardFactor]
    split_ifs with hl
    · exact h
    · exact ⟨h.turn, not_lt.mp hl, h.side, h.sat⟩
  | setSlowWhenSidewaysFactor g =>
    simp only [run, setSlowWhenSidewaysFactor]
    split_ifs with hl
    · exact h
    · exact ⟨h.turn, h.back, not_lt.mp hl, h.sat⟩

theorem valid_runAll (ops : List (Op K)) (c : BaseCtrl K) (h : c.Valid) : (c.runAll ops).Valid := by
  induction ops generalizing c with
  | nil => exact h
  | cons o os ih => exact ih _ (valid_run c o h)

theorem runAll_sat (ops : List (Op K)) (c : BaseCtrl K) :
    ((c.runAll ops).maxLinear, (c.runAll ops).maxAngular) =
      (Spec.lastSaturations ops).getD (c.maxLinear, c.maxAngular) := by
  induction ops generalizing c with
  | nil => rfl
  | cons o os ih =>
    have ih' := ih (c.run o).2
    have hrun : c.runAll (o :: os) = (c.run o).2.runAll os := rfl
    rw [hrun, ih']
    cases o with
    | setSaturations l a =>
      simp only [Spec.lastSaturations, run, setSaturations]
      cases Spec.lastSaturations os with
      | some r => simp
      | none => split_ifs <;> simp
    | setSlowWhenTurnGain g =>
      simp only [Spec.lastSaturations, run, setSlowWhenTurnGain]; split_ifs <;> rfl
    | setSlowWhenBackwardFactor g =>
      simp only [Spec.lastSaturations, run, setSlowWhenBackwardFactor]; split_ifs <;> rfl
    | setSlowWhenSidewaysFactor g =>
      simp only [Spec.lastSaturations, run, setSlowWhenSidewaysFactor]; split_ifs <;> rfl

theorem lastSat_nonneg (ops : List (Op K)) (L A : K) (h : Spec.lastSaturations ops = some (L, A)) :
    0 ≤ L ∧ 0 ≤ A := by
  induction ops with
  | nil => simp [Spec.lastSaturations] at h
  | cons o os ih =>
    cases o with
    | setSaturations l a =>
      simp only [Spec.lastSaturations] at h
      cases h2 : Spec.lastSaturations os with
      | some r => rw [h2] at h ih; exact ih (by simpa using h)
      | none =>
        rw [h2] at h
        simp only at h
        split_ifs at h with hl
        push Not at hl
        simp only [Option.some.injEq, Prod.mk.injEq] at h
        rw [← h.1, ← h.2]; exact hl
    | setSlowWhenTurnGain g => exact ih (by simpa [Spec.lastSaturations] using h)
    | setSlowWhenBackwardFactor g => exact ih (by simpa [Spec.lastSaturations] using h)
    | setSlowWhenSidewaysFactor g => exact ih (by simpa [Spec.lastSaturations] using h)

end
end Uni.BaseCtrl
