import Verif.Model.FootPrint

/-! Helper lemmas on `FootPrint`. -/

set_option autoImplicit false
set_option linter.unusedSectionVars false

namespace Uni.FootPrint
variable {K : Type*} [Field K] [LinearOrder K]

/-- All steps land at a non-negative time and carry the footprint's name. -/
def WellFormed (fp : FootPrint K) : Prop :=
  ∀ s ∈ fp.steps, 0 ≤ s.impactTime ∧ s.footName = fp.footName

theorem run_footName (fp : FootPrint K) (o : Op K) : (fp.run o).2.footName = fp.footName := by
  cases o <;> simp [run, addStep, addStepRaw, dropPastSteps, keepOnlyPresentStep, clearSteps,
    clearLastStep] <;> repeat' split
  all_goals simp

theorem wellFormed_run (fp : FootPrint K) (o : Op K) (h : fp.WellFormed) :
    (fp.run o).2.WellFormed := by
  have hadd : ∀ (g : FootPrint K) p θ t, g.WellFormed → (g.addStepRaw p θ t).2.WellFormed := by
    intro g p θ t hg
    unfold addStepRaw
    split
    · exact hg
    · rename_i ht
      intro s hs
      simp only [List.mem_append, List.mem_singleton] at hs
      rcases hs with hs | rfl
      · exact hg s hs
      · exact ⟨not_lt.mp ht, rfl⟩
  cases o with
  | addStep s => exact hadd _ _ _ _ h
  | addStepRaw p θ t => exact hadd _ _ _ _ h
  | dropPastSteps =>
    simp only [run, dropPastSteps]
    split
    · exact h
    · intro s hs; exact h s (List.mem_of_mem_drop hs)
  | keepOnlyPresentStep t =>
    simp only [run, keepOnlyPresentStep]
    split
    · exact h
    · exact hadd _ _ _ _ (by intro s hs; simp [clearSteps] at hs)
  | clearSteps => intro s hs; simp [run, clearSteps] at hs
  | clearLastStep =>
    simp only [run, clearLastStep]
    split
    · intro s hs; exact h s (List.mem_of_mem_dropLast hs)
    · exact h

theorem wellFormed_runAll (ops : List (Op K)) (fp : FootPrint K) (h : fp.WellFormed) :
    (fp.runAll ops).WellFormed ∧ (fp.runAll ops).footName = fp.footName := by
  induction ops generalizing fp with
  | nil => exact ⟨h, rfl⟩
  | cons o os ih =>
    have := ih (fp.run o).2 (wellFormed_run fp o h)
    simpa [runAll, run_footName] using this

end Uni.FootPrint
