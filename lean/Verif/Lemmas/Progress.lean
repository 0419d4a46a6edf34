import Verif.Lemmas.Callers
import Mathlib.Logic.Hydra
import Mathlib.Data.Fintype.Basic
import Mathlib.Data.Finset.Insert

/-! # Calls come to an end -/

set_option autoImplicit false
set_option linter.unusedSectionVars false

namespace Uni.Conc
open Spec
variable {ι R L : Type} {V : R → Type} {ρ : Type} [DecidableEq ι] [DecidableEq R] [DecidableEq L]

/-- What is left after one operation. -/
inductive Next : Prog R L V ρ → Prog R L V ρ → Prop
  | acquire (l : L) (k : Prog R L V ρ) : Next k (.acquire l k)
  | release (l : L) (k : Prog R L V ρ) : Next k (.release l k)
  | access (r : R) (f : V r → V r) (k : V r → Prog R L V ρ) (v : V r) : Next (k v) (.access r f k)

theorem wf_next : WellFounded (Next : Prog R L V ρ → Prog R L V ρ → Prop) := by
  refine ⟨fun p => ?_⟩
  induction p with
  | ret x => exact ⟨_, fun q h => by cases h⟩
  | acquire l k ih => exact ⟨_, fun q h => by cases h; exact ih⟩
  | release l k ih => exact ⟨_, fun q h => by cases h; exact ih⟩
  | access r f k ih =>
    refine ⟨_, fun q h => ?_⟩
    generalize hp : Prog.access r f k = p at h
    cases h with
    | acquire => cases hp
    | release => cases hp
    | access r' f' k' v => cases hp; exact ih v

theorem step_next {c c' : Config ι R L V ρ} {i : ι} (h : Conc.step c i = some c') :
    Next (c'.code i) (c.code i) ∧ ∀ j, j ≠ i → c'.code j = c.code j := by
  unfold Conc.step at h
  split at h
  · cases h
  · rename_i l k e
    split_ifs at h
    cases h
    refine ⟨?_, fun j hj => by simp [hj]⟩
    rw [e]; simp only [Function.update_self]; exact .acquire _ _
  · rename_i l k e
    split_ifs at h
    cases h
    refine ⟨?_, fun j hj => by simp [hj]⟩
    rw [e]; simp only [Function.update_self]; exact .release _ _
  · rename_i r f k e
    cases h
    refine ⟨?_, fun j hj => by simp [hj]⟩
    rw [e]; simp only [Function.update_self]; exact .access _ _ _ _

/-- There is no infinite execution. -/
theorem wf_step [Fintype ι] : WellFounded (fun c' c : Config ι R L V ρ => ∃ i, Conc.step c i = some c') := by
  refine Subrelation.wf (r := InvImage (Relation.CutExpand Next) fun c : Config ι R L V ρ => Finset.univ.val.map c.code) ?_
    (InvImage.wf _ wf_next.cutExpand)
  rintro c' c ⟨i, hi⟩
  obtain ⟨h1, h2⟩ := step_next hi
  have e : ∀ f : ι → Prog R L V ρ, Finset.univ.val.map f = (Finset.univ.erase i).val.map f + {f i} := by
    intro f
    have : (Finset.univ : Finset ι).val = i ::ₘ (Finset.univ.erase i).val := by
      rw [Finset.erase_val]
      exact (Multiset.cons_erase (Finset.mem_univ i)).symm
    rw [this, Multiset.map_cons, ← Multiset.singleton_add, add_comm]
  show Relation.CutExpand Next (Finset.univ.val.map c'.code) (Finset.univ.val.map c.code)
  rw [e, e]
  have e2 : (Finset.univ.erase i).val.map c'.code = (Finset.univ.erase i).val.map c.code := by
    refine Multiset.map_congr rfl fun j hj => h2 j ?_
    have : j ∈ Finset.univ.erase i := hj
    exact (Finset.mem_erase.mp this).1
  rw [e2]
  exact Relation.cutExpand_add_single _ h1

/-- If nobody is ever stuck then every execution can be completed. -/
theorem completes [Fintype ι] {s : Store R V} {code : ι → Prog R L V ρ} (h : ∀ τ c, run (Conc.start s code) τ = some c → ¬ Deadlock c)
    (c : Config ι R L V ρ) : ∀ τ, run (Conc.start s code) τ = some c → ∃ τ' c', run c τ' = some c' ∧ ∀ i, Returned c' i := by
  refine wf_step.induction (C := fun c => ∀ τ, run (Conc.start s code) τ = some c → ∃ τ' c', run c τ' = some c' ∧ ∀ i, Returned c' i) c ?_
  · intro c ih τ hr
    by_cases hall : ∀ i, Returned c i
    · exact ⟨[], c, rfl, hall⟩
    · have hd := h τ c hr
      have hex : ∃ i, ¬ Returned c i := not_forall.mp hall
      have : ∃ i, Conc.step c i ≠ none := by
        by_contra hn
        exact hd ⟨hex, fun i => by_contra fun hi => hn ⟨i, hi⟩⟩
      obtain ⟨i, hi⟩ := this
      obtain ⟨c', hc'⟩ := Option.ne_none_iff_exists'.mp hi
      obtain ⟨τ', c'', h1, h2⟩ := ih c' ⟨i, hc'⟩ (τ ++ [i]) (by rw [run_snoc, hr]; exact hc')
      exact ⟨i :: τ', c'', by rw [run, hc']; exact h1, h2⟩

end Uni.Conc
