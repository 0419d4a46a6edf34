import Verif.Lemmas.Locks
import Mathlib.Data.Set.Image

/-! # A mutex of the caller, and mutexes that are not needed -/

set_option autoImplicit false
set_option linter.unusedSectionVars false

namespace Uni.Conc
open Spec
variable {ι R L : Type} {V : R → Type} {ρ : Type} [DecidableEq ι] [DecidableEq R] [DecidableEq L]

theorem alone_lift (p : Prog R L V ρ) (s : Store R V) : alone p.lift s = alone p s := by
  induction p generalizing s with
  | ret x => rfl
  | acquire l k ih => exact ih s
  | release l k ih => exact ih s
  | access r f k ih => exact ih _ _

theorem alone_inside (p : Prog R L V ρ) (s : Store R V) : alone p.inside s = alone p s := by
  induction p generalizing s with
  | ret x => rfl
  | acquire l k ih => exact ih s
  | release l k ih => exact ih s
  | access r f k ih => exact ih _ _

theorem alone_under (p : Prog R L V ρ) (s : Store R V) : alone p.under s = alone p s := alone_inside p s

/-! ## Calls under a mutex of the caller -/

/-- Two-phase locking of a call for which the caller holds a mutex: the objects with `guard r = none` are protected by it. -/
def Phased (guard : R → Option L) (H : Set L) (sh : Prop) : Prog R L V ρ → Prop
  | .ret _ => ∀ l, l ∉ H
  | .acquire l k => l ∉ H ∧ ((∃ r, guard r = some l) → ¬ sh) ∧ Phased guard (insert l H) sh k
  | .release l k => l ∈ H ∧ Phased guard (H \ {l}) (sh ∨ ∃ r, guard r = some l) k
  | .access r _ k => (guard r = none ∨ ∃ l ∈ H, guard r = some l) ∧ ∀ v, Phased guard H sh (k v)

theorem twoPhase_inside {guard : R → Option L} (hn : ∃ r, guard r = none) (p : Prog R L V ρ) {H : Set L} {sh : Prop}
    (h : Phased guard H sh p) : TwoPhase guard (insert none (some '' H)) sh p.inside := by
  induction p generalizing H sh with
  | ret x =>
    refine ⟨Set.mem_insert _ _, Or.inr hn, fun r hr => ?_⟩
    have h : ∀ l, l ∉ H := h
    rcases hr with ⟨hr | ⟨l, hl, -⟩, h2⟩
    · exact h2 hr
    · exact h l hl
  | acquire l k ih =>
    refine ⟨?_, h.2.1, ?_⟩
    · have := h.1
      simpa using this
    · have := ih h.2.2
      rwa [Set.image_insert_eq, Set.insert_comm] at this
  | release l k ih =>
    refine ⟨?_, ?_⟩
    · have := h.1
      simpa using this
    · have e : (insert none (some '' H)) \ {some l} = insert none (some '' (H \ {l})) := by
        ext x; cases x <;> simp
      rw [e]
      exact ih h.2
  | access r f k ih =>
    refine ⟨?_, fun v => ih v (h.2 v)⟩
    rcases h.1 with h | ⟨l, hl, h⟩
    · rw [h]; exact Set.mem_insert _ _
    · rw [h]; exact Or.inr ⟨l, hl, rfl⟩

theorem twoPhase_under {guard : R → Option L} (hn : ∃ r, guard r = none) {p : Prog R L V ρ} (h : Phased guard ∅ False p) :
    TwoPhase guard ∅ False p.under := by
  refine ⟨by simp, fun _ h => h, ?_⟩
  have := twoPhase_inside hn p h
  rwa [Set.image_empty] at this

theorem phase_of_ordered {rank : L → Nat} (p : Prog R L V ρ) {H : Set L} {sh : Prop} (h : Ordered rank H p) :
    Phased (fun _ => none) H sh p := by
  induction p generalizing H sh with
  | ret x => exact h
  | acquire l k ih => exact ⟨fun hl => absurd (h.1 l hl) (lt_irrefl _), by simp, ih h.2⟩
  | release l k ih => exact ⟨h.1, ih h.2⟩
  | access r f k ih => exact ⟨Or.inl rfl, fun v => ih v (h v)⟩

/-! ## Mutexes that are not needed -/

/-- `q` is `p` without some of its mutexes, of which it holds `G` now. -/
inductive Erases : Set L → Prog R L V ρ → Prog R L V ρ → Prop
  | ret {G : Set L} (x : ρ) : Erases G (.ret x) (.ret x)
  | acquire {G : Set L} {l : L} {k k' : Prog R L V ρ} : l ∉ G → Erases G k k' → Erases G (.acquire l k) (.acquire l k')
  | drop {G : Set L} {l : L} {k k' : Prog R L V ρ} : Erases (insert l G) k k' → Erases G (.acquire l k) k'
  | release {G : Set L} {l : L} {k k' : Prog R L V ρ} : l ∉ G → Erases G k k' → Erases G (.release l k) (.release l k')
  | undrop {G : Set L} {l : L} {k k' : Prog R L V ρ} : l ∈ G → Erases (G \ {l}) k k' → Erases G (.release l k) k'
  | access {G : Set L} {r : R} {f : V r → V r} {k k' : V r → Prog R L V ρ} : (∀ v, Erases G (k v) (k' v)) →
      Erases G (.access r f k) (.access r f k')

theorem Erases.alone {G : Set L} {p q : Prog R L V ρ} (h : Erases G p q) (s : Store R V) : alone p s = alone q s := by
  induction h generalizing s with
  | ret x => rfl
  | acquire _ _ ih => exact ih s
  | drop _ ih => exact ih s
  | release _ _ ih => exact ih s
  | undrop _ _ ih => exact ih s
  | access _ ih => exact ih _ _

theorem Erases.refl (p : Prog R L V ρ) : Erases ∅ p p := by
  induction p with
  | ret x => exact .ret x
  | acquire l k ih => exact .acquire (by simp) ih
  | release l k ih => exact .release (by simp) ih
  | access r f k ih => exact .access ih

theorem Erases.inside {G : Set L} {p q : Prog R L V ρ} (h : Erases G p q) : Erases (some '' G) p.inside q.inside := by
  induction h with
  | ret x => exact .release (by simp) (.ret x)
  | acquire h1 _ ih => exact .acquire (by simpa using h1) ih
  | drop _ ih => refine .drop ?_; rwa [Set.image_insert_eq] at ih
  | release h1 _ ih => exact .release (by simpa using h1) ih
  | @undrop G l k k' h1 _ ih =>
    refine .undrop (by simpa using h1) ?_
    have e : (some '' G) \ {some l} = some '' (G \ {l}) := by
      ext x; cases x <;> simp
    rw [e]; exact ih
  | access _ ih => exact .access ih

theorem Erases.under {p q : Prog R L V ρ} (h : Erases ∅ p q) : Erases ∅ p.under q.under := by
  have := h.inside
  rw [Set.image_empty] at this
  exact .acquire (by simp) this

/-- The two programs at the same place. -/
def Shadow (c d : Config ι R L V ρ) : Prop :=
  c.store = d.store ∧ ∃ G : ι → Set L, (∀ i, Erases (G i) (c.code i) (d.code i)) ∧
    ∀ l i, d.owner l = some i ↔ c.owner l = some i ∧ l ∉ G i

theorem Shadow.returned {c d : Config ι R L V ρ} (h : Shadow c d) {i : ι} {x : ρ} (hx : c.code i = .ret x) : d.code i = .ret x := by
  obtain ⟨-, G, h1, -⟩ := h
  have := h1 i
  rw [hx] at this
  generalize d.code i = q at this
  cases this
  rfl

theorem Shadow.step {c d c' : Config ι R L V ρ} (h : Shadow c d) {i : ι} (hs : Conc.step c i = some c') :
    ∃ τ d', run d τ = some d' ∧ Shadow c' d' ∧ ∀ j ∈ τ, j = i := by
  obtain ⟨h0, G, h1, h2⟩ := h
  have hi := h1 i
  unfold Conc.step at hs
  generalize hp : c.code i = p at hs hi
  generalize hq : d.code i = q at hi
  have hother : ∀ (p' q' : Prog R L V ρ) (G' : Set L), Erases G' p' q' → ∀ j,
      Erases (Function.update G i G' j) (Function.update c.code i p' j) (Function.update d.code i q' j) := by
    intro p' q' G' h j
    by_cases hj : j = i
    · subst hj; simpa using h
    · simpa [hj] using h1 j
  cases hi with
  | ret x => cases hs
  | @acquire _ l k k' hl hk =>
    simp only at hs
    split_ifs at hs with ho
    cases hs
    have hd : d.owner l = none := by
      cases e : d.owner l with
      | none => rfl
      | some j => have := ((h2 l j).mp e).1; rw [ho] at this; cases this
    refine ⟨[i], { d with owner := Function.update d.owner l (some i), code := Function.update d.code i k' }, ?_, ⟨h0, G, ?_, ?_⟩, by simp⟩
    · simp [run, Conc.step, hq, hd]
    · have := hother k k' (G i) hk
      simpa using this
    · intro m j
      by_cases hm : m = l
      · subst hm
        simp only [Function.update_self, Option.some.injEq]
        constructor
        · rintro rfl; exact ⟨rfl, hl⟩
        · rintro ⟨rfl, -⟩; rfl
      · simpa [hm] using h2 m j
  | @drop _ l k _ hk =>
    simp only at hs
    split_ifs at hs with ho
    cases hs
    have hd : d.owner l = none := by
      cases e : d.owner l with
      | none => rfl
      | some j => have := ((h2 l j).mp e).1; rw [ho] at this; cases this
    refine ⟨[], d, rfl, ⟨h0, Function.update G i (insert l (G i)), ?_, ?_⟩, by simp⟩
    · have := hother k q _ hk
      rw [← hq] at this
      simpa using this
    · intro m j
      by_cases hm : m = l
      · subst hm
        simp only [hd, Function.update_self, Option.some.injEq]
        constructor
        · intro h; cases h
        · rintro ⟨rfl, h⟩; simp at h
      · by_cases hj : j = i
        · subst hj; simpa [hm] using h2 m j
        · simpa [hm, hj] using h2 m j
  | @release _ l k k' hl hk =>
    simp only at hs
    split_ifs at hs with ho
    cases hs
    have hd : d.owner l = some i := (h2 l i).mpr ⟨ho, hl⟩
    refine ⟨[i], { d with owner := Function.update d.owner l none, code := Function.update d.code i k' }, ?_, ⟨h0, G, ?_, ?_⟩, by simp⟩
    · simp [run, Conc.step, hq, hd]
    · have := hother k k' (G i) hk
      simpa using this
    · intro m j
      by_cases hm : m = l
      · subst hm; simp
      · simpa [hm] using h2 m j
  | @undrop _ l k _ hl hk =>
    simp only at hs
    split_ifs at hs with ho
    cases hs
    refine ⟨[], d, rfl, ⟨h0, Function.update G i (G i \ {l}), ?_, ?_⟩, by simp⟩
    · have := hother k q _ hk
      rw [← hq] at this
      simpa using this
    · intro m j
      by_cases hm : m = l
      · subst hm
        simp only [Function.update_self]
        constructor
        · intro h
          obtain ⟨e, h⟩ := (h2 m j).mp h
          rw [ho] at e
          cases e
          exact absurd hl h
        · rintro ⟨h, -⟩; cases h
      · by_cases hj : j = i
        · subst hj; simpa [hm] using h2 m j
        · simpa [hm, hj] using h2 m j
  | @access _ r f k k' hk =>
    simp only at hs
    cases hs
    refine ⟨[i], { d with store := Function.update d.store r (f (d.store r)), code := Function.update d.code i (k' (d.store r)) }, ?_,
      ⟨?_, G, ?_, h2⟩, by simp⟩
    · simp [run, Conc.step, hq]
    · simp only [h0]
    · have := hother (k (c.store r)) (k' (d.store r)) (G i) (by rw [h0]; exact hk _)
      simpa using this

theorem run_append (c : Config ι R L V ρ) (τ τ' : List ι) : run c (τ ++ τ') = (run c τ).bind fun c => run c τ' := by
  induction τ generalizing c with
  | nil => rfl
  | cons i τ ih =>
    show (Conc.step c i).bind _ = ((Conc.step c i).bind _).bind _
    cases Conc.step c i with
    | none => rfl
    | some c1 => exact ih c1

/-- Calls are linearisable if they are without mutexes that are not needed. -/
theorem linear_of_erases {s : Store R V} {code code' : ι → Prog R L V ρ} (h : ∀ i, Erases ∅ (code i) (code' i))
    (hl : ∀ τ d, run (Conc.start s code') τ = some d → Linear s code' τ d) {τ : List ι} {c : Config ι R L V ρ}
    (hr : run (Conc.start s code) τ = some c) : Linear s code τ c := by
  obtain ⟨τ', d, hd, hsh, hsub, hpre⟩ : ∃ τ' d, run (Conc.start s code') τ' = some d ∧ Shadow c d ∧ (∀ i ∈ τ', i ∈ τ) ∧
      ∀ τ₁ τ₂ c₁, τ = τ₁ ++ τ₂ → run (Conc.start s code) τ₁ = some c₁ →
        ∃ τ₁' τ₂' d₁, τ' = τ₁' ++ τ₂' ∧ run (Conc.start s code') τ₁' = some d₁ ∧ Shadow c₁ d₁ ∧ ∀ i ∈ τ₁', i ∈ τ₁ := by
    refine run_induction (P := fun τ c => ∃ τ' d, run (Conc.start s code') τ' = some d ∧ Shadow c d ∧ (∀ i ∈ τ', i ∈ τ) ∧
      ∀ τ₁ τ₂ c₁, τ = τ₁ ++ τ₂ → run (Conc.start s code) τ₁ = some c₁ →
        ∃ τ₁' τ₂' d₁, τ' = τ₁' ++ τ₂' ∧ run (Conc.start s code') τ₁' = some d₁ ∧ Shadow c₁ d₁ ∧ ∀ i ∈ τ₁', i ∈ τ₁) ?_ ?_ hr
    · have h0 : Shadow (Conc.start s code) (Conc.start s code') := ⟨rfl, fun _ => ∅, h, by simp [Conc.start]⟩
      refine ⟨[], Conc.start s code', rfl, h0, by simp, ?_⟩
      intro τ₁ τ₂ c₁ e h1
      obtain ⟨rfl, rfl⟩ := List.append_eq_nil_iff.mp e.symm
      cases h1
      exact ⟨[], [], _, rfl, rfl, h0, by simp⟩
    · rintro τ c i c' hrun ⟨τ', d, hd, hsh, hsub, hpre⟩ hst
      obtain ⟨δ, d', g1, g2, g3⟩ := hsh.step hst
      have hrun' : run (Conc.start s code') (τ' ++ δ) = some d' := by
        rw [run_append, hd]; exact g1
      have hsub' : ∀ j ∈ τ' ++ δ, j ∈ τ ++ [i] := by
        intro j hj
        rcases List.mem_append.mp hj with hj | hj
        · simp [hsub j hj]
        · simp [g3 j hj]
      refine ⟨τ' ++ δ, d', hrun', g2, hsub', ?_⟩
      intro τ₁ τ₂ c₁ e h1
      rcases List.eq_nil_or_concat τ₂ with rfl | ⟨τ₃, a, rfl⟩
      · rw [List.append_nil] at e
        subst e
        rw [run_snoc, hrun] at h1
        have : c' = c₁ := by
          have h2 : Conc.step c i = some c₁ := h1
          rw [hst] at h2
          exact Option.some.inj h2
        subst this
        exact ⟨τ' ++ δ, [], d', by simp, hrun', g2, hsub'⟩
      · rw [List.concat_eq_append, ← List.append_assoc] at e
        obtain ⟨e1, -⟩ := List.append_inj' e rfl
        obtain ⟨τ₁', τ₂', d₁, k1, k2, k3, k4⟩ := hpre τ₁ τ₃ c₁ e1 h1
        exact ⟨τ₁', τ₂' ++ δ, d₁, by rw [k1, List.append_assoc], k2, k3, k4⟩
  have hal : ∀ i t, alone (code i) t = alone (code' i) t := fun i t => (h i).alone t
  have hse : ∀ t order, serial code t order = serial code' t order := by
    intro t order
    simp only [serial, hal]
  obtain ⟨order, k1, k2, k3, k4, k5, k6⟩ := hl τ' d hd
  refine ⟨order, k1, fun i hi => hsub i (k2 i hi), ?_, ?_, ?_, ?_⟩
  · rintro i ⟨x, hx⟩
    exact k3 i ⟨x, hsh.returned hx⟩
  · intro before i after x e hx
    rw [hal, hse]
    exact k4 before i after x e (hsh.returned hx)
  · intro τ₁ τ₂ c₁ e h1
    obtain ⟨τ₁', τ₂', d₁, g1, g2, g3, g4⟩ := hpre τ₁ τ₂ c₁ e h1
    obtain ⟨first, f1, f2, f3⟩ := k5 τ₁' τ₂' d₁ g1 g2
    exact ⟨first, f1, fun i ⟨x, hx⟩ => f2 i ⟨x, g3.returned hx⟩, fun i hi => g4 i (f3 i hi)⟩
  · intro hall
    rw [hse, hsh.1]
    exact k6 fun i hi => by
      obtain ⟨x, hx⟩ := hall i (hsub i hi)
      exact ⟨x, hsh.returned hx⟩

/-- Without the mutex `l`, which it holds, until it is released. -/
def undrop (l : L) : Prog R L V ρ → Prog R L V ρ
  | .ret x => .ret x
  | .acquire m k => if m = l then undrop l k else .acquire m (undrop l k)
  | .release m k => if m = l then k else .release m (undrop l k)
  | .access r f k => .access r f fun v => undrop l (k v)

theorem erases_undrop (l : L) (p : Prog R L V ρ) : Erases {l} p (undrop l p) := by
  induction p with
  | ret x => exact .ret x
  | acquire m k ih =>
    unfold undrop
    split_ifs with h
    · subst h
      refine .drop ?_
      rwa [Set.insert_eq_of_mem (Set.mem_singleton _)]
    · exact .acquire h ih
  | release m k ih =>
    unfold undrop
    split_ifs with h
    · subst h
      refine .undrop rfl ?_
      rw [sdiff_self]
      exact .refl k
    · exact .release h ih
  | access r f k ih => exact .access ih

theorem erases_first (l : L) (p : Prog R L V ρ) : Erases ∅ (.acquire l p) (undrop l p) := by
  refine .drop ?_
  rw [insert_empty_eq]
  exact erases_undrop l p

end Uni.Conc
