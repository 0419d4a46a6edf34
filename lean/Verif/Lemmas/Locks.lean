import Verif.Spec.Locks
import Mathlib.Data.List.Infix
import Mathlib.Tactic.Tauto

/-! # Two-phase locking: the calls take effect when they begin to release -/

set_option autoImplicit false
set_option linter.unusedSectionVars false

namespace Uni.Conc
open Spec
variable {ι R L : Type} {V : R → Type} {ρ : Type} [DecidableEq ι] [DecidableEq R] [DecidableEq L]

/-- The mutexes that call `i` holds. -/
def held (c : Config ι R L V ρ) (i : ι) : Set L := {l | c.owner l = some i}

/-- A shrinking call sees and changes only the objects it still protects. -/
theorem frame {guard : R → L} (p : Prog R L V ρ) {H : Set L} {sh : Prop} (h : TwoPhase guard H sh p) (hs : sh) (s s' : Store R V)
    (e : ∀ r, guard r ∈ H → s r = s' r) :
    (alone p s).1 = (alone p s').1 ∧ (∀ r, guard r ∈ H → (alone p s).2 r = (alone p s').2 r) ∧
      ∀ r, guard r ∉ H → (alone p s).2 r = s r := by
  induction p generalizing H sh s s' with
  | ret x => exact ⟨rfl, e, fun _ _ => rfl⟩
  | acquire l k ih =>
    obtain ⟨-, h2, h3⟩ := h
    have hl : ∀ r, guard r ≠ l := fun r hr => h2 ⟨r, hr⟩ hs
    have hi : ∀ r, guard r ∈ insert l H ↔ guard r ∈ H := fun r => by simp [hl r]
    obtain ⟨a1, a2, a3⟩ := ih h3 hs s s' (fun r hr => e r ((hi r).mp hr))
    exact ⟨a1, fun r hr => a2 r ((hi r).mpr hr), fun r hr => a3 r (fun h => hr ((hi r).mp h))⟩
  | release l k ih =>
    obtain ⟨-, h2⟩ := h
    obtain ⟨a1, a2, a3⟩ := ih h2 (Or.inl hs) s s' (fun r hr => e r hr.1)
    obtain ⟨-, -, b3⟩ := ih h2 (Or.inl hs) s' s (fun r hr => (e r hr.1).symm)
    refine ⟨a1, fun r hr => ?_, fun r hr => a3 r (fun h => hr h.1)⟩
    by_cases hg : guard r ∈ H \ {l}
    · exact a2 r hg
    · show (alone k s).2 r = (alone k s').2 r
      rw [a3 r hg, b3 r hg]
      exact e r hr
  | access r f k ih =>
    obtain ⟨h1, h2⟩ := h
    have er := e r h1
    have hu : ∀ q, guard q ∈ H → Function.update s r (f (s r)) q = Function.update s' r (f (s' r)) q := by
      intro q hq
      by_cases hqr : q = r
      · subst hqr; simp [er]
      · simp [hqr, e q hq]
    have := ih (s r) (h2 (s r)) hs _ _ hu
    obtain ⟨a1, a2, a3⟩ := this
    simp only [alone]
    rw [← er]
    rw [← er] at a1 a2
    refine ⟨a1, a2, fun q hq => ?_⟩
    rw [a3 q hq]
    have : q ≠ r := fun hqr => hq (hqr ▸ h1)
    simp [this]

/-- The objects protected by `H` are as they are, the others as before. -/
def mix (guard : R → L) (H : Set L) [DecidablePred (· ∈ H)] (s b : Store R V) : Store R V :=
  fun r => if guard r ∈ H then s r else b r

open Classical in
/-- What is true while two-phase calls run: `order` are the calls that have begun to release. -/
structure Inv (guard : R → L) (code : ι → Prog R L V ρ) (s : Store R V) (c : Config ι R L V ρ) (order : List ι) : Prop where
  nodup : order.Nodup
  free : ∀ r, c.owner (guard r) = none → serial code s order r = c.store r
  growing : ∀ i, i ∉ order → (∃ sh : Prop, ¬ sh ∧ TwoPhase guard (held c i) sh (c.code i)) ∧
    ∀ b : Store R V, (∀ r, guard r ∈ held c i → b r = serial code s order r) →
      alone (code i) b = alone (c.code i) (mix guard (held c i) c.store b)
  committed : ∀ i, i ∈ order → (∃ sh : Prop, sh ∧ TwoPhase guard (held c i) sh (c.code i)) ∧
    (∀ before after, order = before ++ i :: after → (alone (code i) (serial code s before)).1 = (alone (c.code i) c.store).1) ∧
    ∀ r, guard r ∈ held c i → (alone (c.code i) c.store).2 r = serial code s order r

theorem Inv.start {guard : R → L} {code : ι → Prog R L V ρ} (h : ∀ i, TwoPhase guard ∅ False (code i)) (s : Store R V) :
    Inv guard code s (start s code) [] := by
  have hh : ∀ i, held (Conc.start s code) i = ∅ := by
    intro i
    ext l
    simp [held, Conc.start]
  refine ⟨List.nodup_nil, fun _ _ => rfl, fun i _ => ⟨⟨False, not_false, ?_⟩, ?_⟩, fun i hi => by cases hi⟩
  · rw [hh]; exact h i
  · intro b _
    show alone (code i) b = alone (code i) _
    congr 1
    funext r
    simp [mix, hh]

theorem serial_append (code : ι → Prog R L V ρ) (s : Store R V) (o o' : List ι) :
    serial code s (o ++ o') = serial code (serial code s o) o' := by
  simp [serial, List.foldl_append]

/-- The call that does not move, when the one that moves does not begin to release. -/
theorem Inv.others {guard : R → L} {code : ι → Prog R L V ρ} {s : Store R V} {c c' : Config ι R L V ρ} {order : List ι}
    (h : Inv guard code s c order) {j : ι} (hc : c'.code j = c.code j) (hh : held c' j = held c j)
    (hs : ∀ r, guard r ∈ held c j → c'.store r = c.store r) :
    (j ∉ order → (∃ sh : Prop, ¬ sh ∧ TwoPhase guard (held c' j) sh (c'.code j)) ∧
      ∀ b : Store R V, (∀ r, guard r ∈ held c' j → b r = serial code s order r) →
        alone (code j) b = alone (c'.code j) (open Classical in mix guard (held c' j) c'.store b)) ∧
    (j ∈ order → (∃ sh : Prop, sh ∧ TwoPhase guard (held c' j) sh (c'.code j)) ∧
      (∀ before after, order = before ++ j :: after → (alone (code j) (serial code s before)).1 = (alone (c'.code j) c'.store).1) ∧
      ∀ r, guard r ∈ held c' j → (alone (c'.code j) c'.store).2 r = serial code s order r) := by
  classical
  rw [hc]
  constructor
  · intro hj
    obtain ⟨h1, h2⟩ := h.growing j hj
    refine ⟨by rw [hh]; exact h1, fun b hb => ?_⟩
    rw [h2 b (by rw [← hh]; exact hb)]
    congr 1
    funext r
    simp only [mix, hh]
    split_ifs with hr
    · exact (hs r hr).symm
    · rfl
  · intro hj
    obtain ⟨⟨sh, h0, h1⟩, h2, h3⟩ := h.committed j hj
    obtain ⟨f1, f2, -⟩ := frame _ h1 h0 c'.store c.store hs
    refine ⟨⟨sh, h0, by rw [hh]; exact h1⟩, fun b a e => by rw [f1]; exact h2 b a e, fun r hr => ?_⟩
    rw [hh] at hr
    rw [f2 r hr]
    exact h3 r hr

theorem held_acquire {c : Config ι R L V ρ} {l : L} {i : ι} (hl : c.owner l = none) (k : ι → Prog R L V ρ) (j : ι) :
    held { c with owner := Function.update c.owner l (some i), code := k } j = if j = i then insert l (held c i) else held c j := by
  ext m
  by_cases hm : m = l
  · subst hm
    by_cases hj : j = i
    · simp [held, hj]
    · simp [held, hj, hl, Ne.symm hj]
  · by_cases hj : j = i
    · simp [held, hm, hj]
    · simp [held, hm, hj]

theorem held_release {c : Config ι R L V ρ} {l : L} {i : ι} (hl : c.owner l = some i) (k : ι → Prog R L V ρ) (j : ι) :
    held { c with owner := Function.update c.owner l none, code := k } j = if j = i then held c i \ {l} else held c j := by
  ext m
  by_cases hm : m = l
  · subst hm
    by_cases hj : j = i
    · simp [held, hj]
    · simp [held, hj, hl, Ne.symm hj]
  · by_cases hj : j = i
    · simp [held, hm, hj]
    · simp [held, hm, hj]

theorem held_disjoint {c : Config ι R L V ρ} {i j : ι} (h : i ≠ j) {l : L} (hi : l ∈ held c i) : l ∉ held c j := by
  intro hj
  have hi : c.owner l = some i := hi
  have hj : c.owner l = some j := hj
  rw [hi] at hj
  exact h (Option.some.inj hj)

theorem split_unique {order before after : List ι} {i : ι} (h : i ∉ order) (e : order ++ [i] = before ++ i :: after) :
    before = order ∧ after = [] := by
  induction order generalizing before with
  | nil =>
    cases before with
    | nil => simp at e; exact ⟨rfl, e⟩
    | cons a b => simp at e
  | cons a o ih =>
    cases before with
    | nil =>
      simp at e
      exact absurd e.1.symm (by simp at h; tauto)
    | cons b t =>
      simp only [List.cons_append, List.cons.injEq] at e
      obtain ⟨rfl, e⟩ := e
      obtain ⟨h1, h2⟩ := ih (by simp at h; tauto) e
      exact ⟨by rw [h1], h2⟩

theorem split_other {order before after : List ι} {i j : ι} (hij : j ≠ i) (e : order ++ [i] = before ++ j :: after) :
    ∃ after', order = before ++ j :: after' := by
  induction order generalizing before with
  | nil =>
    cases before with
    | nil => simp at e; exact absurd e.1.symm hij
    | cons a b => simp at e
  | cons a o ih =>
    cases before with
    | nil =>
      simp only [List.cons_append, List.nil_append, List.cons.injEq] at e
      exact ⟨o, by rw [e.1]; rfl⟩
    | cons b t =>
      simp only [List.cons_append, List.cons.injEq] at e
      obtain ⟨rfl, e⟩ := e
      obtain ⟨t', ht⟩ := ih e
      exact ⟨t', by rw [ht]; rfl⟩

theorem Inv.step {guard : R → L} {code : ι → Prog R L V ρ} {s : Store R V} {c c' : Config ι R L V ρ} {order : List ι}
    (h : Inv guard code s c order) {i : ι} (hst : step c i = some c') :
    ∃ order', order <+: order' ∧ Inv guard code s c' order' ∧ ∀ j ∈ order', j ∈ order ∨ j = i := by
  classical
  unfold Conc.step at hst
  cases hcode : c.code i with
  | ret x => simp [hcode] at hst
  | access r f k =>
    simp only [hcode, Option.some.injEq] at hst
    subst hst
    refine ⟨order, List.prefix_refl _, ?_, fun j hj => Or.inl hj⟩
    set c' : Config ι R L V ρ := { c with store := Function.update c.store r (f (c.store r)), code := Function.update c.code i (k (c.store r)) } with hc'
    have hh : ∀ j, held c' j = held c j := fun j => rfl
    have hgr : guard r ∈ held c i := by
      by_cases hi : i ∈ order
      · obtain ⟨⟨sh, -, h1⟩, -⟩ := h.committed i hi
        rw [hcode] at h1
        exact h1.1
      · obtain ⟨⟨sh, -, h1⟩, -⟩ := h.growing i hi
        rw [hcode] at h1
        exact h1.1
    have hoth : ∀ j, j ≠ i → c'.code j = c.code j := fun j hj => by simp [hc', hj]
    have hst : ∀ j, j ≠ i → ∀ q, guard q ∈ held c j → c'.store q = c.store q := by
      intro j hj q hq
      have : q ≠ r := by
        rintro rfl
        exact held_disjoint (Ne.symm hj) hgr hq
      simp [hc', this]
    refine ⟨h.nodup, ?_, ?_, ?_⟩
    · intro q hq
      have : q ≠ r := by
        rintro rfl
        have hgr : c.owner (guard q) = some i := hgr
        have hq' : c.owner (guard q) = none := hq
        rw [hgr] at hq'
        cases hq'
      rw [h.free q hq]
      simp [hc', this]
    · intro j hj
      by_cases hji : j = i
      · subst hji
        obtain ⟨⟨sh, h0, h1⟩, h2⟩ := h.growing j hj
        rw [hcode] at h1 h2
        have hcj : c'.code j = k (c.store r) := by simp [hc']
        rw [hcj]
        refine ⟨⟨sh, h0, h1.2 _⟩, fun b hb => ?_⟩
        rw [h2 b hb]
        simp only [alone]
        have e : mix guard (held c j) c.store b r = c.store r := by simp [mix, hgr]
        rw [e]
        congr 1
        funext q
        by_cases hq : q = r
        · subst hq
          have e : c'.store q = f (c.store q) := by simp [hc']
          simp only [mix, hh, hgr, if_true, Function.update_self, e]
        · have e : c'.store q = c.store q := by simp [hc', hq]
          simp only [mix, hh, e, Function.update_of_ne hq]
      · exact (h.others (hoth j hji) (hh j) (hst j hji)).1 hj
    · intro j hj
      by_cases hji : j = i
      · subst hji
        obtain ⟨⟨sh, h0, h1⟩, h2, h3⟩ := h.committed j hj
        rw [hcode] at h1 h2 h3
        have hcj : c'.code j = k (c.store r) := by simp [hc']
        rw [hcj]
        exact ⟨⟨sh, h0, h1.2 _⟩, h2, h3⟩
      · exact (h.others (hoth j hji) (hh j) (hst j hji)).2 hj
  | acquire l k =>
    simp only [hcode] at hst
    split_ifs at hst with hl
    simp only [Option.some.injEq] at hst
    subst hst
    refine ⟨order, List.prefix_refl _, ?_, fun j hj => Or.inl hj⟩
    set c' : Config ι R L V ρ := { c with owner := Function.update c.owner l (some i), code := Function.update c.code i k } with hc'
    have hh : ∀ j, held c' j = if j = i then insert l (held c i) else held c j := held_acquire hl _
    have hci : c'.code i = k := by simp [hc']
    have hoth : ∀ j, j ≠ i → c'.code j = c.code j := fun j hj => by simp [hc', hj]
    refine ⟨h.nodup, ?_, ?_, ?_⟩
    · intro q hq
      refine h.free q ?_
      by_cases hg : guard q = l
      · simp [hc', hg] at hq
      · simpa [hc', hg] using hq
    · intro j hj
      by_cases hji : j = i
      · subst hji
        obtain ⟨⟨sh, h0, h1⟩, h2⟩ := h.growing j hj
        rw [hcode] at h1 h2
        rw [hci]
        have hhj : held c' j = insert l (held c j) := by rw [hh, if_pos rfl]
        refine ⟨⟨sh, h0, by rw [hhj]; exact h1.2.2⟩, fun b hb => ?_⟩
        rw [h2 b (fun r hr => hb r (by rw [hhj]; exact Or.inr hr))]
        simp only [alone]
        congr 1
        funext q
        simp only [mix, hhj, Set.mem_insert_iff]
        by_cases hg : guard q = l
        · have hnot : l ∉ held c j := h1.1
          simp only [hg, hnot, if_false, true_or, if_true]
          rw [hb q (by rw [hhj]; exact Or.inl hg)]
          exact h.free q (by rw [hg]; exact hl)
        · simp only [hg, false_or]; rfl
      · exact (h.others (hoth j hji) (by rw [hh, if_neg hji]) (fun _ _ => rfl)).1 hj
    · intro j hj
      by_cases hji : j = i
      · subst hji
        obtain ⟨⟨sh, h0, h1⟩, h2, h3⟩ := h.committed j hj
        rw [hcode] at h1 h2 h3
        rw [hci]
        have hhj : held c' j = insert l (held c j) := by rw [hh, if_pos rfl]
        refine ⟨⟨sh, h0, by rw [hhj]; exact h1.2.2⟩, h2, fun r hr => h3 r ?_⟩
        rw [hhj] at hr
        rcases hr with hr | hr
        · exact absurd h0 (h1.2.1 ⟨r, hr⟩)
        · exact hr
      · exact (h.others (hoth j hji) (by rw [hh, if_neg hji]) (fun _ _ => rfl)).2 hj
  | release l k =>
    simp only [hcode] at hst
    split_ifs at hst with hl
    simp only [Option.some.injEq] at hst
    subst hst
    set c' : Config ι R L V ρ := { c with owner := Function.update c.owner l none, code := Function.update c.code i k } with hc'
    have hh : ∀ j, held c' j = if j = i then held c i \ {l} else held c j := held_release hl _
    have hci : c'.code i = k := by simp [hc']
    have hhi : held c' i = held c i \ {l} := by rw [hh, if_pos rfl]
    have hoth : ∀ j, j ≠ i → c'.code j = c.code j := fun j hj => by simp [hc', hj]
    have hfree : ∀ q, c'.owner (guard q) = none → guard q = l ∨ c.owner (guard q) = none := by
      intro q hq
      by_cases hg : guard q = l
      · exact Or.inl hg
      · right; simpa [hc', hg] using hq
    have hli : l ∈ held c i := hl
    by_cases hi : i ∈ order
    · -- it had already begun to release
      obtain ⟨⟨sh, h0, h1⟩, h2, h3⟩ := h.committed i hi
      rw [hcode] at h1 h2 h3
      refine ⟨order, List.prefix_refl _, ⟨h.nodup, ?_, ?_, ?_⟩, fun j hj => Or.inl hj⟩
      · intro q hq
        rcases hfree q hq with hg | hg
        · obtain ⟨-, -, f3⟩ := frame k h1.2 (Or.inl h0) c.store c.store (fun _ _ => rfl)
          rw [← h3 q (by rw [hg]; exact hli)]
          exact f3 q (by rw [hg]; simp)
        · exact h.free q hg
      · intro j hj
        have hji : j ≠ i := fun e => hj (e ▸ hi)
        exact (h.others (hoth j hji) (by rw [hh, if_neg hji]) (fun _ _ => rfl)).1 hj
      · intro j hj
        by_cases hji : j = i
        · subst hji
          rw [hci, hhi]
          exact ⟨⟨_, Or.inl h0, h1.2⟩, h2, fun r hr => h3 r hr.1⟩
        · exact (h.others (hoth j hji) (by rw [hh, if_neg hji]) (fun _ _ => rfl)).2 hj
    · obtain ⟨⟨sh, h0, h1⟩, h2⟩ := h.growing i hi
      rw [hcode] at h1 h2
      by_cases hsig : ∃ r, guard r = l
      · -- it begins to release
        have hb := h2 (serial code s order) (fun _ _ => rfl)
        have hA : serial code s (order ++ [i]) = (alone k (mix guard (held c i) c.store (serial code s order))).2 := by
          rw [serial_append]
          show (alone (code i) (serial code s order)).2 = _
          rw [hb]
          rfl
        set A := serial code s order with hAdef
        obtain ⟨f1, f2, f3⟩ := frame k h1.2 (Or.inr hsig) (mix guard (held c i) c.store A) c.store (by
          intro r hr
          simp [mix, hr.1])
        have hout : ∀ r, guard r ∉ held c i → serial code s (order ++ [i]) r = A r := by
          intro r hr
          rw [hA, f3 r (fun h => hr h.1)]
          simp [mix, hr]
        refine ⟨order ++ [i], List.prefix_append _ _, ⟨?_, ?_, ?_, ?_⟩, ?_⟩
        · rw [List.nodup_append]
          exact ⟨h.nodup, by simp, by intro a ha b hb e; simp at hb; exact hi (hb ▸ e ▸ ha)⟩
        · intro q hq
          rcases hfree q hq with hg | hg
          · rw [hA, f3 q (by rw [hg]; simp)]
            simp only [mix, hg, hli, if_true]
            rfl
          · rw [hout q (by simp [held, hg])]
            exact h.free q hg
        · intro j hj
          have hji : j ≠ i := fun e => hj (by simp [e])
          have hjo : j ∉ order := fun e => hj (by simp [e])
          obtain ⟨g1, g2⟩ := (h.others (hoth j hji) (by rw [hh, if_neg hji]) (fun _ _ => rfl)).1 hjo
          refine ⟨g1, fun b hb => g2 b fun r hr => ?_⟩
          rw [hb r hr]
          rw [hh, if_neg hji] at hr
          exact hout r (held_disjoint hji hr)
        · intro j hj
          by_cases hji : j = i
          · subst hji
            rw [hci, hhi]
            refine ⟨⟨_, Or.inr hsig, h1.2⟩, fun before after e => ?_, fun r hr => ?_⟩
            · obtain ⟨rfl, -⟩ := split_unique hi e
              rw [hb]
              exact f1
            · rw [hA, f2 r hr]
          · have hjo : j ∈ order := by simpa [hji] using hj
            obtain ⟨g1, g2, g3⟩ := (h.others (hoth j hji) (by rw [hh, if_neg hji]) (fun _ _ => rfl)).2 hjo
            refine ⟨g1, fun before after e => ?_, fun r hr => ?_⟩
            · obtain ⟨after', e'⟩ := split_other hji e
              exact g2 before after' e'
            · rw [g3 r hr]
              rw [hh, if_neg hji] at hr
              exact (hout r (held_disjoint hji hr)).symm
        · intro j hj
          simpa using hj
      · -- a mutex that protects nothing
        have hg : ∀ r, guard r ≠ l := fun r hr => hsig ⟨r, hr⟩
        refine ⟨order, List.prefix_refl _, ⟨h.nodup, ?_, ?_, ?_⟩, fun j hj => Or.inl hj⟩
        · intro q hq
          rcases hfree q hq with hq | hq
          · exact absurd hq (hg q)
          · exact h.free q hq
        · intro j hj
          by_cases hji : j = i
          · subst hji
            rw [hci, hhi]
            refine ⟨⟨_, by rintro (h | h); exacts [h0 h, hsig h], h1.2⟩, fun b hb => ?_⟩
            rw [h2 b (fun r hr => hb r ⟨hr, hg r⟩)]
            simp only [alone]
            congr 1
            funext q
            simp [mix, hg q, hc']
          · exact (h.others (hoth j hji) (by rw [hh, if_neg hji]) (fun _ _ => rfl)).1 hj
        · intro j hj
          have hji : j ≠ i := fun e => hi (e ▸ hj)
          exact (h.others (hoth j hji) (by rw [hh, if_neg hji]) (fun _ _ => rfl)).2 hj

theorem run_snoc (c : Config ι R L V ρ) (τ : List ι) (i : ι) : run c (τ ++ [i]) = (run c τ).bind fun c => Conc.step c i := by
  induction τ generalizing c with
  | nil =>
    show (Conc.step c i).bind (fun c => run c []) = (some c).bind fun c => Conc.step c i
    cases h : Conc.step c i <;> simp [h, run]
  | cons a τ ih =>
    show (Conc.step c a).bind _ = ((Conc.step c a).bind _).bind _
    cases Conc.step c a with
    | none => rfl
    | some c1 => exact ih c1

/-- Induction over what has happened. -/
theorem run_induction {s : Store R V} {code : ι → Prog R L V ρ} {P : List ι → Config ι R L V ρ → Prop} (h0 : P [] (Conc.start s code))
    (hs : ∀ τ c i c', run (Conc.start s code) τ = some c → P τ c → Conc.step c i = some c' → P (τ ++ [i]) c')
    {τ : List ι} {c : Config ι R L V ρ} (h : run (Conc.start s code) τ = some c) : P τ c := by
  induction τ using List.reverseRecOn generalizing c with
  | nil => cases h; exact h0
  | append_singleton τ i ih =>
    rw [run_snoc] at h
    cases e : run (Conc.start s code) τ with
    | none => simp [e] at h
    | some c1 =>
      rw [e] at h
      exact hs τ c1 i c e (ih e) h

/-- Who holds a mutex has done something. -/
theorem owner_mem {s : Store R V} {code : ι → Prog R L V ρ} {τ : List ι} {c : Config ι R L V ρ} (h : run (Conc.start s code) τ = some c) :
    ∀ l i, c.owner l = some i → i ∈ τ := by
  refine run_induction (P := fun τ c => ∀ l i, c.owner l = some i → i ∈ τ) ?_ ?_ h
  · intro l i h
    cases h
  · intro τ c i c' _ ih hst l j hj
    unfold Conc.step at hst
    split at hst
    · cases hst
    · split_ifs at hst
      cases hst
      rename_i m k _ _
      by_cases hl : l = m
      · simp [hl] at hj; simp [hj]
      · simp [hl] at hj; simp [ih l j hj]
    · split_ifs at hst
      cases hst
      rename_i m k _ _
      by_cases hl : l = m
      · simp [hl] at hj
      · simp [hl] at hj; simp [ih l j hj]
    · cases hst
      simp [ih l j hj]

/-- Two-phase calls are linearisable. -/
theorem linear_of_twoPhase {guard : R → L} {s : Store R V} {code : ι → Prog R L V ρ} (h : ∀ i, TwoPhase guard ∅ False (code i))
    {τ : List ι} {c : Config ι R L V ρ} (hr : run (Conc.start s code) τ = some c) : Linear s code τ c := by
  have hret : ∀ {c : Config ι R L V ρ} {order : List ι}, Inv guard code s c order → ∀ i, Returned c i → i ∈ order := by
    rintro c order hi i ⟨x, hx⟩
    by_contra hn
    obtain ⟨⟨sh, h0, h1⟩, -⟩ := hi.growing i hn
    rw [hx] at h1
    exact h0 h1.1
  obtain ⟨order, hinv, hsub, hpre⟩ : ∃ order, Inv guard code s c order ∧ (∀ i ∈ order, i ∈ τ) ∧
      ∀ τ₁ τ₂ c₁, τ = τ₁ ++ τ₂ → run (Conc.start s code) τ₁ = some c₁ →
        ∃ first, first <+: order ∧ (∀ i, Returned c₁ i → i ∈ first) ∧ ∀ i ∈ first, i ∈ τ₁ := by
    refine run_induction (P := fun τ c => ∃ order, Inv guard code s c order ∧ (∀ i ∈ order, i ∈ τ) ∧
      ∀ τ₁ τ₂ c₁, τ = τ₁ ++ τ₂ → run (Conc.start s code) τ₁ = some c₁ →
        ∃ first, first <+: order ∧ (∀ i, Returned c₁ i → i ∈ first) ∧ ∀ i ∈ first, i ∈ τ₁) ?_ ?_ hr
    · refine ⟨[], Inv.start h s, (fun i hi => by cases hi), ?_⟩
      intro τ₁ τ₂ c₁ e h1
      obtain ⟨rfl, rfl⟩ := List.append_eq_nil_iff.mp e.symm
      cases h1
      exact ⟨[], List.prefix_refl _, hret (Inv.start h s), fun i hi => by cases hi⟩
    · rintro τ c i c' hrun ⟨order, hinv, hsub, hpre⟩ hst
      obtain ⟨order', hp, hinv', hmem⟩ := hinv.step hst
      have hsub' : ∀ j ∈ order', j ∈ τ ++ [i] := by
        intro j hj
        rcases hmem j hj with hj | hj
        · simp [hsub j hj]
        · simp [hj]
      refine ⟨order', hinv', hsub', ?_⟩
      intro τ₁ τ₂ c₁ e h1
      rcases List.eq_nil_or_concat τ₂ with rfl | ⟨τ₃, a, rfl⟩
      · rw [List.append_nil] at e
        subst e
        rw [run_snoc, hrun] at h1
        have : c' = c₁ := by
          have h2 : Conc.step c i = some c₁ := h1
          rw [hst] at h2
          exact Option.some.inj h2
        subst this
        exact ⟨order', List.prefix_refl _, hret hinv', hsub'⟩
      · rw [List.concat_eq_append, ← List.append_assoc] at e
        obtain ⟨e1, -⟩ := List.append_inj' e rfl
        obtain ⟨first, f1, f2, f3⟩ := hpre τ₁ τ₃ c₁ e1 h1
        exact ⟨first, f1.trans hp, f2, f3⟩
  refine ⟨order, hinv.nodup, hsub, hret hinv, ?_, hpre, ?_⟩
  · intro before i after x e hx
    obtain ⟨-, h2, -⟩ := hinv.committed i (by rw [e]; simp)
    rw [h2 before after e, hx]
    rfl
  · intro hall
    funext r
    refine (hinv.free r ?_).symm
    cases ho : c.owner (guard r) with
    | none => rfl
    | some i =>
      exfalso
      obtain ⟨x, hx⟩ := hall i (owner_mem hr _ _ ho)
      obtain ⟨⟨sh, -, h1⟩, -⟩ := hinv.committed i (hret hinv i ⟨x, hx⟩)
      rw [hx] at h1
      exact h1.2 r ho

/-- A property of the code and of the mutexes held that every operation keeps. -/
theorem run_code {P : Set L → Prog R L V ρ → Prop} (ha : ∀ H l k, P H (.acquire l k) → P (insert l H) k)
    (hr : ∀ H l k, P H (.release l k) → P (H \ {l}) k) (hac : ∀ H r f k, P H (.access r f k) → ∀ v, P H (k v))
    {s : Store R V} {code : ι → Prog R L V ρ} (h : ∀ i, P ∅ (code i)) {τ : List ι} {c : Config ι R L V ρ}
    (hrun : run (Conc.start s code) τ = some c) : ∀ i, P (held c i) (c.code i) := by
  refine run_induction (P := fun _ c => ∀ i, P (held c i) (c.code i)) ?_ ?_ hrun
  · intro i
    have : held (Conc.start s code) i = ∅ := by
      ext l
      simp [held, Conc.start]
    rw [this]
    exact h i
  · intro τ c i c' _ ih hst j
    have hi := ih i
    unfold Conc.step at hst
    cases hcode : c.code i with
    | ret x => simp [hcode] at hst
    | acquire l k =>
      simp only [hcode] at hst
      split_ifs at hst with hl
      cases hst
      rw [held_acquire hl]
      by_cases hj : j = i
      · subst hj
        rw [hcode] at hi
        simpa using ha _ _ _ hi
      · simpa [hj] using ih j
    | release l k =>
      simp only [hcode] at hst
      split_ifs at hst with hl
      cases hst
      rw [held_release hl]
      by_cases hj : j = i
      · subst hj
        rw [hcode] at hi
        simpa using hr _ _ _ hi
      · simpa [hj] using ih j
    | access r f k =>
      simp only [hcode] at hst
      cases hst
      show P (held c j) _
      by_cases hj : j = i
      · subst hj
        rw [hcode] at hi
        simpa using hac _ _ _ _ hi (c.store r)
      · simpa [hj] using ih j

/-- Guarded calls do not race. -/
theorem no_race {guard : R → L} {s : Store R V} {code : ι → Prog R L V ρ} (h : ∀ i, Guarded guard ∅ (code i)) {τ : List ι}
    {c : Config ι R L V ρ} (hrun : run (Conc.start s code) τ = some c) : ¬ Race c := by
  have hg := run_code (P := Guarded guard) (fun _ _ _ h => h) (fun _ _ _ h => h) (fun _ _ _ _ h => h.2) h hrun
  rintro ⟨i, j, r, f, k, g, m, hij, h1, h2, -⟩
  have a := hg i
  have b := hg j
  rw [h1] at a
  rw [h2] at b
  exact held_disjoint hij a.1 b.1

/-- Calls that acquire the mutexes in order do not block each other. -/
theorem no_deadlock {rank : L → Nat} {n : Nat} (hn : ∀ l, rank l < n) {s : Store R V} {code : ι → Prog R L V ρ}
    (h : ∀ i, Ordered rank ∅ (code i)) {τ : List ι} {c : Config ι R L V ρ} (hrun : run (Conc.start s code) τ = some c) :
    ¬ Deadlock c := by
  have ho := run_code (P := Ordered rank) (fun _ _ _ h => h.2) (fun _ _ _ h => h.2) (fun _ _ _ _ h => h) h hrun
  rintro ⟨⟨i, hi⟩, hstuck⟩
  -- who is stuck waits for a mutex
  have wait : ∀ i, ¬ Returned c i → ∃ l k j, c.code i = .acquire l k ∧ c.owner l = some j := by
    intro i hi
    have hs := hstuck i
    have hoi := ho i
    unfold Conc.step at hs
    cases hcode : c.code i with
    | ret x => exact absurd ⟨x, hcode⟩ hi
    | acquire l k =>
      simp only [hcode] at hs
      split_ifs at hs with hl
      obtain ⟨j, hj⟩ := Option.ne_none_iff_exists'.mp hl
      exact ⟨l, k, j, rfl, hj⟩
    | release l k =>
      rw [hcode] at hoi
      simp only [hcode] at hs
      have : c.owner l = some i := hoi.1
      simp [this] at hs
    | access r f k => simp [hcode] at hs
  -- and its owner for one of higher rank
  have climb : ∀ m i l k, c.code i = .acquire l k → c.owner l ≠ none → n ≤ rank l + m → False := by
    intro m
    induction m with
    | zero =>
      intro i l k _ _ hr
      have := hn l
      omega
    | succ m ih =>
      intro i l k _ hl hr
      obtain ⟨j, hj⟩ := Option.ne_none_iff_exists'.mp hl
      have hnr : ¬ Returned c j := by
        rintro ⟨x, hx⟩
        have := ho j
        rw [hx] at this
        exact this l hj
      obtain ⟨l', k', j', e1, e2⟩ := wait j hnr
      have := ho j
      rw [e1] at this
      have hlt := this.1 l hj
      exact ih j l' k' e1 (by rw [e2]; simp) (by omega)
  obtain ⟨l, k, j, e1, e2⟩ := wait i hi
  exact climb n i l k e1 (by rw [e2]; simp) (by omega)

end Uni.Conc
