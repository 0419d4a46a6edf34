import Verif.Spec.Shared

/-! # C103: which footprints are independent of each other -/

set_option autoImplicit false
set_option linter.unusedSectionVars false

namespace Uni.Shared
open Spec
variable {K : Type*} [Field K] [LinearOrder K]

private theorem run_name (fp : FootPrint K) (op : FootPrint.Op K) : (fp.run op).2.footName = fp.footName := by
  cases op <;> simp only [FootPrint.run, FootPrint.addStep, FootPrint.addStepRaw, FootPrint.dropPastSteps,
    FootPrint.keepOnlyPresentStep, FootPrint.clearSteps, FootPrint.clearLastStep] <;> (repeat' split) <;> rfl

private theorem value_some {lists : List (List (Step K))} {objs : List Obj} {i a : Nat} {o : Obj} {l : List (Step K)}
    (h : objs[i]? = some o) (ha : o.list = some a) (hl : lists[a]? = some l) :
    (Store.mk lists objs).value i = some ⟨l, o.footName⟩ := by
  simp only [Store.value, h, ha, hl]

private theorem value_inv {s : Store K} {i : Nat} {fp : FootPrint K} (h : s.value i = some fp) :
    ∃ o a, s.objs[i]? = some o ∧ o.list = some a ∧ s.lists[a]? = some fp.steps ∧ fp.footName = o.footName := by
  unfold Store.value at h
  split at h
  · exact absurd h (by simp)
  · rename_i o ho
    split at h
    · exact absurd h (by simp)
    · rename_i a ha
      split at h
      · exact absurd h (by simp)
      · rename_i l hl
        cases h
        exact ⟨o, a, ho, ha, hl, rfl⟩

private theorem get_set {α : Type*} (l : List α) (i j : Nat) (x y : α) (h : (l.set i x)[j]? = some y) :
    (i = j ∧ y = x) ∨ (i ≠ j ∧ l[j]? = some y) := by
  rw [List.getElem?_set] at h
  split at h
  · rename_i e
    split at h
    · cases h; exact .inl ⟨e, rfl⟩
    · exact absurd h (by simp)
  · rename_i e
    exact .inr ⟨e, h⟩

private theorem set_ne {α : Type*} (l : List α) (i j : Nat) (x : α) (h : i ≠ j) : (l.set i x)[j]? = l[j]? := by
  rw [List.getElem?_set, if_neg h]

private theorem set_eq {α : Type*} (l : List α) (i : Nat) (x y : α) (h : l[i]? = some y) : (l.set i x)[i]? = some x := by
  have hi : i < l.length := by
    by_contra hc
    rw [List.getElem?_eq_none (by omega)] at h
    cases h
  rw [List.getElem?_set, if_pos rfl, if_pos hi]

private theorem get_append {α : Type*} (l : List α) (x y : α) (j : Nat) (h : (l ++ [x])[j]? = some y) :
    l[j]? = some y ∨ (j = l.length ∧ y = x) := by
  rw [List.getElem?_append] at h
  split at h
  · exact .inl h
  · rename_i hj
    rcases Nat.eq_zero_or_pos (j - l.length) with e | e
    · rw [e] at h
      simp only [List.getElem?_cons_zero, Option.some.injEq] at h
      exact .inr ⟨by omega, h.symm⟩
    · rw [List.getElem?_eq_none (by simp; omega)] at h
      cases h

private theorem append_get {α : Type*} (l : List α) (x y : α) (j : Nat) (h : l[j]? = some y) : (l ++ [x])[j]? = some y := by
  have hi : j < l.length := by
    by_contra hc
    rw [List.getElem?_eq_none (by omega)] at h
    cases h
  rw [List.getElem?_append_left hi, h]

/-- One command that does not touch the object or its list behind its back. -/
private theorem discreet_step (sort : List (Step K) → List (Step K)) {s s' : Store K} {i a : Nat} {fp : FootPrint K}
    {c : Cmd K} {b : Bool} (hs : Sound s) (ho : Owns s i a) (hv : s.value i = some fp) (hc : Discreet i a c)
    (he : s.exec sort c = .done b s') :
    Sound s' ∧ Owns s' i a ∧ s'.value i = some (alone i fp [c]) := by
  obtain ⟨⟨o, h1, h2⟩, h3⟩ := ho
  have hal : a < s.lists.length := hs i a ⟨o, h1, h2⟩
  have hl : s.lists[a]? = some fp.steps ∧ fp.footName = o.footName := by
    obtain ⟨o', a', e1, e2, e3, e4⟩ := value_inv hv
    rw [h1] at e1; cases e1
    rw [h2] at e2; cases e2
    exact ⟨e3, e4⟩
  have hfp : (⟨fp.steps, o.footName⟩ : FootPrint K) = fp := by rw [← hl.2]
  cases c with
  | new =>
    simp only [Store.exec, Result.done.injEq] at he
    obtain ⟨-, rfl⟩ := he
    refine ⟨?_, ⟨⟨o, append_get _ _ _ _ h1, h2⟩, ?_⟩, ?_⟩
    · rintro j x ⟨o', e1, e2⟩
      simp only [List.length_append, List.length_cons, List.length_nil]
      rcases get_append _ _ _ _ e1 with e | ⟨-, rfl⟩
      · have := hs j x ⟨o', e, e2⟩
        omega
      · simp only [Option.some.injEq] at e2
        omega
    · rintro j ⟨o', e1, e2⟩
      rcases get_append _ _ _ _ e1 with e | ⟨-, rfl⟩
      · exact h3 j ⟨o', e, e2⟩
      · simp only [Option.some.injEq] at e2
        omega
    · rw [value_some (append_get _ _ _ _ h1) h2 (append_get _ _ _ _ hl.1), hfp]
      rfl
  | alloc l =>
    simp only [Store.exec, Result.done.injEq] at he
    obtain ⟨-, rfl⟩ := he
    refine ⟨?_, ⟨⟨o, h1, h2⟩, h3⟩, ?_⟩
    · intro j x h
      have := hs j x h
      simp only [List.length_append, List.length_cons, List.length_nil]
      omega
    · rw [value_some h1 h2 (append_get _ _ _ _ hl.1), hfp]
      rfl
  | wrap w =>
    cases w with
    | none => simp only [Store.exec] at he; cases he
    | some x =>
      have hx : x ≠ a := fun e => hc (by rw [e])
      simp only [Store.exec] at he
      split at he
      · cases he
      · rename_i l hl'
        simp only [Result.done.injEq] at he
        obtain ⟨-, rfl⟩ := he
        have hxl : x < s.lists.length := by
          by_contra hc'
          rw [List.getElem?_eq_none (by omega)] at hl'
          cases hl'
        refine ⟨?_, ⟨⟨o, append_get _ _ _ _ h1, h2⟩, ?_⟩, ?_⟩
        · rintro j y ⟨o', e1, e2⟩
          simp only [List.length_set]
          rcases get_append _ _ _ _ e1 with e | ⟨-, rfl⟩
          · exact hs j y ⟨o', e, e2⟩
          · simp only [Option.some.injEq] at e2
            omega
        · rintro j ⟨o', e1, e2⟩
          rcases get_append _ _ _ _ e1 with e | ⟨-, rfl⟩
          · exact h3 j ⟨o', e, e2⟩
          · simp only [Option.some.injEq] at e2
            exact absurd e2 hx
        · have e : (s.lists.set x (sort l))[a]? = some fp.steps := by rw [set_ne _ _ _ _ hx, hl.1]
          rw [value_some (append_get _ _ _ _ h1) h2 e, hfp]
          rfl
  | copy j =>
    simp only [Discreet] at hc
    simp only [Store.exec] at he
    split at he
    · cases he
    · rename_i o' ho'
      simp only [Result.done.injEq] at he
      obtain ⟨-, rfl⟩ := he
      refine ⟨?_, ⟨⟨o, append_get _ _ _ _ h1, h2⟩, ?_⟩, ?_⟩
      · rintro k x ⟨p, e1, e2⟩
        rcases get_append _ _ _ _ e1 with e | ⟨-, rfl⟩
        · exact hs k x ⟨p, e, e2⟩
        · exact hs j x ⟨_, ho', e2⟩
      · rintro k ⟨p, e1, e2⟩
        rcases get_append _ _ _ _ e1 with e | ⟨-, rfl⟩
        · exact h3 k ⟨p, e, e2⟩
        · exact absurd (h3 j ⟨_, ho', e2⟩) hc
      · rw [value_some (append_get _ _ _ _ h1) h2 hl.1, hfp]
        rfl
  | assign j k =>
    simp only [Discreet] at hc
    simp only [Store.exec] at he
    split at he
    · rename_i oj ok hj hk
      simp only [Result.done.injEq] at he
      obtain ⟨-, rfl⟩ := he
      have hi : (s.objs.set j ok)[i]? = some o := by rw [set_ne _ _ _ _ hc.1, h1]
      refine ⟨?_, ⟨⟨o, hi, h2⟩, ?_⟩, ?_⟩
      · rintro m x ⟨p, e1, e2⟩
        rcases get_set _ _ _ _ _ e1 with ⟨-, rfl⟩ | ⟨-, e⟩
        · exact hs k x ⟨_, hk, e2⟩
        · exact hs m x ⟨p, e, e2⟩
      · rintro m ⟨p, e1, e2⟩
        rcases get_set _ _ _ _ _ e1 with ⟨-, rfl⟩ | ⟨-, e⟩
        · exact absurd (h3 k ⟨_, hk, e2⟩) hc.2
        · exact h3 m ⟨p, e, e2⟩
      · rw [value_some hi h2 hl.1, hfp]
        rfl
    · cases he
  | move j rest =>
    simp only [Discreet] at hc
    simp only [Store.exec] at he
    split at he
    · cases he
    · rename_i oj hj
      simp only [Result.done.injEq] at he
      obtain ⟨-, rfl⟩ := he
      have hi : (s.objs.set j ⟨none, rest⟩ ++ [oj])[i]? = some o :=
        append_get _ _ _ _ (by rw [set_ne _ _ _ _ hc, h1])
      refine ⟨?_, ⟨⟨o, hi, h2⟩, ?_⟩, ?_⟩
      · rintro m x ⟨p, e1, e2⟩
        rcases get_append _ _ _ _ e1 with e | ⟨-, rfl⟩
        · rcases get_set _ _ _ _ _ e with ⟨-, rfl⟩ | ⟨-, e'⟩
          · cases e2
          · exact hs m x ⟨p, e', e2⟩
        · exact hs j x ⟨_, hj, e2⟩
      · rintro m ⟨p, e1, e2⟩
        rcases get_append _ _ _ _ e1 with e | ⟨-, rfl⟩
        · rcases get_set _ _ _ _ _ e with ⟨-, rfl⟩ | ⟨-, e'⟩
          · cases e2
          · exact h3 m ⟨p, e', e2⟩
        · exact absurd (h3 j ⟨_, hj, e2⟩) hc
      · rw [value_some hi h2 hl.1, hfp]
        rfl
  | call j op =>
    simp only [Store.exec] at he
    split at he
    · cases he
    · rename_i oj hj
      split at he
      · rename_i hn
        have hji : j ≠ i := by
          rintro rfl
          rw [h1] at hj; cases hj
          rw [h2] at hn; cases hn
        split at he
        · simp only [Result.done.injEq] at he
          obtain ⟨-, rfl⟩ := he
          refine ⟨hs, ⟨⟨o, h1, h2⟩, h3⟩, ?_⟩
          rw [hv, alone, if_neg hji, alone]
        · cases he
      · rename_i x hx
        split at he
        · cases he
        · rename_i l hl'
          simp only [Result.done.injEq] at he
          obtain ⟨-, rfl⟩ := he
          refine ⟨?_, ⟨⟨o, h1, h2⟩, h3⟩, ?_⟩
          · intro k y h
            simp only [List.length_set]
            exact hs k y h
          · by_cases hji : j = i
            · subst hji
              rw [h1] at hj; cases hj
              rw [h2] at hx; cases hx
              rw [hl.1] at hl'; cases hl'
              rw [alone, if_pos rfl, alone, value_some h1 h2 (set_eq _ _ _ _ hl.1), hfp]
              congr 1
              ext1
              · rfl
              · change o.footName = _
                rw [run_name, hl.2]
            · have hxa : x ≠ a := by
                rintro rfl
                exact hji (h3 j ⟨oj, hj, hx⟩)
              rw [alone, if_neg hji, alone,
                value_some (l := fp.steps) h1 h2 (by rw [set_ne _ _ _ _ hxa, hl.1]), hfp]
  | setName j name =>
    simp only [Store.exec] at he
    split at he
    · cases he
    · rename_i oj hj
      simp only [Result.done.injEq] at he
      obtain ⟨-, rfl⟩ := he
      have hp : ∀ m x, PointsTo { s with objs := s.objs.set j { oj with footName := name } } m x → PointsTo s m x := by
        rintro m x ⟨p, e1, e2⟩
        rcases get_set _ _ _ _ _ e1 with ⟨rfl, rfl⟩ | ⟨-, e⟩
        · exact ⟨oj, hj, e2⟩
        · exact ⟨p, e, e2⟩
      by_cases hji : j = i
      · subst hji
        rw [h1] at hj; cases hj
        have hi : (s.objs.set j { o with footName := name })[j]? = some { o with footName := name } := set_eq _ _ _ _ h1
        refine ⟨fun m x h => hs m x (hp m x h), ⟨⟨_, hi, h2⟩, fun m h => h3 m (hp m a h)⟩, ?_⟩
        rw [value_some hi h2 hl.1, alone, if_pos rfl, alone]
        rfl
      · have hi : (s.objs.set j { oj with footName := name })[i]? = some o := by rw [set_ne _ _ _ _ hji, h1]
        refine ⟨fun m x h => hs m x (hp m x h), ⟨⟨_, hi, h2⟩, fun m h => h3 m (hp m a h)⟩, ?_⟩
        rw [value_some hi h2 hl.1, alone, if_neg hji, alone, hfp]
  | write x l =>
    simp only [Discreet] at hc
    simp only [Store.exec] at he
    split at he
    · simp only [Result.done.injEq] at he
      obtain ⟨-, rfl⟩ := he
      refine ⟨?_, ⟨⟨o, h1, h2⟩, h3⟩, ?_⟩
      · intro k y h
        simp only [List.length_set]
        exact hs k y h
      · rw [value_some (l := fp.steps) h1 h2 (by rw [set_ne _ _ _ _ hc, hl.1]), hfp]
        rfl
    · cases he

private theorem alone_cons (i : Nat) (fp : FootPrint K) (c : Cmd K) (cs : List (Cmd K)) :
    alone i fp (c :: cs) = alone i (alone i fp [c]) cs := by
  cases c <;> rfl

/-- C103 (independence): an object that is the only one to point to its list, and that is used only by its methods, is a
value: whatever else the program does with other footprints and other lists, its steps and its name are those that its own
calls make of it. -/
theorem C103_independent (sort : List (Step K) → List (Step K)) (cs : List (Cmd K)) (s s' : Store K) (i a : Nat)
    (fp : FootPrint K) (hs : Sound s) (ho : Owns s i a) (hv : s.value i = some fp) (hc : ∀ c ∈ cs, Discreet i a c)
    (he : s.execAll sort cs = some s') : s'.value i = some (alone i fp cs) ∧ Owns s' i a ∧ Sound s' := by
  induction cs generalizing s fp with
  | nil =>
    simp only [Store.execAll, Option.some.injEq] at he
    subst he
    exact ⟨hv, ho, hs⟩
  | cons c cs ih =>
    simp only [Store.execAll] at he
    split at he
    · rename_i b s1 h1
      obtain ⟨g1, g2, g3⟩ := discreet_step sort hs ho hv (hc c (by simp)) h1
      rw [alone_cons]
      exact ih s1 _ g1 g2 g3 (fun c h => hc c (by simp [h])) he
    · cases he

/-- C103 (independence, for an object made by the default constructor): it begins empty with the name `footprint`, and what
becomes of it is decided by its own calls. -/
theorem C103_fresh (sort : List (Step K) → List (Step K)) (cs : List (Cmd K)) (s s' : Store K) (hs : Sound s)
    (hc : ∀ c ∈ cs, Discreet s.objs.length s.lists.length c) (he : s.execAll sort (.new :: cs) = some s') :
    s'.value s.objs.length = some (alone s.objs.length ⟨[], "footprint"⟩ cs) := by
  simp only [Store.execAll, Store.exec] at he
  have h1 : (s.objs ++ [(⟨some s.lists.length, "footprint"⟩ : Obj)])[s.objs.length]? =
      some ⟨some s.lists.length, "footprint"⟩ := by simp
  have h2 : (s.lists ++ [([] : List (Step K))])[s.lists.length]? = some [] := by simp
  refine (C103_independent sort cs _ s' s.objs.length s.lists.length ⟨[], "footprint"⟩ ?_ ⟨⟨_, h1, rfl⟩, ?_⟩
    (value_some h1 rfl h2) hc he).1
  · rintro j x ⟨o, e1, e2⟩
    simp only [List.length_append, List.length_cons, List.length_nil]
    rcases get_append _ _ _ _ e1 with e | ⟨-, rfl⟩
    · have := hs j x ⟨o, e, e2⟩
      omega
    · simp only [Option.some.injEq] at e2
      omega
  · rintro j ⟨o, e1, e2⟩
    rcases get_append _ _ _ _ e1 with e | ⟨rfl, -⟩
    · have := hs j _ ⟨o, e, e2⟩
      omega
    · rfl

private theorem keeps_step (sort : List (Step K) → List (Step K)) {s s' : Store K} {i a : Nat} {c : Cmd K} {b : Bool}
    (hp : PointsTo s i a) (hc : Keeps i c) (he : s.exec sort c = .done b s') : PointsTo s' i a := by
  obtain ⟨o, h1, h2⟩ := hp
  cases c with
  | new =>
    simp only [Store.exec, Result.done.injEq] at he
    obtain ⟨-, rfl⟩ := he
    exact ⟨o, append_get _ _ _ _ h1, h2⟩
  | alloc l =>
    simp only [Store.exec, Result.done.injEq] at he
    obtain ⟨-, rfl⟩ := he
    exact ⟨o, h1, h2⟩
  | wrap w =>
    cases w with
    | none => simp only [Store.exec] at he; cases he
    | some x =>
      simp only [Store.exec] at he
      split at he
      · cases he
      · simp only [Result.done.injEq] at he
        obtain ⟨-, rfl⟩ := he
        exact ⟨o, append_get _ _ _ _ h1, h2⟩
  | copy j =>
    simp only [Store.exec] at he
    split at he
    · cases he
    · simp only [Result.done.injEq] at he
      obtain ⟨-, rfl⟩ := he
      exact ⟨o, append_get _ _ _ _ h1, h2⟩
  | assign j k =>
    simp only [Keeps] at hc
    simp only [Store.exec] at he
    split at he
    · simp only [Result.done.injEq] at he
      obtain ⟨-, rfl⟩ := he
      exact ⟨o, by rw [← h1]; exact set_ne _ _ _ _ hc, h2⟩
    · cases he
  | move j rest =>
    simp only [Keeps] at hc
    simp only [Store.exec] at he
    split at he
    · cases he
    · simp only [Result.done.injEq] at he
      obtain ⟨-, rfl⟩ := he
      exact ⟨o, append_get _ _ _ _ (by rw [set_ne _ _ _ _ hc, h1]), h2⟩
  | call j op =>
    simp only [Store.exec] at he
    split at he
    · cases he
    · split at he
      · split at he
        · simp only [Result.done.injEq] at he
          obtain ⟨-, rfl⟩ := he
          exact ⟨o, h1, h2⟩
        · cases he
      · split at he
        · cases he
        · simp only [Result.done.injEq] at he
          obtain ⟨-, rfl⟩ := he
          exact ⟨o, h1, h2⟩
  | setName j name =>
    simp only [Store.exec] at he
    split at he
    · cases he
    · rename_i oj hj
      simp only [Result.done.injEq] at he
      obtain ⟨-, rfl⟩ := he
      by_cases hji : j = i
      · subst hji
        rw [h1] at hj; cases hj
        exact ⟨_, set_eq _ _ _ _ h1, h2⟩
      · exact ⟨o, by rw [← h1]; exact set_ne _ _ _ _ hji, h2⟩
  | write x l =>
    simp only [Store.exec] at he
    split at he
    · simp only [Result.done.injEq] at he
      obtain ⟨-, rfl⟩ := he
      exact ⟨o, h1, h2⟩
    · cases he

private theorem keeps_all (sort : List (Step K) → List (Step K)) (cs : List (Cmd K)) (s s' : Store K) (i a : Nat)
    (hp : PointsTo s i a) (hc : ∀ c ∈ cs, Keeps i c) (he : s.execAll sort cs = some s') : PointsTo s' i a := by
  induction cs generalizing s with
  | nil =>
    simp only [Store.execAll, Option.some.injEq] at he
    subst he
    exact hp
  | cons c cs ih =>
    simp only [Store.execAll] at he
    split at he
    · rename_i b s1 h1
      exact ih s1 (keeps_step sort hp (hc c (by simp)) h1) (fun c h => hc c (by simp [h])) he
    · cases he

/-- C103 (copies): a copy of a footprint and its original have the same steps ever after, whatever is done with the two of
them or with anything else, as long as neither is assigned to or moved from; the names are their own. -/
theorem C103_copy (sort : List (Step K) → List (Step K)) (cs : List (Cmd K)) (s s' : Store K) (i a : Nat)
    (hp : PointsTo s i a) (hi : ∀ c ∈ cs, Keeps i c) (hj : ∀ c ∈ cs, Keeps s.objs.length c)
    (he : s.execAll sort (.copy i :: cs) = some s') :
    (s'.value s.objs.length).map FootPrint.steps = (s'.value i).map FootPrint.steps := by
  obtain ⟨o, h1, h2⟩ := hp
  simp only [Store.execAll, Store.exec, h1] at he
  obtain ⟨p, p1, p2⟩ := keeps_all sort cs _ s' i a ⟨o, append_get _ _ _ _ h1, h2⟩ hi he
  obtain ⟨q, q1, q2⟩ := keeps_all sort cs _ s' s.objs.length a ⟨o, by simp, h2⟩ hj he
  simp only [Store.value, p1, p2, q1, q2]
  cases s'.lists[a]? <;> rfl

/-- C103 (copies, one call): a call on one of two objects that share a list does to the steps of the other what it would do if
the other had the name of the first; the name of the other stays. -/
theorem C103_call (sort : List (Step K) → List (Step K)) (s : Store K) (i j a : Nat) (op : FootPrint.Op K)
    (x y : FootPrint K) (hi : PointsTo s i a) (hj : PointsTo s j a) (vi : s.value i = some x) (vj : s.value j = some y) :
    ∃ s', s.exec sort (.call j op) = .done (y.run op).1 s' ∧
      s'.value i = some ⟨((⟨x.steps, y.footName⟩ : FootPrint K).run op).2.steps, x.footName⟩ := by
  obtain ⟨o, h1, h2⟩ := hi
  obtain ⟨p, p1, p2⟩ := hj
  obtain ⟨o', a', e1, e2, e3, e4⟩ := value_inv vi
  rw [h1] at e1; cases e1
  rw [h2] at e2; cases e2
  obtain ⟨p', a', f1, f2, f3, f4⟩ := value_inv vj
  rw [p1] at f1; cases f1
  rw [p2] at f2; cases f2
  have hxy : x.steps = y.steps := Option.some.inj (e3.symm.trans f3)
  have hy : (⟨y.steps, p.footName⟩ : FootPrint K) = y := by rw [← f4]
  refine ⟨{ s with lists := s.lists.set a (y.run op).2.steps }, ?_, ?_⟩
  · simp only [Store.exec, p1, p2, f3]
    rw [hy]
  · rw [value_some h1 h2 (set_eq _ _ _ _ e3), hxy, e4]

/-- C103 (moved from): after a footprint has been moved from, `addStep` and `dropPastSteps` return false, `clearLastStep` does
nothing, and `keepOnlyPresentStep` and `clearSteps` dereference a null pointer. -/
theorem C103_moved (sort : List (Step K) → List (Step K)) (s s' : Store K) (i : Nat) (rest : String) (b : Bool)
    (he : s.exec sort (.move i rest) = .done b s') :
    s'.value i = none ∧
    (∀ st, s'.exec sort (.call i (.addStep st)) = .done false s') ∧
    (∀ p θ t, s'.exec sort (.call i (.addStepRaw p θ t)) = .done false s') ∧
    s'.exec sort (.call i .dropPastSteps) = .done false s' ∧
    s'.exec sort (.call i .clearLastStep) = .done true s' ∧
    (∀ t, s'.exec sort (.call i (.keepOnlyPresentStep t)) = .null) ∧
    s'.exec sort (.call i .clearSteps) = .null := by
  simp only [Store.exec] at he
  split at he
  · cases he
  · rename_i o ho
    simp only [Result.done.injEq] at he
    obtain ⟨-, rfl⟩ := he
    have h : (s.objs.set i ⟨none, rest⟩ ++ [o])[i]? = some ⟨none, rest⟩ := append_get _ _ _ _ (set_eq _ _ _ _ ho)
    simp only [Store.exec, Store.value, h, Store.nullCall, implies_true, and_self]

/-- The full claim, that footprints are values: a call on one object does not change another one.  It is false
(`C103_copy_violated`); `C103_independent` is what holds. -/
def Values (sort : List (Step ℚ) → List (Step ℚ)) : Prop :=
  ∀ (cs : List (Cmd ℚ)) (s s' : Store ℚ) (i j : Nat) (op : FootPrint.Op ℚ) (b : Bool),
    Store.execAll sort ⟨[], []⟩ cs = some s → i ≠ j → s.exec sort (.call j op) = .done b s' → s'.value i = s.value i

/-- C103 violated for copies: the step added to a copy, with the name of the copy, is in the original. -/
theorem C103_copy_violated (sort : List (Step ℚ) → List (Step ℚ)) : ¬ Values sort := by
  intro h
  have := h [.new, .setName 0 "left", .copy 0, .setName 1 "right"] ⟨[[]], [⟨some 0, "left"⟩, ⟨some 0, "right"⟩]⟩
    ⟨[[⟨⟨1, 2⟩, 0, 3, "right"⟩]], [⟨some 0, "left"⟩, ⟨some 0, "right"⟩]⟩ 0 1 (.addStepRaw ⟨1, 2⟩ 0 3) true
    rfl (by decide) rfl
  revert this
  decide +kernel

/-- C103: so the statement of C01, that the steps of a footprint have its name, needs that it has not been copied: here the
footprint `left` contains a step `right`. -/
theorem C103_name_witness (sort : List (Step ℚ) → List (Step ℚ)) :
    (Store.execAll sort ⟨[], []⟩ [.new, .setName 0 "left", .copy 0, .setName 1 "right",
      .call 1 (.addStepRaw ⟨1, 2⟩ 0 3)]).map (fun s => s.value 0) =
      some (some (⟨[⟨⟨1, 2⟩, 0, 3, "right"⟩], "left"⟩ : FootPrint ℚ)) := by
  rfl

/-- Non-vacuity of `C103_fresh`, with a second footprint that is copied, moved from and written to. -/
example : ∃ s', Store.execAll (K := ℚ) id ⟨[], []⟩ [.new, .new, .setName 0 "left", .copy 1, .call 0 (.addStepRaw ⟨1, 2⟩ 0 3),
      .call 2 (.addStepRaw ⟨5, 5⟩ 0 4), .move 1 "", .write 1 [], .call 0 (.addStepRaw ⟨1, 2⟩ 0 (-3)), .assign 2 3] = some s' ∧
    s'.value 0 = some ⟨[⟨⟨1, 2⟩, 0, 3, "left"⟩], "left"⟩ := ⟨_, rfl, rfl⟩

end Uni.Shared
