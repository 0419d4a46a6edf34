import Verif.Spec.Phases
import Mathlib.Tactic.Linarith

/-! # Runs of phases -/

set_option autoImplicit false

namespace Uni.Spec

@[simp] theorem expand_nil : expand [] = [] := rfl
@[simp] theorem expand_cons (s : Seg) (l : List Seg) : expand (s :: l) = List.replicate s.2 s.1 ++ expand l := by
  simp [expand]
@[simp] theorem expand_append (a b : List Seg) : expand (a ++ b) = expand a ++ expand b := by simp [expand]
@[simp] theorem total_nil : total [] = 0 := rfl
@[simp] theorem total_cons (s : Seg) (l : List Seg) : total (s :: l) = s.2 + total l := by simp [total]
@[simp] theorem total_append (a b : List Seg) : total (a ++ b) = total a + total b := by simp [total]

theorem length_expand (l : List Seg) : (expand l).length = total l := by
  induction l with
  | nil => rfl
  | cons s l ih => simp [ih]

@[simp] theorem length_ends (n : Nat) (l : List Seg) : (ends n l).length = l.length := by
  induction l generalizing n with
  | nil => rfl
  | cons s l ih => simp [ends, ih]

theorem ends_append (n : Nat) (a b : List Seg) : ends n (a ++ b) = ends n a ++ ends (n + total a) b := by
  induction a generalizing n with
  | nil => simp [ends]
  | cons s l ih => simp [ends, ih, Nat.add_assoc]

theorem getLastD_ends (n d : Nat) (l : List Seg) (h : l ≠ []) : (ends n l).getLastD d = n + total l := by
  induction l generalizing n d with
  | nil => exact absurd rfl h
  | cons s l ih =>
    simp only [ends, List.getLastD_cons, total_cons]
    cases l with
    | nil => simp [ends]
    | cons t l => rw [ih _ _ (by simp)]; simp only [total_cons]; omega

theorem ends_le (n : Nat) (l : List Seg) : ∀ e ∈ ends n l, n ≤ e ∧ e ≤ n + total l := by
  induction l generalizing n with
  | nil => simp [ends]
  | cons s l ih =>
    intro e he
    simp only [ends, List.mem_cons] at he
    rw [total_cons]
    rcases he with rfl | he
    · omega
    · have := ih _ e he; omega

theorem ends_pairwise (n : Nat) (l : List Seg) : (ends n l).Pairwise (· ≤ ·) := by
  induction l generalizing n with
  | nil => simp [ends]
  | cons s l ih =>
    simp only [ends, List.pairwise_cons]
    exact ⟨fun e he => (ends_le _ l e he).1, ih _⟩

/-- The index where run `i` starts. -/
theorem ends_getElem (n : Nat) (l : List Seg) (i : Nat) (h : i < l.length) :
    (ends n l)[i]? = some (n + total (l.take (i + 1))) := by
  induction l generalizing n i with
  | nil => simp at h
  | cons s l ih =>
    cases i with
    | zero => simp [ends]
    | succ i =>
      simp only [ends, List.getElem?_cons_succ, List.take_succ_cons, total_cons]
      rw [ih _ i (by simpa using h)]
      simp [Nat.add_assoc]

/-- The samples of run `i` have its phase. -/
theorem expand_getElem (l : List Seg) (i : Nat) (s : Seg) (hs : l[i]? = some s) (j : Nat)
    (h1 : total (l.take i) ≤ j) (h2 : j < total (l.take (i + 1))) : (expand l)[j]? = some s.1 := by
  induction l generalizing i j with
  | nil => simp at hs
  | cons a l ih =>
    cases i with
    | zero =>
      simp only [List.getElem?_cons_zero, Option.some.injEq] at hs
      subst hs
      simp only [zero_add, List.take_succ_cons, List.take_zero, total_cons, total_nil, Nat.add_zero] at h2
      rw [expand_cons, List.getElem?_append_left (by simpa using h2)]
      simp [h2]
    | succ i =>
      simp only [List.getElem?_cons_succ] at hs
      simp only [List.take_succ_cons, total_cons] at h1 h2
      rw [expand_cons, List.getElem?_append_right (by simp; omega), List.length_replicate]
      exact ih i hs _ (by omega) (by omega)

/-- Every sample belongs to a run. -/
theorem exists_run (l : List Seg) (j : Nat) (h : j < total l) :
    ∃ i s, l[i]? = some s ∧ total (l.take i) ≤ j ∧ j < total (l.take (i + 1)) := by
  induction l generalizing j with
  | nil => simp at h
  | cons a l ih =>
    by_cases hj : j < a.2
    · exact ⟨0, a, rfl, by simp, by simpa using hj⟩
    · rw [total_cons] at h
      obtain ⟨i, s, h1, h2, h3⟩ := ih (j - a.2) (by omega)
      refine ⟨i + 1, s, by simpa using h1, ?_, ?_⟩ <;>
      simp only [List.take_succ_cons, total_cons] <;> omega

/-- The two feet see the same run lengths. -/
theorem segs_snd (t : Timetable) (f g : Bool) : (t.segs f).map Prod.snd = (t.segs g).map Prod.snd := by
  have h : ∀ slots : List Slot, (slots.flatMap (Slot.segs f)).map Prod.snd = (slots.flatMap (Slot.segs g)).map Prod.snd := by
    intro slots
    induction slots with
    | nil => rfl
    | cons s l ih =>
      simp only [List.flatMap_cons, List.map_append, ih]
      congr 1
      unfold Slot.segs
      split_ifs <;> rfl
  simp [Timetable.segs, h]

theorem ends_congr {l m : List Seg} (h : l.map Prod.snd = m.map Prod.snd) (n : Nat) : ends n l = ends n m := by
  induction l generalizing m n with
  | nil => cases m with
    | nil => rfl
    | cons _ _ => simp at h
  | cons a l ih => cases m with
    | nil => simp at h
    | cons b m =>
      simp only [List.map_cons, List.cons.injEq] at h
      simp [ends, h.1, ih h.2]

theorem total_congr {l m : List Seg} (h : l.map Prod.snd = m.map Prod.snd) : total l = total m := by
  simp [total, h]

theorem Timetable.shifts_eq (t : Timetable) (f : Bool) : t.shifts = 0 :: ends 0 (t.segs f) := by
  unfold Timetable.shifts
  rw [ends_congr (segs_snd t true f)]

theorem Timetable.length_phases (t : Timetable) (f : Bool) : (t.phases f).length = total (t.segs true) := by
  unfold Timetable.phases
  rw [length_expand, total_congr (segs_snd t f true)]

end Uni.Spec
