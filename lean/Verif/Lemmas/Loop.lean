import Verif.Model.Loop
import Verif.Lemmas.TimelineFacts

/-! # The loop over the phases of a timetable -/

set_option autoImplicit false
set_option linter.unusedSectionVars false

namespace Uni
open Spec

variable {S O : Type}

/-- The loop on runs of phases. -/
def runSegs (body : Nat → Bool → Phase → Nat → Nat → S → Out (S × List O)) :
    List Seg → Nat → Nat → S → Out (S × List O)
  | [], _, _, s => .ok (s, [])
  | g :: l, phase, start, s => do
    let a ← body phase l.isEmpty g.1 start (start + g.2) s
    let b ← runSegs body l (phase + 1) (start + g.2) a.1
    .ok (b.1, a.2 ++ b.2)

theorem phaseLoop_expand (body : Nat → Bool → Phase → Nat → Nat → S → Out (S × List O)) (segs : List Seg)
    (hpos : ∀ g ∈ segs, 0 < g.2) (pre : List Phase) (phase : Nat) (s : S) :
    phaseLoop body (pre ++ expand segs) (ends pre.length segs) phase pre.length s =
      runSegs body segs phase pre.length s := by
  induction segs generalizing pre phase s with
  | nil => rfl
  | cons g l ih =>
    have hg : 0 < g.2 := hpos g (by simp)
    have h0 : (pre ++ expand (g :: l))[pre.length]? = some g.1 := by
      rw [List.getElem?_append_right (le_refl _), Nat.sub_self, expand_cons]
      obtain ⟨n, hn⟩ := Nat.exists_eq_succ_of_ne_zero hg.ne'
      rw [hn, List.replicate_succ]
      rfl
    have h1 : (ends (pre.length + g.2) l).isEmpty = l.isEmpty := by cases l <;> rfl
    have e : pre ++ expand (g :: l) = (pre ++ List.replicate g.2 g.1) ++ expand l := by simp
    have el : (pre ++ List.replicate g.2 g.1).length = pre.length + g.2 := by simp
    simp only [ends, phaseLoop, runSegs]
    rw [h0, h1]
    have h2 : ¬ (pre ++ expand (g :: l)).length < pre.length + g.2 := by
      rw [e, List.length_append, el]; omega
    have h3 : ¬ pre.length + g.2 < pre.length := by omega
    simp only [if_neg h2, if_neg h3]
    have := fun phase s => ih (fun g hg => hpos g (by simp [hg])) (pre ++ List.replicate g.2 g.1) phase s
    rw [el] at this
    rw [e]
    simp only [this]

/-- The loop over the phases of a timetable in which every phase has at least one sample. -/
theorem overPhases_timetable (body : Nat → Bool → Phase → Nat → Nat → S → Out (S × List O)) (t : Timetable) (f : Bool)
    (hpos : t.Positive) (s : S) :
    overPhases body (t.phases f) t.shifts s = runSegs body (t.segs f) 1 0 s := by
  unfold overPhases
  rw [t.shifts_eq f]
  have := phaseLoop_expand body (t.segs f) ?_ [] 1 s
  · simpa [Timetable.phases] using this
  · intro g hg
    unfold Timetable.segs at hg
    rw [List.mem_append, List.mem_flatMap, List.mem_singleton] at hg
    rcases hg with ⟨x, hx, hg⟩ | rfl
    · have := hpos.1 x hx
      unfold Slot.segs at hg
      split_ifs at hg <;> simp only [List.mem_cons, List.not_mem_nil, or_false] at hg <;> rcases hg with rfl | rfl <;>
        simp only <;> omega
    · exact hpos.2

/-- Strictly increasing shifts: every phase has at least one sample. -/
theorem positive_of_shifts {t : Timetable} (h : t.shifts.Pairwise (· < ·)) : t.Positive := by
  have aux : ∀ (l : List Seg) (n : Nat), (n :: ends n l).Pairwise (· < ·) → ∀ g ∈ l, 0 < g.2 := by
    intro l
    induction l with
    | nil => simp
    | cons a l ih =>
      intro n h g hg
      simp only [ends, List.pairwise_cons] at h ih
      rcases List.mem_cons.mp hg with rfl | hg
      · have := h.1 (n + g.2) (by simp); omega
      · exact ih (n + a.2) h.2 g hg
  have h := aux _ _ (show (0 :: ends 0 (t.segs true)).Pairwise (· < ·) from h)
  constructor
  · intro s hs
    have : ∀ g ∈ Slot.segs true s, 0 < g.2 := fun g hg => h g (by
      unfold Timetable.segs
      rw [List.mem_append, List.mem_flatMap]
      exact Or.inl ⟨s, hs, hg⟩)
    unfold Slot.segs at this
    split_ifs at this <;> simpa using this
  · exact h (if t.lastLeft = true then .switchIn else .switchOut, t.rest) (by unfold Timetable.segs; simp)

/-- Every sample of a successful run was written by the body. -/
theorem phaseLoop_all {body : Nat → Bool → Phase → Nat → Nat → S → Out (S × List O)} {P : O → Prop}
    (hb : ∀ k b p i j s s' l, body k b p i j s = .ok (s', l) → ∀ o ∈ l, P o) {phases : List Phase} {shifts : List Nat}
    {phase start : Nat} {s s' : S} {l : List O} (h : phaseLoop body phases shifts phase start s = .ok (s', l)) : ∀ o ∈ l, P o := by
  induction shifts generalizing phase start s s' l with
  | nil =>
    simp only [phaseLoop] at h
    cases h
    simp
  | cons stop rest ih =>
    simp only [phaseLoop] at h
    cases hp : phases[start]? with
    | none => rw [hp] at h; simp at h
    | some p =>
      rw [hp] at h
      simp only at h
      by_cases h1 : phases.length < stop
      · rw [if_pos h1] at h; simp at h
      rw [if_neg h1] at h
      by_cases h2 : stop < start
      · rw [if_pos h2] at h; simp at h
      rw [if_neg h2, Out.bind_eq_ok] at h
      obtain ⟨a, ha, h⟩ := h
      rw [Out.bind_eq_ok] at h
      obtain ⟨b, hb', h⟩ := h
      cases h
      intro o ho
      rcases List.mem_append.mp ho with ho | ho
      · exact hb _ _ _ _ _ _ a.1 a.2 ha o ho
      · exact ih (s' := b.1) (l := b.2) hb' o ho

/-- Where a sample of a successful run comes from: it was written by the body in the phase it belongs to. -/
theorem phaseLoop_at {body : Nat → Bool → Phase → Nat → Nat → S → Out (S × List O)}
    (hb : ∀ k b p i j s s' l, body k b p i j s = .ok (s', l) → l.length = j - i) {phases : List Phase} {shifts : List Nat}
    {phase start : Nat} {s s' : S} {out : List O} (h : phaseLoop body phases shifts phase start s = .ok (s', out)) :
    out.length + start = (start :: shifts).getLastD 0 ∧
    ∀ j, j < out.length → ∃ i a b p s1 s2 l, (start :: shifts)[i]? = some a ∧ (start :: shifts)[i + 1]? = some b ∧
      a ≤ start + j ∧ start + j < b ∧ phases[a]? = some p ∧
      body (phase + i) (decide (i + 1 = shifts.length)) p a b s1 = .ok (s2, l) ∧ out[j]? = l[start + j - a]? := by
  induction shifts generalizing phase start s s' out with
  | nil =>
    simp only [phaseLoop] at h
    cases h
    simp
  | cons stop rest ih =>
    simp only [phaseLoop] at h
    cases hp : phases[start]? with
    | none => rw [hp] at h; simp at h
    | some p =>
      rw [hp] at h
      simp only at h
      by_cases h1 : phases.length < stop
      · rw [if_pos h1] at h; simp at h
      rw [if_neg h1] at h
      by_cases h2 : stop < start
      · rw [if_pos h2] at h; simp at h
      rw [if_neg h2, Out.bind_eq_ok] at h
      obtain ⟨a, ha, h⟩ := h
      rw [Out.bind_eq_ok] at h
      obtain ⟨b, hb', h⟩ := h
      cases h
      have hl := hb _ _ _ _ _ _ a.1 a.2 ha
      obtain ⟨i1, i2⟩ := ih (s' := b.1) (out := b.2) hb'
      have e : (start :: stop :: rest).getLastD 0 = (stop :: rest).getLastD 0 := by simp
      constructor
      · rw [List.length_append, e, ← i1]; omega
      · intro j hj
        by_cases hlt : j < a.2.length
        · refine ⟨0, start, stop, p, s, a.1, a.2, rfl, rfl, by omega, by omega, hp, ?_, ?_⟩
          · rw [show decide (0 + 1 = (stop :: rest).length) = rest.isEmpty by cases rest <;> simp]
            exact ha
          · rw [List.getElem?_append_left hlt]
            congr 1; omega
        · obtain ⟨i, a', b', p', s1, s2, l, q1, q2, q3, q4, q5, q6, q7⟩ := i2 (j - a.2.length)
            (by rw [List.length_append] at hj; omega)
          refine ⟨i + 1, a', b', p', s1, s2, l, by simpa using q1, by simpa using q2, by omega, by omega, q5, ?_, ?_⟩
          · rw [show phase + (i + 1) = phase + 1 + i by omega,
              show decide (i + 1 + 1 = (stop :: rest).length) = decide (i + 1 = rest.length) by simp]
            exact q6
          · rw [List.getElem?_append_right (by omega), q7]
            congr 1; omega

end Uni
