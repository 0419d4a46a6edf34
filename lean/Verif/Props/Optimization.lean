import Verif.Model.Optimization
import Verif.Lemmas.Ellipse

/-! # C21: the step constraints -/

set_option autoImplicit false
set_option linter.unusedSectionVars false

namespace Uni.Problem
open Spec

/-- The bound in force after a history of calls: the argument of the last call of the setter that had
a non-negative argument (specification; `pick` selects the setter). -/
noncomputable def lastAccepted (pick : Op ℝ → Option ℝ) (ops : List (Op ℝ)) : Option ℝ :=
  ops.foldl (fun acc o => match pick o with
    | some x => if 0 ≤ x then some x else acc
    | none => acc) none

/-- Arguments of the calls of each setter. -/
def lengths : Op ℝ → Option ℝ | .setMaxLength x => some x | _ => none
/-- see `lengths` -/
def backwards : Op ℝ → Option ℝ | .setMaxLengthBackward x => some x | _ => none
/-- see `lengths` -/
def widths : Op ℝ → Option ℝ | .setMinWidth x => some x | _ => none
/-- see `lengths` -/
def angles : Op ℝ → Option ℝ | .setMaxAngleVariation x => some x | _ => none
/-- see `lengths` -/
def ellipses : Op ℝ → Option (Ellipse ℝ) | .setFreeSpaceEllipse e => some e | _ => none
/-- The last ellipse given. -/
def lastEllipse (ops : List (Op ℝ)) : Option (Ellipse ℝ) :=
  ops.foldl (fun acc o => (ellipses o).or acc) none

theorem runAll_bounds (ops : List (Op ℝ)) (p : Problem ℝ) :
    let q := ops.foldl (fun s o => (s.run o).2) p
    q.maxLength = (lastAccepted lengths ops).or p.maxLength ∧
    q.maxLengthBackward = (lastAccepted backwards ops).or p.maxLengthBackward ∧
    q.minWidth = (lastAccepted widths ops).or p.minWidth ∧
    q.maxAngle = (lastAccepted angles ops).or p.maxAngle ∧
    q.freeSpace = (lastEllipse ops).getD p.freeSpace := by
  induction ops using List.reverseRecOn with
  | nil => simp [lastAccepted, lastEllipse]
  | append_singleton os o ih =>
    obtain ⟨h1, h2, h3, h4, h5⟩ := ih
    simp only [List.foldl_append, List.foldl_cons, List.foldl_nil]
    generalize os.foldl (fun s o => (s.run o).2) p = q at *
    simp only [lastAccepted, lastEllipse, List.foldl_append, List.foldl_cons, List.foldl_nil] at *
    cases o with
    | setMaxLength x =>
      by_cases h : x < 0
      · simp [run, setMaxLength, h, lengths, backwards, widths, angles, ellipses,
          not_le.mpr h, h1, h2, h3, h4, h5]
      · simp [run, setMaxLength, h, lengths, backwards, widths, angles, ellipses,
          not_lt.mp h, h2, h3, h4, h5]
    | setMaxLengthBackward x =>
      by_cases h : x < 0
      · simp [run, setMaxLengthBackward, h, lengths, backwards, widths, angles, ellipses,
          not_le.mpr h, h1, h2, h3, h4, h5]
      · simp [run, setMaxLengthBackward, h, lengths, backwards, widths, angles, ellipses,
          not_lt.mp h, h1, h3, h4, h5]
    | setMinWidth x =>
      by_cases h : x < 0
      · simp [run, setMinWidth, h, lengths, backwards, widths, angles, ellipses,
          not_le.mpr h, h1, h2, h3, h4, h5]
      · simp [run, setMinWidth, h, lengths, backwards, widths, angles, ellipses,
          not_lt.mp h, h1, h2, h4, h5]
    | setMaxAngleVariation x =>
      by_cases h : x < 0
      · simp [run, setMaxAngleVariation, h, lengths, backwards, widths, angles, ellipses,
          not_le.mpr h, h1, h2, h3, h4, h5]
      · simp [run, setMaxAngleVariation, h, lengths, backwards, widths, angles, ellipses,
          not_lt.mp h, h1, h2, h3, h5]
    | setFreeSpaceEllipse e =>
      simp [run, setFreeSpaceEllipse, lengths, backwards, widths, angles, ellipses, h1, h2, h3, h4]
    | setCostWeights a b =>
      by_cases h : a < 0 <;> by_cases h' : b < 0 <;>
      simp [run, setCostWeights, h, h', lengths, backwards, widths, angles, ellipses,
        h1, h2, h3, h4, h5]

theorem areConstraintsSatisfied_iff (p : Problem ℝ) (d : StepData ℝ) :
    p.areConstraintsSatisfied d = true ↔
      (∀ m, p.maxLength = some m → dist d.rPl 0 < m) ∧
      (∀ m, p.minWidth = some m → m < d.rPl.y) ∧
      (∀ m, p.maxAngle = some m → |d.deltaAngle| < m) ∧
      p.freeSpace.isPointInside d.newPosition = true ∧
      (∀ m, p.maxLengthBackward = some m →
        (d.newRelative.x < 0 → dist d.newRelative 0 < m) ∧ (0 ≤ d.newRelative.x → 0 < m)) := by
  have hd : ∀ v : Vec2 ℝ, dist v 0 = Real.sqrt (v.x ^ 2 + v.y ^ 2) := by
    intro v; simp [Spec.dist]
  simp only [areConstraintsSatisfied, Bool.and_eq_true, lengthOk, widthOk, angleOk, ellipseOk,
    backwardOk, hd]
  constructor
  · rintro ⟨⟨⟨⟨h1, h2⟩, h3⟩, h4⟩, h5⟩
    refine ⟨?_, ?_, ?_, ?_, ?_⟩
    · rintro m hm; rw [hm] at h1; simpa using h1
    · rintro m hm; rw [hm] at h2; simpa using h2
    · rintro m hm; rw [hm] at h3; exact of_decide_eq_true h3
    · by_contra h
      rw [if_neg h] at h4
      norm_num at h4
    · rintro m hm
      rw [hm] at h5
      have h5 := of_decide_eq_true h5
      exact ⟨fun hx => by rw [if_pos hx] at h5; exact h5, fun hx => by
        rw [if_neg (not_lt.mpr hx)] at h5; exact h5⟩
  · rintro ⟨h1, h2, h3, h4, h5⟩
    refine ⟨⟨⟨⟨?_, ?_⟩, ?_⟩, ?_⟩, ?_⟩
    · cases hm : p.maxLength with
      | none => rfl
      | some m => simpa using h1 m hm
    · cases hm : p.minWidth with
      | none => rfl
      | some m => simpa using h2 m hm
    · cases hm : p.maxAngle with
      | none => rfl
      | some m => exact decide_eq_true (h3 m hm)
    · rw [if_pos h4]; norm_num
    · cases hm : p.maxLengthBackward with
      | none => rfl
      | some m =>
        apply decide_eq_true
        split_ifs with hx
        · exact (h5 m hm).1 hx
        · exact (h5 m hm).2 (not_lt.mp hx)

/-- C21: after any history of setter calls on a new optimisation problem, a step is accepted iff it
satisfies every bound in force (the last non-negative one given to each setter, none if there is no
such call).  With a backward bound `m` a forward step also needs `0 < m`: a zero backward bound
forbids every step. -/
theorem C21_constraints (ops : List (Op ℝ)) (d : StepData ℝ) :
    (ops.foldl (fun s o => (s.run o).2) (new : Problem ℝ)).areConstraintsSatisfied d = true ↔
      (∀ m, lastAccepted lengths ops = some m → dist d.rPl 0 < m) ∧
      (∀ m, lastAccepted widths ops = some m → m < d.rPl.y) ∧
      (∀ m, lastAccepted angles ops = some m → |d.deltaAngle| < m) ∧
      (∀ e, lastEllipse ops = some e → e.isPointInside d.newPosition = true) ∧
      (∀ m, lastAccepted backwards ops = some m →
        (d.newRelative.x < 0 → dist d.newRelative 0 < m) ∧ (0 ≤ d.newRelative.x → 0 < m)) := by
  obtain ⟨h1, h2, h3, h4, h5⟩ := runAll_bounds ops (new : Problem ℝ)
  rw [areConstraintsSatisfied_iff, h1, h2, h3, h4, h5]
  simp only [new, Option.or_none]
  refine and_congr_right fun _ => and_congr_right fun _ => and_congr_right fun _ => ?_
  refine and_congr ?_ Iff.rfl
  cases hE : lastEllipse ops with
  | none => simp [Ellipse.isPointInside, Ellipse.clear]
  | some e => simp

/-- C21: the decision is strict: a step of exactly the maximum length is refused. -/
theorem C21_strict (p : Problem ℝ) (d : StepData ℝ) (m : ℝ) (h : p.maxLength = some m)
    (hd : dist d.rPl 0 = m) : p.areConstraintsSatisfied d = false := by
  rw [Bool.eq_false_iff, Ne, areConstraintsSatisfied_iff]
  intro hc
  exact absurd (hc.1 m h) (by rw [hd]; exact lt_irrefl m)

/-- The diagnosis printed on failure is incomplete: a step refused because of the backward bound is
reported with an empty list of violated constraints. -/
theorem C21_diagnosis_incomplete : ∃ (p : Problem ℝ) (d : StepData ℝ),
    p.areConstraintsSatisfied d = false ∧ p.violatedReported d = [] := by
  refine ⟨⟨none, none, none, Ellipse.clear, some 0, 0, 0⟩, ⟨0, 0, 1, 0, 0⟩, ?_, ?_⟩
  · rw [Bool.eq_false_iff, Ne, areConstraintsSatisfied_iff]
    intro hc
    have := (hc.2.2.2.2 0 rfl).2 (le_refl (0 : ℝ))
    exact lt_irrefl _ this
  · have : (1 : ℝ) / 2 ≤ 1 := by norm_num
    simp [violatedReported, lengthOk, widthOk, angleOk, ellipseOk, Ellipse.isPointInside, Ellipse.clear]
    norm_num

/-- Non-vacuity of C21: the planner's default bounds and a plausible step, accepted. -/
example : (([.setMaxLength 1, .setMaxLength (-3), .setMinWidth (1 / 10), .setMaxAngleVariation 1] :
    List (Op ℝ)).foldl (fun s o => (s.run o).2) (new : Problem ℝ)).areConstraintsSatisfied
    ⟨⟨0, 1 / 2⟩, 1 / 3, 1, 0, ⟨0, -1 / 2⟩⟩ = true := by
  rw [areConstraintsSatisfied_iff]
  have hd : dist (⟨0, 1 / 2⟩ : Vec2 ℝ) 0 = 1 / 2 := by
    simp only [Spec.dist]
    rw [show ((⟨0, 1 / 2⟩ : Vec2 ℝ).x - (0 : Vec2 ℝ).x) ^ 2 + ((⟨0, 1 / 2⟩ : Vec2 ℝ).y - (0 : Vec2 ℝ).y) ^ 2
      = (1 / 2) ^ 2 by simp, Real.sqrt_sq (by norm_num)]
  simp [run, setMaxLength, setMinWidth, setMaxAngleVariation, new]
  norm_num [Ellipse.isPointInside, Ellipse.clear, abs_of_pos] at hd ⊢
  rw [hd]
  exact ⟨by norm_num, by simp⟩

end Uni.Problem
