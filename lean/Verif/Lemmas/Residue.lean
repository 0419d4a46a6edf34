import Verif.Model.Residue
import Verif.Spec.Residue
import Verif.Lemmas.MinJerk
import Verif.Lemmas.CubicFeet

/-! # What a loop over the phases that fails leaves behind -/

set_option autoImplicit false
set_option linter.unusedSectionVars false

namespace Uni
open Spec

variable {S O : Type}

theorem resized_length (d : O) (n : Nat) (old : List O) : (resized d n old).length = n := by
  simp only [resized, List.length_append, List.length_take, List.length_replicate]
  omega

theorem resized_get (d : O) {n j : Nat} (old : List O) (h : j < n) : (resized d n old)[j]? = some (old[j]?.getD d) := by
  unfold resized
  by_cases hj : j < old.length
  · rw [List.getElem?_append_left (by simp only [List.length_take]; omega), List.getElem?_take, if_pos h,
      List.getElem?_eq_getElem hj]
    rfl
  · rw [List.getElem?_append_right (by simp only [List.length_take]; omega), List.getElem?_replicate, if_pos,
      List.getElem?_eq_none (by omega)]
    · rfl
    · simp only [List.length_take]; omega

theorem mixed_overwrite (d : O) {n : Nat} (new old : List O) (h : new.length ≤ n) :
    Mixed d n new.length new old (overwrite new (resized d n old)) where
  length := by
    simp only [overwrite, List.length_append, List.length_drop, resized_length]
    omega
  new j hj := by rw [overwrite, List.getElem?_append_left hj]
  old j hj hn := by
    rw [overwrite, List.getElem?_append_right hj, List.getElem?_drop, ← resized_get d old hn]
    congr 1
    omega

theorem overwrite_all (d : O) {n : Nat} (new old : List O) (h : new.length = n) : overwrite new (resized d n old) = new := by
  rw [overwrite, List.drop_eq_nil_of_le (by rw [resized_length, h]), List.append_nil]

/-- A phase writes its samples. -/
def Fills (body : Nat → Bool → Phase → Nat → Nat → S → Out (S × List O)) : Prop :=
  ∀ k b p i j s a, body k b p i j s = .ok a → a.2.length = j - i

theorem phaseWrites_ok (body : Nat → Bool → Phase → Nat → Nat → S → Out (S × List O))
    (part : Nat → Bool → Phase → Nat → Nat → S → List O) {phases : List Phase} {l : List Nat} {phase start : Nat} {s : S}
    {r : S × List O} (h : phaseLoop body phases l phase start s = .ok r) : phaseWrites body part phases l phase start s = r.2 := by
  induction l generalizing phase start s r with
  | nil =>
    simp only [phaseLoop] at h
    cases h
    rfl
  | cons stop rest ih =>
    simp only [phaseLoop] at h
    simp only [phaseWrites]
    cases hp : phases[start]? with
    | none => rw [hp] at h; simp at h
    | some p =>
      rw [hp] at h
      simp only at h ⊢
      by_cases h1 : phases.length < stop
      · rw [if_pos h1] at h; simp at h
      rw [if_neg h1] at h ⊢
      by_cases h2 : stop < start
      · rw [if_pos h2] at h; simp at h
      rw [if_neg h2] at h ⊢
      rw [Out.bind_eq_ok] at h
      obtain ⟨a, ha, h⟩ := h
      rw [Out.bind_eq_ok] at h
      obtain ⟨b, hb, h⟩ := h
      cases h
      rw [ha]
      simp only [ih hb]

theorem phaseLoop_length {body : Nat → Bool → Phase → Nat → Nat → S → Out (S × List O)} (hl : Fills body)
    {phases : List Phase} {l : List Nat} {phase start : Nat} {s : S}
    {r : S × List O} (h : phaseLoop body phases l phase start s = .ok r) :
    (start :: l).getLast (by simp) = start + r.2.length := by
  induction l generalizing phase start s r with
  | nil =>
    simp only [phaseLoop] at h
    cases h
    simp
  | cons stop rest ih =>
    simp only [phaseLoop] at h
    cases hp : phases[start]? with
    | none => rw [hp] at h; simp at h
    | some p =>
      rw [hp] at h
      simp only at h
      by_cases h1 : phases.length < stop
      · rw [if_pos h1] at h; simp at h
      rw [if_neg h1] at h
      by_cases h2 : stop < start
      · rw [if_pos h2] at h; simp at h
      rw [if_neg h2] at h
      rw [Out.bind_eq_ok] at h
      obtain ⟨a, ha, h⟩ := h
      rw [Out.bind_eq_ok] at h
      obtain ⟨b, hb, h⟩ := h
      cases h
      have := hl _ _ _ _ _ _ _ ha
      rw [List.getLast_cons (by simp), ih hb, List.length_append, this]
      omega

/-- Where a loop fails: the phases before the one that fails are those of a loop that succeeds. -/
theorem phaseLoop_fail {body : Nat → Bool → Phase → Nat → Nat → S → Out (S × List O)}
    (part : Nat → Bool → Phase → Nat → Nat → S → List O) (hl : Fills body)
    (hb : ∀ k b b' p i j s, body k b p i j s = body k b' p i j s) {phases : List Phase} {l : List Nat} {phase start : Nat} {s : S}
    (h : phaseLoop body phases l phase start s = .fail) :
    ∃ (k b : Nat) (r : S × List O) (p : Phase) (f : Bool), l[k]? = some b ∧ (start :: l)[k]? = some (start + r.2.length) ∧
      phaseLoop body phases (l.take k) phase start s = .ok r ∧ phases[start + r.2.length]? = some p ∧
      start + r.2.length ≤ b ∧ b ≤ phases.length ∧ body (phase + k) f p (start + r.2.length) b r.1 = .fail ∧
      phaseWrites body part phases l phase start s = r.2 ++ part (phase + k) f p (start + r.2.length) b r.1 := by
  induction l generalizing phase start s with
  | nil => simp [phaseLoop] at h
  | cons stop rest ih =>
    simp only [phaseLoop] at h
    cases hp : phases[start]? with
    | none => rw [hp] at h; simp at h
    | some p =>
      rw [hp] at h
      simp only at h
      by_cases h1 : phases.length < stop
      · rw [if_pos h1] at h; simp at h
      rw [if_neg h1] at h
      by_cases h2 : stop < start
      · rw [if_pos h2] at h; simp at h
      rw [if_neg h2] at h
      cases ha : body phase rest.isEmpty p start stop s with
      | ub w => rw [ha] at h; cases h
      | fail =>
        refine ⟨0, stop, (s, []), p, rest.isEmpty, rfl, rfl, rfl, by simpa using hp, by simpa using Nat.le_of_not_lt h2,
          Nat.le_of_not_lt h1, by simpa using ha, ?_⟩
        simp only [phaseWrites, hp, if_neg h1, if_neg h2, ha, List.nil_append, List.length_nil, Nat.add_zero]
      | ok a =>
        rw [ha] at h
        have hlen := hl _ _ _ _ _ _ _ ha
        cases hr : phaseLoop body phases rest (phase + 1) stop a.1 with
        | ok b =>
          exfalso
          change (phaseLoop body phases rest (phase + 1) stop a.1 >>= _) = _ at h
          rw [hr] at h
          cases h
        | ub w =>
          exfalso
          change (phaseLoop body phases rest (phase + 1) stop a.1 >>= _) = _ at h
          rw [hr] at h
          cases h
        | fail =>
          obtain ⟨k, b, r, q, f, h3, h4, h5, h6, h7, h8, h9, h10⟩ := ih hr
          have e : start + (a.2 ++ r.2).length = stop + r.2.length := by
            rw [List.length_append, hlen]; omega
          have e' : phase + (k + 1) = phase + 1 + k := by omega
          refine ⟨k + 1, b, (r.1, a.2 ++ r.2), q, f, by simpa using h3, ?_, ?_, ?_, ?_, h8, ?_, ?_⟩
          · rw [e]; simpa using h4
          · simp only [List.take_succ_cons, phaseLoop, hp, if_neg h1, if_neg h2]
            rw [hb _ _ rest.isEmpty, ha]
            change (phaseLoop body phases (rest.take k) (phase + 1) stop a.1 >>= _) = _
            rw [h5]
            rfl
          · simp only [e]; exact h6
          · simp only [e]; exact h7
          · simp only [e, e']; exact h9
          · simp only [e, e']
            simp only [phaseWrites, hp, if_neg h1, if_neg h2, ha, h10, List.append_assoc]

/-- The vectors after a loop that fails without having assigned a sample of the phase that fails. -/
theorem afterPhases_fail {body : Nat → Bool → Phase → Nat → Nat → S → Out (S × List O)}
    {part : Nat → Bool → Phase → Nat → Nat → S → List O} (hl : Fills body)
    (hb : ∀ k b b' p i j s, body k b p i j s = body k b' p i j s)
    {phases : List Phase} {l : List Nat} {s : S}
    (hp : ∀ k b p i j s, body k b p i j s = .fail → part k b p i j s = [])
    (h : overPhases body phases (0 :: l) s = .fail) (d : O) (old : List O) :
    ∃ (k a b : Nat) (r : S × List O) (p : Phase) (f : Bool), (0 :: l)[k]? = some a ∧ (0 :: l)[k + 1]? = some b ∧
      overPhases body phases ((0 :: l).take (k + 1)) s = .ok r ∧ r.2.length = a ∧ phases[a]? = some p ∧ a ≤ b ∧
      body (1 + k) f p a b r.1 = .fail ∧ Mixed d phases.length a r.2 old (afterPhases body part phases (0 :: l) s d old) := by
  obtain ⟨k, b, r, p, f, h1, h2, h3, h4, h5, h6, h7, h8⟩ := phaseLoop_fail part hl hb (h : phaseLoop body phases l 1 0 s = .fail)
  simp only [Nat.zero_add] at h2 h4 h5 h7 h8
  refine ⟨k, r.2.length, b, r, p, f, h2, by simpa using h1, h3, rfl, h4, h5, h7, ?_⟩
  rw [hp _ _ _ _ _ _ h7, List.append_nil] at h8
  unfold afterPhases
  rw [h8]
  exact mixed_overwrite d r.2 old (by omega)

/-- The vectors after a loop that succeeds. -/
theorem afterPhases_ok {body : Nat → Bool → Phase → Nat → Nat → S → Out (S × List O)}
    {part : Nat → Bool → Phase → Nat → Nat → S → List O} (hl : Fills body)
    {phases : List Phase} {l : List Nat} {s : S} {r : S × List O}
    (he : (0 :: l).getLast (by simp) = phases.length)
    (h : overPhases body phases (0 :: l) s = .ok r) (d : O) (old : List O) :
    afterPhases body part phases (0 :: l) s d old = r.2 := by
  have h : phaseLoop body phases l 1 0 s = .ok r := h
  unfold afterPhases
  change overwrite (phaseWrites body part phases l 1 0 s) _ = _
  rw [phaseWrites_ok body part h]
  exact overwrite_all d r.2 old (by rw [phaseLoop_length hl h] at he; omega)

section Bodies
variable {K : Type} [Field K] [LinearOrder K]

theorem CoMHeight.body_fills (c : HeightSettings K) (dT : K) : Fills (CoMHeight.body c dT) := by
  intro k b p i j s a h
  cases p <;> simp only [CoMHeight.body] at h
  case switchIn => cases h; simp
  case switchOut => cases h; simp
  all_goals
    rw [Out.bind_eq_ok] at h
    obtain ⟨f, -, h⟩ := h
    cases h
    simp

variable [Trig K]

theorem footBody_fills {swing : Step K → Step K → Nat → Out (List (FootSample K))}
    (h : ∀ s s' n l, swing s s' n = .ok l → l.length = n) : Fills (footBody swing) := by
  intro k b p i j s a ha
  rcases s with _ | ⟨s, rest⟩
  · simp [footBody] at ha
  · simp only [footBody] at ha
    by_cases hp : p = .swing
    · rw [if_pos hp] at ha
      rcases rest with _ | ⟨s', rest⟩
      · simp at ha
      · simp only at ha
        rw [Out.bind_eq_ok] at ha
        obtain ⟨l, hl, ha⟩ := ha
        cases ha
        exact h _ _ _ _ hl
    · rw [if_neg hp] at ha
      cases ha
      simp

/-- A phase of a foot fails in a swing only: the step it leads to is missing, or the swing fails. -/
theorem footBody_fail {swing : Step K → Step K → Nat → Out (List (FootSample K))} {k : Nat} {b : Bool} {p : Phase} {i j : Nat}
    {s : List (Step K)} (h : footBody swing k b p i j s = .fail) :
    p = .swing ∧ (s.length = 1 ∨ ∃ x y l, s = x :: y :: l ∧ swing x y (j - i) = .fail) := by
  rcases s with _ | ⟨x, rest⟩
  · simp [footBody] at h
  · simp only [footBody] at h
    by_cases hp : p = .swing
    · rw [if_pos hp] at h
      refine ⟨hp, ?_⟩
      rcases rest with _ | ⟨y, rest⟩
      · exact Or.inl rfl
      · right
        simp only at h
        refine ⟨x, y, rest, rfl, ?_⟩
        cases hs : swing x y (j - i) with
        | ok l => rw [hs] at h; cases h
        | fail => rfl
        | ub w => rw [hs] at h; cases h
    · rw [if_neg hp] at h
      simp at h

/-- A foot has made one step for each swing. -/
theorem footBody_steps {swing : Step K → Step K → Nat → Out (List (FootSample K))} {phases : List Phase} {l : List Nat}
    {phase start : Nat} {s : List (Step K)} {r : List (Step K) × List (FootSample K)}
    (h : phaseLoop (footBody swing) phases l phase start s = .ok r) :
    s.length = r.1.length + ((start :: l).take l.length).countP fun i => decide (phases[i]? = some .swing) := by
  induction l generalizing phase start s r with
  | nil =>
    simp only [phaseLoop] at h
    cases h
    simp
  | cons stop rest ih =>
    simp only [phaseLoop] at h
    cases hp : phases[start]? with
    | none => rw [hp] at h; simp at h
    | some p =>
      rw [hp] at h
      simp only at h
      by_cases h1 : phases.length < stop
      · rw [if_pos h1] at h; simp at h
      rw [if_neg h1] at h
      by_cases h2 : stop < start
      · rw [if_pos h2] at h; simp at h
      rw [if_neg h2, Out.bind_eq_ok] at h
      obtain ⟨a, ha, h⟩ := h
      rw [Out.bind_eq_ok] at h
      obtain ⟨b, hb, h⟩ := h
      cases h
      have := ih hb
      rw [List.length_cons, List.take_succ_cons, List.countP_cons, hp]
      simp only at this ⊢
      rcases s with _ | ⟨x, s⟩
      · simp [footBody] at ha
      simp only [footBody] at ha
      by_cases hq : p = .swing
      · rw [if_pos hq] at ha
        rcases s with _ | ⟨y, s⟩
        · simp at ha
        · simp only at ha
          rw [Out.bind_eq_ok] at ha
          obtain ⟨w, -, ha⟩ := ha
          cases ha
          simp only [hq, decide_true, if_true, List.length_cons] at this ⊢
          omega
      · rw [if_neg hq] at ha
        cases ha
        simp only [Option.some.injEq, hq, decide_false, List.length_cons] at this ⊢
        simpa using this

theorem CubicFeet.swing_length {c : FeetSettings K} {z0 dT : K} (s s' : Step K) (n : Nat) (l : List (FootSample K))
    (h : CubicFeet.swing c z0 dT s s' n = .ok l) : l.length = n := by
  simp only [CubicFeet.swing] at h
  rw [Out.bind_eq_ok] at h; obtain ⟨_, -, h⟩ := h
  rw [Out.bind_eq_ok] at h; obtain ⟨_, -, h⟩ := h
  rw [Out.bind_eq_ok] at h; obtain ⟨_, -, h⟩ := h
  rw [Out.bind_eq_ok] at h; obtain ⟨_, -, h⟩ := h
  rw [Out.bind_eq_ok] at h; obtain ⟨_, -, h⟩ := h
  cases h
  simp

theorem MinJerk.collect_length {α : Type} {f : Nat → Out α} {l : List Nat} {r : List α} (h : MinJerk.collect f l = .ok r) :
    r.length = l.length := by
  induction l generalizing r with
  | nil => simp only [MinJerk.collect] at h; cases h; rfl
  | cons j l ih =>
    simp only [MinJerk.collect] at h
    rw [Out.bind_eq_ok] at h; obtain ⟨a, -, h⟩ := h
    rw [Out.bind_eq_ok] at h; obtain ⟨b, hb, h⟩ := h
    cases h
    simp [ih hb]

variable [IsStrictOrderedRing K] [FloorRing K]

theorem MinJerk.swing_length {c : FeetSettings K} {dT : K} (h0 : 0 < c.swingApex) (h1 : c.swingApex < 1) (s s' : Step K) (n : Nat) (l : List (FootSample K))
    (h : MinJerk.swing c dT s s' n = .ok l) : l.length = n := by
  simp only [MinJerk.swing] at h
  rw [Out.bind_eq_ok] at h; obtain ⟨a, ha, h⟩ := h
  rw [Out.bind_eq_ok] at h; obtain ⟨b, hb, h⟩ := h
  cases h
  have := MinJerk.rising_le h0 h1 n
  rw [List.length_append, MinJerk.collect_length ha, MinJerk.collect_length hb, List.length_range, List.length_range']
  omega

end Bodies
end Uni
