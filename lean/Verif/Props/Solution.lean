import Verif.Spec.Solution
import Verif.Spec.Plane
import Verif.Props.Settings
import Mathlib.Algebra.Order.Round
import Mathlib.Tactic.Linarith

/-! # C94: the integrated motion is read where it was integrated -/

set_option autoImplicit false
set_option linter.unusedSectionVars false

namespace Uni.Planner
open Spec

/-! ## The planner -/

section
variable {K : Type*} [Field K] [LinearOrder K] [IsStrictOrderedRing K] [Trig K]

/-- The instants used by the loop are in the interval. -/
structure Inside (p : Planner K) (s : Loop K) : Prop where
  time : p.initTime ≤ s.t
  best : s.tOptim = -1 ∨ (p.initTime ≤ s.tOptim ∧ s.tOptim ≤ p.endTime)

theorem Inside.advance {p : Planner K} {s : Loop K} (hd : 0 ≤ p.dT) (h : Inside p s) : Inside p (p.advance s) := by
  refine ⟨?_, h.best⟩
  have := h.time
  simp only [Planner.advance, nextTime]
  split_ifs with h1
  · exact le_trans this h1.2.le
  · linarith

theorem Inside.refresh {p : Planner K} {s : Loop K} (hd : 0 ≤ p.dT) (h : Inside p s) : Inside p (p.refresh s).2 := by
  unfold Planner.refresh
  split
  · exact h
  · exact Inside.advance hd ⟨h.time, h.best⟩

theorem Inside.setSwing {p : Planner K} {s : Loop K} (h : Inside p s) (f : Foot K) : Inside p (s.setSwing f) := by
  unfold Loop.setSwing
  split_ifs <;> exact ⟨h.time, h.best⟩

theorem setSwing_t (s : Loop K) (f : Foot K) : (s.setSwing f).t = s.t ∧ (s.setSwing f).tOptim = s.tOptim := by
  unfold Loop.setSwing
  split_ifs <;> exact ⟨rfl, rfl⟩

theorem body_inside {p : Planner K} (hd : 0 ≤ p.dT) (sol : K → UState K) {s : Loop K} (h : Inside p s) (he : s.t ≤ p.endTime) :
    Inside p (p.body sol s).2 := by
  have hb := h.best
  unfold body
  simp only
  split_ifs with h1 h2 h3 h4
  · exact Inside.advance hd ⟨h.time, h.best⟩
  · have hin : p.initTime ≤ s.tOptim := by
      rcases hb with hb | hb
      · rw [hb] at h4; exact absurd h4 (by norm_num)
      · exact hb.1
    generalize s.swing.addStepFromUnicycle (sol s.tOptim) s.tOptim = r
    obtain ⟨_ | _, f⟩ := r
    · exact h.setSwing f
    · exact Inside.refresh hd ⟨hin, Or.inl rfl⟩
  · split
    · exact h
    · split_ifs
      · exact Inside.refresh hd ⟨h.time, h.best⟩
      · generalize s.swing.addParallelStep s.stance s.t = r
        obtain ⟨_ | _, f⟩ := r
        · exact h.setSwing f
        · refine Inside.refresh hd ⟨?_, ?_⟩
          · exact (setSwing_t s f).1 ▸ h.time
          · exact (setSwing_t s f).2 ▸ h.best
  · split
    · exact h
    · split_ifs
      · exact Inside.advance hd ⟨h.time, Or.inr ⟨h.time, he⟩⟩
      · exact Inside.advance hd h
      · exact Inside.advance hd h
  · exact Inside.advance hd h

theorem body_agree {p : Planner K} {f g : K → UState K} (hfg : AgreeOn p.initTime p.endTime f g) {s : Loop K} (h : Inside p s)
    (he : s.t ≤ p.endTime) : p.body f s = p.body g s := by
  unfold body
  rw [hfg s.t h.time he]
  rcases h.best with hb | hb
  · rw [hb]
    simp only [show ¬ (0 : K) < -1 by norm_num, if_false]
  · rw [hfg s.tOptim hb.1 hb.2]

theorem loop_agree {p : Planner K} (hd : 0 ≤ p.dT) {f g : K → UState K} (hfg : AgreeOn p.initTime p.endTime f g) (n : Nat) :
    ∀ s : Loop K, Inside p s → p.loop f n s = p.loop g n s := by
  induction n with
  | zero => exact fun s _ => rfl
  | succ n ih =>
    intro s h
    simp only [loop]
    split_ifs with he
    · have hb := body_inside hd g h he
      rw [body_agree hfg h he]
      revert hb
      rcases p.body g s with ⟨_ | _, s'⟩
      · exact fun _ => rfl
      · exact fun hb => ih s' hb
    · rfl

theorem plan_agree {p : Planner K} (hd : 0 ≤ p.dT) (hle : p.initTime ≤ p.endTime) {f g : K → UState K}
    (hfg : AgreeOn p.initTime p.endTime f g) (fuel : Nat) (left right : Foot K) :
    p.plan f fuel left right = p.plan g fuel left right := by
  unfold plan
  split
  · rfl
  · rename_i prev _
    rw [loop_agree hd hfg fuel (p.initialLoop left right prev) ⟨le_refl _, Or.inl rfl⟩]
    split
    · rfl
    · rfl
    · unfold finish
      simp only
      rw [hfg p.endTime hle (le_refl _)]

/-- The preparations for a plan are the same but for the motion, which coincides on the interval. -/
theorem setup_agree {p : Planner K} (hd : 0 ≤ p.dT) {a b : Integrator K} (hab : SameInside a b) (left right : Foot K) :
    p.initializePlanner a left right = p.initializePlanner b left right ∨
    ∃ q l r f g, p.initializePlanner a left right = .ok q l r f ∧ p.initializePlanner b left right = .ok q l r g ∧
      0 ≤ q.dT ∧ q.initTime ≤ q.endTime ∧ AgreeOn q.initTime q.endTime f g := by
  unfold initializePlanner
  split
  · rename_i l r _ _
    have hk := getInitialState_keep p l r p.initTime
    revert hk
    rcases p.getInitialStateFromFeet l r p.initTime with ⟨q, l', r'⟩ | ⟨q, l', r', u⟩ | w
    · exact fun _ => Or.inl rfl
    · intro hk
      simp only
      split_ifs with hlt
      · exact Or.inl rfl
      · have hd2 : 0 ≤ q.dT := by
          have := hk _ rfl
          simp only [Unchanged] at this
          rw [this]; exact hd
        obtain ⟨h1, h2⟩ := hab q u q.initTime q.endTime
        revert h1 h2
        rcases a q u q.initTime q.endTime with ⟨ca, _ | f⟩ <;> rcases b q u q.initTime q.endTime with ⟨cb, _ | g⟩ <;>
          intro h1 h2 <;> simp only at h1 h2 <;> subst h1
        · exact Or.inl rfl
        · exact Or.inr ⟨_, _, _, f, g, rfl, rfl, hd2, le_of_lt (not_le.mp hlt), h2⟩
    · exact fun _ => Or.inl rfl
  · exact Or.inl rfl

/-- **C94.** A planning call reads the integrated motion only at instants of the interval it was asked to plan: what the
integrator would say about other instants makes no difference. -/
theorem C94_inside (p : Planner K) (hd : 0 ≤ p.dT) (a b : Integrator K) (hab : SameInside a b) (fuel : Nat)
    (left right : FootPrint K) (t0 t1 : K) :
    p.computeNewSteps a fuel left right t0 t1 = p.computeNewSteps b fuel left right t0 t1 := by
  unfold computeNewSteps
  split_ifs
  · rfl
  · rfl
  · rfl
  have hs := setSaturations_keep { p with initTime := t0, endTime := t1 }
  split
  · rfl
  · rename_i p1 e
    rw [e] at hs
    have hd1 : 0 ≤ p1.dT := by
      simp only [SameConfig] at hs
      rw [hs]; exact hd
    rcases setup_agree hd1 hab (Foot.new left) (Foot.new right) with h | ⟨q, l, r, f, g, h1, h2, h3, h4, h5⟩
    · rw [h]
    · rw [h1, h2]
      exact plan_agree h3 h4 h5 fuel l r

/-- **C94.** So it is after any history of calls. -/
theorem C94_always (hpi : (0 : K) ≤ Trig.pi) (evs : List (Event K)) (a b : Integrator K) (hab : SameInside a b) (fuel : Nat)
    (left right : FootPrint K) (t0 t1 : K) :
    let p := evs.foldl Event.apply (Planner.new : Planner K)
    p.computeNewSteps a fuel left right t0 t1 = p.computeNewSteps b fuel left right t0 t1 :=
  C94_inside _ (C32_consistent hpi evs).period a b hab fuel left right t0 t1

/-- Non-vacuity of `C94_inside`: two integrators that differ outside of the interval. -/
example : ∃ a b : Integrator ℚ, SameInside a b ∧ a ≠ b := by
  refine ⟨fun p u t0 t1 => (p.ctrl, some fun _ => u),
    fun p u t0 t1 => (p.ctrl, some fun t => if t < t0 then ⟨⟨u.position.x + 1, 0⟩, 0⟩ else u), ?_, ?_⟩
  · intro p u t0 t1
    refine ⟨rfl, fun t h0 _ => ?_⟩
    simp [not_lt.mpr h0]
  · intro h
    let _ : Trig ℚ := ⟨id, id, id, id, id, fun _ => id, 0⟩
    have h := congrArg (fun i : Integrator ℚ => (i Planner.new ⟨0, 0⟩ 0 0).2.map (fun f => (f (-1)).position.x)) h
    simp at h

end

/-! ## Queries -/

theorem getIntegratorSolution_cons {first : ℝ × UState ℝ} {rest : List (ℝ × UState ℝ)} {h t : ℝ} (hh : 0 < h)
    (hn : 0 ≤ stdRound ((t - first.1) / h)) :
    getIntegratorSolution (first :: rest) h t =
      .ok ((first :: rest).getD (min (stdRound ((t - first.1) / h)).toNat rest.length) first).2 := by
  simp only [getIntegratorSolution, if_neg hh.ne', roundSize, if_pos hn]

theorem stdRound_near {x : ℝ} (hx : 0 ≤ x) : 0 ≤ stdRound x ∧ x - 1 / 2 < stdRound x ∧ (stdRound x : ℝ) ≤ x + 1 / 2 := by
  simp only [stdRound, if_pos hx]
  have h1 := Int.lt_floor_add_one (x + 1 / 2)
  refine ⟨Int.floor_nonneg.mpr (by linarith), by linarith, Int.floor_le _⟩

/-- **C94 (partial; missing: the refusal of other instants, refuted below).** In the range of the stored motion, as long as the
step size of the integrator has not been changed, the position is that of the person in front of the robot at the stored instant
nearest to the one asked for. -/
theorem C94_person_partial (p : Planner ℝ) {solution : List (ℝ × UState ℝ)} {t0 : ℝ} (hs : Sampled solution t0 p.integratorStep)
    {last : ℝ × UState ℝ} (hl : solution.getLast? = some last) (t : ℝ) (h0 : t0 ≤ t) (h1 : t ≤ last.1) :
    ∃ x ∈ solution, |x.1 - t| ≤ p.integratorStep / 2 ∧
      p.getPersonPosition solution t = .ok (inFrame x.2.position x.2.angle p.ctrl.person.personDistance) := by
  obtain ⟨hh, hne, hreg, hfin⟩ := hs
  set h := p.integratorStep with hdef
  obtain ⟨first, rest, rfl⟩ := List.exists_cons_of_ne_nil hne
  have hfirst : first.1 = t0 := by
    cases rest with
    | nil => simpa using hfin first (by simp)
    | cons y ys => simpa using hreg 0 first (by simp) (by simp)
  have hx : 0 ≤ (t - first.1) / h := div_nonneg (by linarith) hh.le
  obtain ⟨n0, n1, n2⟩ := stdRound_near hx
  have hn : ((stdRound ((t - first.1) / h)).toNat : ℝ) = (stdRound ((t - first.1) / h) : ℝ) := by
    have := Int.toNat_of_nonneg n0
    exact_mod_cast this
  set n := (stdRound ((t - first.1) / h)).toNat with hndef
  rw [← hn, hfirst] at n1 n2
  have e : (t - t0) / h * h = t - t0 := div_mul_cancel₀ _ hh.ne'
  have n1' : t - t0 - h / 2 < n * h := by nlinarith
  have n2' : n * h ≤ t - t0 + h / 2 := by nlinarith
  have hget : ∀ x : ℝ × UState ℝ, (first :: rest).getD (min n rest.length) first = x →
      p.getPersonPosition (first :: rest) t = .ok (inFrame x.2.position x.2.angle p.ctrl.person.personDistance) := by
    intro x hx
    simp only [getPersonPosition, ← hdef, getIntegratorSolution_cons hh n0, ← hndef, hx, Out.bind_ok, Out.ok.injEq,
      PersonCtrl.getPersonPosition]
    ext <;> simp [inFrame, rot] <;> ring
  by_cases hi : n < rest.length
  · have hlt : n < (first :: rest).length := by simp; omega
    refine ⟨(first :: rest)[n], List.getElem_mem hlt, ?_, hget _ ?_⟩
    · rw [hreg n _ (by simp; omega) (List.getElem?_eq_getElem hlt), abs_le]
      constructor <;> linarith
    · rw [min_eq_left hi.le, List.getD_eq_getElem?_getD, List.getElem?_eq_getElem hlt]; rfl
  · have hlast : (first :: rest).getLast? = some ((first :: rest).getD rest.length first) := by
      rw [List.getLast?_eq_getElem?]
      simp [List.getD]
    have hmem : last ∈ first :: rest := List.mem_of_getLast? hl
    refine ⟨last, hmem, ?_, hget _ ?_⟩
    · have hf := hfin last hl
      have hr : (rest.length : ℝ) ≤ n := by exact_mod_cast not_lt.mp hi
      have hb : last.1 ≤ t0 + (rest.length : ℝ) * h := by
        split_ifs at hf with h2
        · have : rest.length = 0 := by simpa using h2
          rw [hf, this]; simp
        · have := hf.2
          simp only [List.length_cons, Nat.cast_add, Nat.cast_one] at this
          linarith
      have : (rest.length : ℝ) * h ≤ n * h := mul_le_mul_of_nonneg_right hr hh.le
      rw [abs_le]
      constructor <;> linarith
    · rw [min_eq_right (not_lt.mp hi)]
      rw [hl] at hlast
      exact (Option.some.inj hlast).symm

/-- **C94 (violated).** An instant after the end of the plan is not refused: the position at the end of the plan is returned. -/
theorem C94_late_violation (p : Planner ℝ) {solution : List (ℝ × UState ℝ)} {t0 : ℝ} (hs : Sampled solution t0 p.integratorStep)
    {last : ℝ × UState ℝ} (hl : solution.getLast? = some last) (t : ℝ)
    (h1 : t0 + ((solution.length : ℝ) - 1) * p.integratorStep ≤ t) :
    p.getPersonPosition solution t = .ok (inFrame last.2.position last.2.angle p.ctrl.person.personDistance) := by
  obtain ⟨hh, hne, hreg, hfin⟩ := hs
  set h := p.integratorStep with hdef
  obtain ⟨first, rest, rfl⟩ := List.exists_cons_of_ne_nil hne
  have hfirst : first.1 = t0 := by
    cases rest with
    | nil => simpa using hfin first (by simp)
    | cons y ys => simpa using hreg 0 first (by simp) (by simp)
  simp only [List.length_cons, Nat.cast_add, Nat.cast_one, add_sub_cancel_right] at h1
  have hx : (rest.length : ℝ) ≤ (t - first.1) / h := by
    rw [le_div_iff₀ hh, hfirst]; linarith
  have hx0 : 0 ≤ (t - first.1) / h := le_trans (Nat.cast_nonneg _) hx
  obtain ⟨n0, n1, n2⟩ := stdRound_near hx0
  have hn : rest.length ≤ (stdRound ((t - first.1) / h)).toNat := by
    have : (rest.length : ℝ) - 1 < (stdRound ((t - first.1) / h) : ℝ) := by linarith
    have : (rest.length : ℤ) - 1 < stdRound ((t - first.1) / h) := by exact_mod_cast this
    omega
  have hlast : (first :: rest).getLast? = some ((first :: rest).getD rest.length first) := by
    rw [List.getLast?_eq_getElem?]
    simp [List.getD]
  rw [hl] at hlast
  simp only [getPersonPosition, ← hdef, getIntegratorSolution_cons hh n0, min_eq_right hn, ← Option.some.inj hlast, Out.bind_ok,
    Out.ok.injEq, PersonCtrl.getPersonPosition]
  ext <;> simp [inFrame, rot] <;> ring

/-- **C94 (violated).** Before the beginning of the plan the index is a negative number converted to an unsigned one; without a
plan the first element of an empty container is read. -/
theorem C94_early_violation (p : Planner ℝ) (hh : 0 < p.integratorStep) :
    (∀ t, p.getPersonPosition [] t = .ub .badIterator) ∧
    ∀ (first : ℝ × UState ℝ) (rest : List (ℝ × UState ℝ)) (t : ℝ), t ≤ first.1 - p.integratorStep →
      p.getPersonPosition (first :: rest) t = .ub .negativeToUnsigned := by
  refine ⟨fun t => rfl, fun first rest t ht => ?_⟩
  have hx : (t - first.1) / p.integratorStep ≤ -1 := by
    rw [div_le_iff₀ hh]; linarith
  have : ¬ 0 ≤ stdRound ((t - first.1) / p.integratorStep) := by
    rw [stdRound, if_neg (by linarith), not_le, neg_lt_zero]
    have : (1 : ℤ) ≤ ⌊-((t - first.1) / p.integratorStep) + 1 / 2⌋ := Int.le_floor.mpr (by push_cast; linarith)
    omega
  simp only [getPersonPosition, getIntegratorSolution, if_neg hh.ne', roundSize, if_neg this]
  rfl

section
private local instance solutionTrig : Trig ℚ := ⟨fun _ => 1, fun _ => 0, fun x => x, fun x => 1 + x, fun x => x, fun _ _ => 0, 22 / 7⟩

/-- A motion stored every tenth of a second, the person two tenths ahead. -/
def stored : List (ℚ × UState ℚ) := [(0, ⟨0, 0⟩), (1 / 10, ⟨⟨1, 0⟩, 0⟩), (2 / 10, ⟨⟨2, 0⟩, 0⟩), (3 / 10, ⟨⟨3, 0⟩, 0⟩)]

/-- What a query gives, for comparison. -/
def answer (p : Planner ℚ) (t : ℚ) : Option (Vec2 ℚ) :=
  match p.getPersonPosition stored t with
  | .ok x => some x
  | _ => none

/-- **C94 (violated).** The position of the person at an instant of the plan changes when the step size for the *next* plan is
set: the stored motion is read with the new step size. -/
theorem C94_step_witness :
    let p := ((Planner.new : Planner ℚ).run (.setMaximumIntegratorStepSize (1 / 10))).2
    let q := (p.run (.setMaximumIntegratorStepSize (1 / 20))).2
    answer p (1 / 10) = some ⟨1 + 1 / 5, 0⟩ ∧ answer q (1 / 10) = some ⟨2 + 1 / 5, 0⟩ := by decide +kernel

/-- Non-vacuity of C94. -/
example : answer ((Planner.new : Planner ℚ).run (.setMaximumIntegratorStepSize (1 / 10))).2 (1 / 4) = some ⟨3 + 1 / 5, 0⟩ ∧
    answer ((Planner.new : Planner ℚ).run (.setMaximumIntegratorStepSize (1 / 10))).2 9 = some ⟨3 + 1 / 5, 0⟩ := by
  decide +kernel

end

/-- Non-vacuity of C94: a sampled motion. -/
example : Sampled [(0, ⟨0, 0⟩), (1, ⟨0, 0⟩), (3 / 2, ⟨0, 0⟩)] 0 1 := by
  refine ⟨one_pos, by simp, ?_, ?_⟩
  · intro i x hi hx
    simp only [List.length_cons, List.length_nil] at hi
    obtain rfl | rfl : i = 0 ∨ i = 1 := by omega
    · simp at hx; simp [← hx]
    · simp at hx; simp [← hx]
  · intro x hx
    simp at hx
    subst hx
    norm_num

end Uni.Planner
