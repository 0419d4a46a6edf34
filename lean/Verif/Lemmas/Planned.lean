import Verif.Lemmas.Walker
import Verif.Lemmas.Fine

/-! # What the generator needs to know about planned footprints -/

set_option autoImplicit false
set_option linter.unusedSectionVars false

namespace Uni.Spec
open Planner Gen
variable {K : Type} [Field K] [LinearOrder K] [IsStrictOrderedRing K] [Trig K]
variable {p : Planner K} {integ : Integrator K} {left right left' right' : FootPrint K} {t0 t1 : K} {d : Plan K}

theorem PlanOf.l0_name (h : PlanOf p integ left right t0 t1 left' right' d) : d.l0.footName = left.footName := by
  rcases h.begins.steps with ⟨-, e1, -⟩ | ⟨-, -, u, -, e1, -⟩ <;> rw [e1]

theorem PlanOf.r0_name (h : PlanOf p integ left right t0 t1 left' right' d) : d.r0.footName = right.footName := by
  rcases h.begins.steps with ⟨-, -, e1⟩ | ⟨-, -, u, -, -, e1⟩ <;> rw [e1]

/-- The landings carry the name of their foot. -/
theorem PlanOf.landing_names (h : PlanOf p integ left right t0 t1 left' right' d) :
    ∀ e ∈ d.log, e.step.footName = if e.left then left.footName else right.footName := by
  have ft : ∀ b : Bool, (if b then d.left else d.right).fp.footName = if b then left.footName else right.footName := by
    intro b
    cases b
    · exact h.r0_name
    · exact h.l0_name
  intro e he
  rcases List.mem_append.mp he with he | he
  · have := Situations.mono (Q := fun _ e => e.step.footName = if e.left then left.footName else right.footName) (fun c e hc => by
      cases hc with
      | optimised n m _ => exact ft _
      | parallel n _ => exact ft _) h.situations
    exact Along.all (Q := fun e => e.step.footName = if e.left then left.footName else right.footName) (Situations.along this) e he
  · have ht := h.terminal
    split_ifs at ht
    · generalize d.terminal = T at ht he
      cases ht with
      | both _ =>
        simp only [List.mem_cons, List.not_mem_nil, or_false] at he
        rcases he with rfl | rfl
        · exact ft _
        · have := ft (!d.final.left)
          cases hb : d.final.left <;> simp only [hb, Bool.not_true, Bool.not_false, if_true, if_false, Bool.false_eq_true] at this ⊢ <;> exact this
      | close _ _ =>
        simp only [List.mem_cons, List.not_mem_nil, or_false] at he
        rcases he with rfl
        exact ft _
      | skip _ _ => cases he
    · rw [ht] at he; cases he

/-- The steps of planned footprints carry the names of the footprints. -/
theorem PlanOf.named (h : PlanOf p integ left right t0 t1 left' right' d) (hL : Named left) (hR : Named right) :
    Named left' ∧ Named right' ∧ left'.footName = left.footName ∧ right'.footName = right.footName := by
  have n0 : Named d.l0 ∧ Named d.r0 := by
    rcases h.begins.steps with ⟨-, e1, e2⟩ | ⟨-, -, u, -, e1, e2⟩
    · rw [e1, e2]; exact ⟨hL, hR⟩
    · rw [e1, e2]
      constructor <;> intro s hs <;> simp only [List.mem_singleton] at hs <;> rw [hs] <;> rfl
  have re : ∀ (fp fp' : FootPrint K) (t : K), Named fp → Retimed fp t fp' → Named fp' ∧ fp'.footName = fp.footName := by
    rintro fp fp' t hn ⟨older, x, k, rfl⟩
    refine ⟨fun s hs => ?_, rfl⟩
    simp only [List.mem_append, List.mem_singleton] at hs
    rcases hs with hs | rfl
    · exact hn s (by rw [k]; simp [hs])
    · rfl
  have l0 := h.l0_name
  have r0 := h.r0_name
  rcases h.effect with ⟨-, rfl, rfl⟩ | ⟨-, l, r, -, -, ⟨-, rfl, rfl⟩ | ⟨-, rfl, k⟩ | ⟨-, k, rfl⟩⟩
  · refine ⟨fun s hs => ?_, fun s hs => ?_, l0, r0⟩
    · simp only [extendBy, List.mem_append] at hs
      rcases hs with hs | hs
      · exact n0.1 s hs
      · obtain ⟨e, he, hb, rfl⟩ := mem_stepsOf hs
        rw [h.landing_names e he, hb]; exact l0.symm
    · simp only [extendBy, List.mem_append] at hs
      rcases hs with hs | hs
      · exact n0.2 s hs
      · obtain ⟨e, he, hb, rfl⟩ := mem_stepsOf hs
        rw [h.landing_names e he, hb]; exact r0.symm
  · exact ⟨n0.1, n0.2, l0, r0⟩
  · obtain ⟨a, b⟩ := re _ _ _ n0.2 k
    exact ⟨n0.1, a, l0, b.trans r0⟩
  · obtain ⟨a, b⟩ := re _ _ _ n0.1 k
    exact ⟨a, n0.2, b.trans l0, r0⟩

/-- The first landing of a plan does not come right after its beginning if the feet start together, or if the robot has just
landed. -/
theorem PlanOf.first_landing (h : PlanOf p integ left right t0 t1 left' right' d) (hp : Timed p) {gap : K} (hg : gap ≤ p.minTime)
    (hf : d.q.firstStep = true ∨ t0 + gap ≤ d.prev.impactTime + p.minTime) : ∀ e ∈ d.log, t0 + gap ≤ e.step.impactTime := by
  intro e he
  have hn := hp.nominal
  rcases List.mem_append.mp he with he | he
  · have hstart : gap ≤ d.start.offset ∨ t0 + gap ≤ d.start.prev.impactTime + p.minTime := by
      rcases hf with hf | hf
      · left
        show gap ≤ (if d.q.firstStep then d.q.nominalTime else 0)
        rw [if_pos hf, h.nominalTime]
        linarith
      · exact Or.inr hf
    have := (run_situations (p := d.q) (sol := d.sol) (L := d.left) (R := d.right)
      (I := fun c => gap ≤ c.offset ∨ t0 + gap ≤ c.prev.impactTime + p.minTime)
      (P := fun _ e => t0 + gap ≤ e.step.impactTime)
      (fun c e hc he => by
        right
        obtain ⟨-, -, a, b, -⟩ := decided_facts he
        rw [h.initTime] at b
        rw [h.minTime] at a
        show t0 + gap ≤ e.step.impactTime + p.minTime
        have := hp.minTime
        rcases hc with hc | hc <;> linarith)
      (fun c e hc he => by
        obtain ⟨-, -, a, b, -⟩ := decided_facts he
        rw [h.initTime] at b
        rw [h.minTime] at a
        rcases hc with hc | hc <;> linarith) h.run hstart).1
    exact Along.all (Situations.along this) e he
  · have := Along.all ((h.terminal_along hp.nominal_nonneg).mono (fun s e h => h.2.2)) e he
    linarith

/-- The steps after the first ones are landings. -/
theorem PlanOf.tails (h : PlanOf p integ left right t0 t1 left' right' d) (h1 : left.steps.length = right.steps.length)
    (h2 : left.steps.length ≤ 1) : ∀ s ∈ left'.steps.tail ++ right'.steps.tail, ∃ e ∈ d.log, e.step = s := by
  have hst : d.l0.steps.length = 1 ∧ d.r0.steps.length = 1 := by
    rcases h.begins.steps with ⟨hne, e1, e2⟩ | ⟨-, -, u, -, e1, e2⟩
    · have : left.steps.length = 1 := by
        rcases Nat.lt_or_ge left.steps.length 1 with hlt | hge
        · exfalso
          apply hne
          exact ⟨List.length_eq_zero_iff.mp (by omega), List.length_eq_zero_iff.mp (by omega)⟩
        · omega
      rw [e1, e2]
      exact ⟨this, h1 ▸ this⟩
    · rw [e1, e2]; exact ⟨rfl, rfl⟩
  obtain ⟨⟨l, hl⟩, r, hr⟩ := hst.imp List.length_eq_one_iff.mp List.length_eq_one_iff.mp
  have re : ∀ (fp fp' : FootPrint K) (s : Step K) (t : K), fp.steps = [s] → Retimed fp t fp' → fp'.steps.tail = [] := by
    rintro fp fp' s t hs ⟨older, x, k, rfl⟩
    rw [hs] at k
    have k' := congrArg List.length k
    simp only [List.length_append, List.length_singleton] at k'
    have : older = [] := List.length_eq_zero_iff.mp (by omega)
    subst this
    rfl
  intro s hs
  rcases h.effect with ⟨-, rfl, rfl⟩ | ⟨-, a, b, -, -, ⟨-, rfl, rfl⟩ | ⟨-, rfl, k⟩ | ⟨-, k, rfl⟩⟩
  · simp only [extendBy, hl, hr, List.cons_append, List.nil_append, List.tail_cons] at hs
    rcases List.mem_append.mp hs with hs | hs <;> obtain ⟨e, he, -, rfl⟩ := mem_stepsOf hs <;> exact ⟨e, he, rfl⟩
  · rw [hl, hr] at hs; simp at hs
  · rw [hl, re _ _ _ _ hr k] at hs; simp at hs
  · rw [hr, re _ _ _ _ hl k] at hs; simp at hs

/-- The feet start together. -/
theorem PlanOf.starts_together (h : PlanOf p integ left right t0 t1 left' right' d)
    (ht : (left.steps = [] ∧ right.steps = []) ∨
      ∃ l r, left.steps.getLast? = some l ∧ right.steps.getLast? = some r ∧ l.impactTime = r.impactTime) : d.q.firstStep = true := by
  have hf := h.begins.first
  rcases ht with ⟨e1, e2⟩ | ⟨l, r, e1, e2, e⟩
  · rw [e1, e2] at hf
    generalize d.q.firstStep = b at *
    generalize d.q.swingLeft = b' at *
    cases hf
    rfl
  · rw [e1, e2] at hf
    generalize d.q.firstStep = b at *
    generalize d.q.swingLeft = b' at *
    cases hf with
    | together => rfl
    | leftOlder _ _ hlt => exact absurd e hlt.ne
    | rightOlder _ _ hlt => exact absurd e hlt.ne'

/-- The robot stands on the most recent contact. -/
theorem PlanOf.prev_latest (h : PlanOf p integ left right t0 t1 left' right' d) {l r : Step K}
    (hl : left.steps.getLast? = some l) (hr : right.steps.getLast? = some r) :
    d.prev.impactTime = max l.impactTime r.impactTime := by
  rcases h.begins.steps with ⟨-, e1, e2⟩ | ⟨e1, -⟩
  · have a := h.begins.last
    have b := h.begins.swing
    rw [e1, e2] at a b
    cases hs : d.q.swingLeft <;> simp only [hs, hl, hr, Bool.false_eq_true, if_true, if_false, Option.some.injEq] at a b
    · rw [← a, max_eq_left]; rw [a]; exact b r rfl
    · rw [← a, max_eq_right]; rw [a]; exact b l rfl
  · rw [e1] at hl; cases hl

end Uni.Spec
