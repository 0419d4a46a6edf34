import Verif.Lemmas.FootPrint
import Verif.Spec.FootLog

/-! # C01–C03: properties of `FootPrint` -/

set_option autoImplicit false
set_option linter.unusedSectionVars false

namespace Uni.FootPrint
variable {K : Type*} [Field K] [LinearOrder K]

/-! ## C01 -/

/-- C01 (one call): `addStep` refuses exactly negative impact times, without any change; otherwise
it appends the step, labelled with the footprint's own name. -/
theorem C01_addStep (fp : FootPrint K) (s : Step K) :
    (s.impactTime < 0 → fp.addStep s = (false, fp)) ∧
    (0 ≤ s.impactTime → fp.addStep s =
      (true, ⟨fp.steps ++ [{ s with footName := fp.footName }], fp.footName⟩)) := by
  constructor
  · intro h; simp [addStep, addStepRaw, h]
  · intro h; simp [addStep, addStepRaw, not_lt.mpr h]

/-- C01: whatever calls are made on a fresh, named footprint, every stored step has a non-negative
impact time and the footprint's name. -/
theorem C01_history (name : String) (ops : List (Op K)) :
    ∀ s ∈ (((empty : FootPrint K).setFootName name).runAll ops).steps,
      0 ≤ s.impactTime ∧ s.footName = name := by
  have h := wellFormed_runAll ops ((empty : FootPrint K).setFootName name)
    (by intro s hs; simp [empty, setFootName] at hs)
  intro s hs
  have := h.1 s hs
  rw [h.2] at this
  exact this

/-- C01: a footprint that was given no name labels its steps "footprint". -/
theorem C01_unnamed (ops : List (Op K)) :
    ∀ s ∈ ((empty : FootPrint K).runAll ops).steps, 0 ≤ s.impactTime ∧ s.footName = "footprint" := by
  have h := wellFormed_runAll ops (empty : FootPrint K) (by intro s hs; simp [empty] at hs)
  intro s hs
  have := h.1 s hs
  rw [h.2] at this
  exact this

/-- Non-vacuity of C01: a history mixing accepted and refused calls which leaves two steps. -/
example : (((empty : FootPrint ℚ).setFootName "left").runAll
    [.addStep ⟨⟨0, 1⟩, 0, 3, "right"⟩, .addStepRaw ⟨0, 0⟩ 1 (-1), .addStepRaw ⟨2, 2⟩ 1 0,
     .addStepRaw ⟨2, 3⟩ 1 7, .clearLastStep]).steps =
    [⟨⟨0, 1⟩, 0, 3, "left"⟩, ⟨⟨2, 2⟩, 1, 0, "left"⟩] := by decide +kernel

/-! ## C02 -/

/-- C02: if no step has landed by `t` the call fails and nothing changes. -/
theorem C02_none (fp : FootPrint K) (t : K) (h : ∀ s ∈ fp.steps, t < s.impactTime) :
    fp.keepOnlyPresentStep t = (false, fp) := by
  have : fp.steps.reverse.find? (fun a => decide (a.impactTime ≤ t)) = none := by
    rw [List.find?_eq_none]
    intro s hs
    simpa using h s (List.mem_reverse.mp hs)
  simp [keepOnlyPresentStep, this]

/-- C02: otherwise, if `s` is the newest step with `impactTime ≤ t` (all steps after it in the list
land later than `t`), exactly `s` is left. `0 ≤ s.impactTime` holds for every step of a footprint
filled through `addStep` (C01). -/
theorem C02_some (fp : FootPrint K) (t : K) (older newer : List (Step K)) (s : Step K)
    (hsplit : fp.steps = older ++ s :: newer) (hs : s.impactTime ≤ t)
    (hnewer : ∀ x ∈ newer, t < x.impactTime) (hpos : 0 ≤ s.impactTime) :
    fp.keepOnlyPresentStep t = (true, ⟨[{ s with footName := fp.footName }], fp.footName⟩) := by
  have : fp.steps.reverse.find? (fun a => decide (a.impactTime ≤ t)) = some s := by
    have hnone : newer.reverse.find? (fun a => decide (a.impactTime ≤ t)) = none := by
      rw [List.find?_eq_none]
      intro x hx
      simpa using hnewer x (List.mem_reverse.mp hx)
    rw [hsplit, List.reverse_append, List.reverse_cons, List.append_assoc, List.find?_append, hnone]
    simp [hs]
  simp [keepOnlyPresentStep, this, clearSteps, addStep, addStepRaw, not_lt.mpr hpos]

/-- C02: the two cases above are exhaustive. -/
theorem C02_exhaustive (fp : FootPrint K) (t : K) :
    (∀ s ∈ fp.steps, t < s.impactTime) ∨
    ∃ older s newer, fp.steps = older ++ s :: newer ∧ s.impactTime ≤ t ∧
      ∀ x ∈ newer, t < x.impactTime := by
  generalize fp.steps = l
  induction l with
  | nil => left; simp
  | cons a l ih =>
    rcases ih with h | ⟨older, s, newer, rfl, hs, hn⟩
    · rcases lt_or_ge t a.impactTime with ha | ha
      · left; simpa [ha] using h
      · right; exact ⟨[], a, l, rfl, ha, h⟩
    · right; exact ⟨a :: older, s, newer, rfl, hs, hn⟩

/-- C02 (reachable footprints): after any history, `keepOnlyPresentStep t` either fails with nothing
landed by `t` and no change, or leaves exactly one step, which was stored, landed by `t`, and — when
the footprint was filled in time order — is the one landing last among those landed by `t`. -/
theorem C02_reachable (name : String) (ops : List (Op K)) (t : K) :
    let fp := ((empty : FootPrint K).setFootName name).runAll ops
    ((fp.keepOnlyPresentStep t = (false, fp)) ∧ ∀ s ∈ fp.steps, t < s.impactTime) ∨
    ∃ s ∈ fp.steps, s.impactTime ≤ t ∧ fp.keepOnlyPresentStep t = (true, ⟨[s], name⟩) ∧
      (fp.steps.Pairwise (fun a b => a.impactTime ≤ b.impactTime) →
        ∀ x ∈ fp.steps, x.impactTime ≤ t → x.impactTime ≤ s.impactTime) := by
  intro fp
  have hname : fp.footName = name := (wellFormed_runAll ops _
    (by intro s hs; simp [empty, setFootName] at hs)).2
  rcases C02_exhaustive fp t with h | ⟨older, s, newer, hsplit, hs, hn⟩
  · exact Or.inl ⟨C02_none fp t h, h⟩
  · right
    have hmem : s ∈ fp.steps := by simp [hsplit]
    have hwf := C01_history name ops s hmem
    refine ⟨s, hmem, hs, ?_, ?_⟩
    · rw [C02_some fp t older newer s hsplit hs hn hwf.1, hname]
      congr 3
      rw [← hwf.2]
    · intro hsorted x hx hxt
      rw [hsplit] at hsorted hx
      rw [List.pairwise_append] at hsorted
      simp only [List.mem_append, List.mem_cons] at hx
      rcases hx with hx | rfl | hx
      · exact hsorted.2.2 x hx s (by simp)
      · exact le_rfl
      · exact absurd hxt (not_le.mpr (hn x hx))

/-- C02 (footprints built from a list of steps, in any order, with non-negative times): the call fails, without changes, if no given
step has landed by `t`; otherwise exactly one is left, a latest one of those landed by `t`. -/
theorem C02_from_steps {given : List (Step K)} {fp : FootPrint K} (hfp : FromSteps given fp) (hpos : ∀ s ∈ given, 0 ≤ s.impactTime) (t : K) :
    (fp.keepOnlyPresentStep t = (false, fp) ∧ ∀ s ∈ given, t < s.impactTime) ∨
    ∃ s ∈ given, s.impactTime ≤ t ∧ (∀ x ∈ given, x.impactTime ≤ t → x.impactTime ≤ s.impactTime) ∧
      fp.keepOnlyPresentStep t = (true, ⟨[{ s with footName := "footprint" }], "footprint"⟩) := by
  obtain ⟨hname, hperm, hsorted⟩ := hfp
  rcases C02_exhaustive fp t with h | ⟨older, s, newer, hsplit, hs, hn⟩
  · exact Or.inl ⟨C02_none fp t h, fun s hs => h s (hperm.mem_iff.mpr hs)⟩
  · right
    have hmem : s ∈ given := hperm.mem_iff.mp (by simp [hsplit])
    refine ⟨s, hmem, hs, fun x hx hxt => ?_, ?_⟩
    · have hx := hperm.mem_iff.mpr hx
      rw [hsplit] at hsorted hx
      rw [List.pairwise_append] at hsorted
      simp only [List.mem_append, List.mem_cons] at hx
      rcases hx with hx | rfl | hx
      · exact hsorted.2.2 x hx s (by simp)
      · exact le_rfl
      · exact absurd hxt (not_le.mpr (hn x hx))
    · rw [C02_some fp t older newer s hsplit hs hn (hpos s hmem), hname]

/-- Non-vacuity of `C02_from_steps`. -/
example : FromSteps [⟨⟨1, 0⟩, 0, 2, ""⟩, ⟨⟨0, 0⟩, 0, 1, ""⟩]
    (⟨[⟨⟨0, 0⟩, 0, 1, ""⟩, ⟨⟨1, 0⟩, 0, 2, ""⟩], "footprint"⟩ : FootPrint ℚ) :=
  ⟨rfl, List.Perm.swap _ _ _, by norm_num⟩

/-- Non-vacuity of C02: both cases occur. -/
example : (⟨[⟨⟨0, 0⟩, 0, 1, "l"⟩, ⟨⟨1, 0⟩, 0, 2, "l"⟩, ⟨⟨2, 0⟩, 0, 3, "l"⟩], "l"⟩ : FootPrint ℚ).keepOnlyPresentStep
    (5 / 2) = (true, ⟨[⟨⟨1, 0⟩, 0, 2, "l"⟩], "l"⟩) := by decide +kernel
example : (⟨[⟨⟨0, 0⟩, 0, 1, "l"⟩], "l"⟩ : FootPrint ℚ).keepOnlyPresentStep (1 / 2) =
    (false, ⟨[⟨⟨0, 0⟩, 0, 1, "l"⟩], "l"⟩) := by decide +kernel

/-- Disagreement found while proving C02: for a footprint built from a user list which contains a
negative time (second constructor), a failing call loses every step. -/
theorem C02_negative_time_loses_steps :
    ∃ fp : FootPrint ℚ, FromSteps fp.steps fp ∧ fp.steps ≠ [] ∧
      (fp.keepOnlyPresentStep 0).1 = false ∧ (fp.keepOnlyPresentStep 0).2.steps = [] :=
  ⟨⟨[⟨⟨0, 0⟩, 0, -1, ""⟩], "footprint"⟩, by simp [FromSteps], by simp, by decide +kernel, by decide +kernel⟩

/-! ## C03: refinement to the abstract log -/

/-- The abstract log of a footprint. -/
def log (fp : FootPrint K) : Spec.Log K :=
  fp.steps.reverse.map fun s => ⟨s.position, s.angle, s.impactTime⟩

/-- The request corresponding to a call. -/
def Op.req : Op K → Spec.Req K
  | .addStep s => .land ⟨s.position, s.angle, s.impactTime⟩
  | .addStepRaw p θ t => .land ⟨p, θ, t⟩
  | .dropPastSteps => .forgetAllButNewest
  | .keepOnlyPresentStep t => .keepPresentAt t
  | .clearSteps => .forgetAll
  | .clearLastStep => .forgetNewest

/-- C03: each call answers and acts as the log specification demands. -/
theorem C03_refines (fp : FootPrint K) (o : Op K) (hwf : fp.WellFormed) :
    Spec.Reply o.req fp.log (fp.run o).1 (fp.run o).2.log := by
  have hadd : ∀ p θ t, Spec.Reply (.land ⟨p, θ, t⟩) fp.log (fp.addStepRaw p θ t).1
      (fp.addStepRaw p θ t).2.log := by
    intro p θ t
    unfold addStepRaw
    split
    · rename_i h; exact .landBad _ _ h
    · rename_i h
      have := Spec.Reply.landOk (⟨p, θ, t⟩ : Spec.Touchdown K) fp.log (not_lt.mp h)
      simpa [log] using this
  cases o with
  | addStep s => exact hadd _ _ _
  | addStepRaw p θ t => exact hadd _ _ _
  | dropPastSteps =>
    rcases List.eq_nil_or_concat fp.steps with h | ⟨l, s, h⟩
    · have : fp.log = [] := by simp [log, h]
      simp only [Op.req, run, dropPastSteps, numberOfSteps, h, this]
      simpa [this] using (Spec.Reply.newestBad : Spec.Reply (K := K) _ _ _ _)
    · have hl : fp.log = ⟨s.position, s.angle, s.impactTime⟩ ::
          (l.reverse.map fun s => ⟨s.position, s.angle, s.impactTime⟩) := by simp [log, h]
      rw [hl]
      have := Spec.Reply.newestOk (⟨s.position, s.angle, s.impactTime⟩ : Spec.Touchdown K)
        (l.reverse.map fun s => ⟨s.position, s.angle, s.impactTime⟩)
      simpa [Op.req, run, dropPastSteps, numberOfSteps, h, log] using this
  | keepOnlyPresentStep t =>
    rcases C02_exhaustive fp t with h | ⟨older, s, newer, hsplit, hs, hn⟩
    · simp only [run, C02_none fp t h]
      refine .presentBad t fp.log ?_
      intro x hx
      simp only [log, List.mem_map, List.mem_reverse] at hx
      obtain ⟨y, hy, rfl⟩ := hx
      exact h y hy
    · have hpos := (hwf s (by simp [hsplit])).1
      simp only [run, C02_some fp t older newer s hsplit hs hn hpos]
      have := Spec.Reply.presentOk t (⟨s.position, s.angle, s.impactTime⟩ : Spec.Touchdown K)
        (newer.reverse.map fun s => ⟨s.position, s.angle, s.impactTime⟩)
        (older.reverse.map fun s => ⟨s.position, s.angle, s.impactTime⟩) hs
        (by
          intro x hx
          simp only [List.mem_map, List.mem_reverse] at hx
          obtain ⟨y, hy, rfl⟩ := hx
          exact hn y hy)
      simpa [Op.req, log, hsplit] using this
  | clearSteps => exact .all _
  | clearLastStep =>
    rcases List.eq_nil_or_concat fp.steps with h | ⟨l, s, h⟩
    · have : fp.log = [] := by simp [log, h]
      have h2 : (fp.run .clearLastStep) = (true, fp) := by
        simp [run, clearLastStep, numberOfSteps, h]
      rw [h2, this]
      exact .lastNone
    · have hl : fp.log = ⟨s.position, s.angle, s.impactTime⟩ ::
          (l.reverse.map fun s => ⟨s.position, s.angle, s.impactTime⟩) := by simp [log, h]
      rw [hl]
      have := Spec.Reply.lastOk (⟨s.position, s.angle, s.impactTime⟩ : Spec.Touchdown K)
        (l.reverse.map fun s => ⟨s.position, s.angle, s.impactTime⟩)
      simpa [Op.req, run, clearLastStep, numberOfSteps, h, log] using this

/-- Runs of the abstract log. -/
inductive SpecRun : Spec.Log K → List (Spec.Req K × Bool) → Spec.Log K → Prop
  | nil (l) : SpecRun l [] l
  | cons {l l' l'' r b rs} (h : Spec.Reply r l b l') (t : SpecRun l' rs l'') :
      SpecRun l ((r, b) :: rs) l''

/-- The requests and answers observed along a sequence of calls. -/
def observed (fp : FootPrint K) : List (Op K) → List (Spec.Req K × Bool)
  | [] => []
  | o :: os => (o.req, (fp.run o).1) :: observed (fp.run o).2 os

/-- C03: a fresh footprint behaves, over every history, as the abstract log started empty; the last
step and the number of steps reported are those of the log. -/
theorem C03_history (name : String) (ops : List (Op K)) :
    let fp₀ := (empty : FootPrint K).setFootName name
    let fp := fp₀.runAll ops
    SpecRun [] (observed fp₀ ops) fp.log ∧
    fp.numberOfSteps = fp.log.length ∧
    (fp.getLastStep.map fun s => (⟨s.position, s.angle, s.impactTime⟩ : Spec.Touchdown K)) = fp.log.head? := by
  intro fp₀ fp
  refine ⟨?_, by simp [numberOfSteps, log], by simp [getLastStep, log, List.head?_reverse]⟩
  have key : ∀ (ops : List (Op K)) (g : FootPrint K), g.WellFormed →
      SpecRun g.log (observed g ops) (g.runAll ops).log := by
    intro ops
    induction ops with
    | nil => intro g _; exact .nil _
    | cons o os ih =>
      intro g hg
      exact .cons (C03_refines g o hg) (ih _ (wellFormed_run g o hg))
  have : fp₀.log = [] := by simp [fp₀, log, empty, setFootName]
  rw [← this]
  exact key ops fp₀ (by intro s hs; simp [fp₀, empty, setFootName] at hs)

end Uni.FootPrint
