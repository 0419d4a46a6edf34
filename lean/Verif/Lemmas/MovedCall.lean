import Verif.Lemmas.MovedInit

/-! # Displacements: a whole call of the planner -/

set_option autoImplicit false
set_option linter.unusedSectionVars false

namespace Uni.Planner
variable {K : Type*} [Field K] [LinearOrder K] [Trig K]

/-- The end of `finish`. -/
def finishWith (p : Planner K) (nl nr : Nat) : Bool × Foot K × Foot K → PlanResult K
  | (false, left, right) => .done false p left.fp right.fp
  | (true, left, right) =>
    if nl = left.fp.numberOfSteps ∧ nr = right.fp.numberOfSteps then p.alignLastSteps left.fp right.fp
    else .done true p left.fp right.fp

theorem finish_eq (p : Planner K) (sol : K → UState K) (nl nr : Nat) (s : Loop K) :
    p.finish sol nl nr s = { p with swingLeft := s.swingLeft, firstStep := s.firstStep }.finishWith nl nr
      (if p.addTerminal then
        { p with swingLeft := s.swingLeft, firstStep := s.firstStep }.addTerminalStep s.swingLeft s.left s.right (sol p.endTime)
      else (true, s.left, s.right)) := by
  unfold finish finishWith
  rfl

end Uni.Planner

namespace Uni.Spec
variable {g : Move}

/-- Outcomes of a call of the planner correspond; no step lands at a negative time. -/
def PlanMoved (g : Move) : PlanResult ℝ → PlanResult ℝ → Prop
  | .done b p l r, .done b' p' l' r' =>
    b' = b ∧ PlannerMoved g p p' ∧ l' = g.footPrint l ∧ r' = g.footPrint r ∧ l.Timed ∧ r.Timed
  | .ub w, .ub w' => w' = w
  | .outOfFuel, .outOfFuel => True
  | _, _ => False

theorem last_timed {f : FootPrint ℝ} (h : f.Timed) {s : Step ℝ} (hs : f.getLastStep = some s) : 0 ≤ s.impactTime :=
  h s (List.mem_of_getLast? hs)

theorem alignLastSteps (hd : 0 ≤ g.delay) {p p' : Planner ℝ} (h : PlannerMoved g p p') {l r : FootPrint ℝ} (hl : l.Timed)
    (hr : r.Timed) : PlanMoved g (p.alignLastSteps l r) (p'.alignLastSteps (g.footPrint l) (g.footPrint r)) := by
  unfold Planner.alignLastSteps
  rw [g.getLastStep, g.getLastStep]
  have er : p'.resetStartingFoot = p.resetStartingFoot := by rw [h.rest]
  have hp : ∀ b : Bool, PlannerMoved g (if p.resetStartingFoot then p else { p with startLeft := b })
      (if p'.resetStartingFoot then p' else { p' with startLeft := b }) := by
    intro b
    rw [er]
    split_ifs
    · exact h
    · exact ⟨h.ctrl, by rw [h.rest]⟩
  cases el : l.getLastStep with
  | none => cases r.getLastStep <;> exact rfl
  | some a =>
    cases er' : r.getLastStep with
    | none => exact rfl
    | some b =>
      simp only [Option.map_some, Move.step_impactTime, add_lt_add_iff_right]
      have ha := last_timed hl el
      have hb := last_timed hr er'
      by_cases h1 : b.impactTime < a.impactTime
      · rw [if_pos h1, if_pos h1]
        refine ⟨rfl, hp false, rfl, ?_, hl, Move.timed_addStep (Move.timed_clearLastStep hr) _⟩
        rw [g.clearLastStep]
        exact congrArg Prod.snd (g.addStep hd r.clearLastStep { b with impactTime := a.impactTime } ha)
      rw [if_neg h1, if_neg h1]
      by_cases h2 : a.impactTime < b.impactTime
      · rw [if_pos h2, if_pos h2]
        refine ⟨rfl, hp true, ?_, rfl, Move.timed_addStep (Move.timed_clearLastStep hl) _, hr⟩
        rw [g.clearLastStep]
        exact congrArg Prod.snd (g.addStep hd l.clearLastStep { a with impactTime := b.impactTime } hb)
      · rw [if_neg h2, if_neg h2]
        exact ⟨rfl, h, rfl, rfl, hl, hr⟩

theorem finish (hd : 0 ≤ g.delay) {p : Planner ℝ} {c' : Controllers ℝ}
    (h : CtrlMoved g (decide (p.controller = .personFollowing)) p.ctrl c') (h0 : 0 ≤ p.initTime) (hn : 0 ≤ p.nominalTime)
    {sol sol' : ℝ → UState ℝ} (hsol : ∀ t, sol' (t + g.delay) = g.pose (sol t)) (nl nr : Nat) {s : Loop ℝ} (hs : Move.Sound s) :
    PlanMoved g (p.finish sol nl nr s) ((g.planner p c').finish sol' nl nr (g.loop s)) := by
  rw [Planner.finish_eq, Planner.finish_eq]
  have hp : PlannerMoved g { p with swingLeft := s.swingLeft, firstStep := s.firstStep }
      { g.planner p c' with swingLeft := (g.loop s).swingLeft, firstStep := (g.loop s).firstStep } := ⟨h, rfl⟩
  have e1 : (g.planner p c').addTerminal = p.addTerminal := rfl
  have e2 : (g.planner p c').endTime = p.endTime + g.delay := rfl
  rw [e1, e2, hsol]
  have key : ∀ q q' : Bool × Foot ℝ × Foot ℝ, q' = (q.1, g.ufoot q.2.1, g.ufoot q.2.2) → q.2.1.fp.Timed → q.2.2.fp.Timed →
      PlanMoved g (({ p with swingLeft := s.swingLeft, firstStep := s.firstStep } : Planner ℝ).finishWith nl nr q)
      (({ g.planner p c' with swingLeft := (g.loop s).swingLeft, firstStep := (g.loop s).firstStep } :
        Planner ℝ).finishWith nl nr q') := by
    rintro ⟨_ | _, a, b⟩ _ rfl ha hb
    · exact ⟨rfl, hp, rfl, rfl, ha, hb⟩
    · simp only [Planner.finishWith, g.ufoot_number]
      split_ifs
      · exact alignLastSteps hd hp ha hb
      · exact ⟨rfl, hp, rfl, rfl, ha, hb⟩
  by_cases hb : p.addTerminal = true
  · rw [if_pos hb, if_pos hb]
    have := Move.timed_terminal (p := { p with swingLeft := s.swingLeft, firstStep := s.firstStep }) (b := s.swingLeft) hs.left
      hs.right (sol p.endTime)
    exact key _ _ (g.terminal (p := { p with swingLeft := s.swingLeft, firstStep := s.firstStep }) hd h0 hn c' s.swingLeft
      s.left s.right (sol p.endTime)) this.1 this.2
  · rw [if_neg hb, if_neg hb]
    exact key (true, s.left, s.right) _ rfl hs.left hs.right

theorem plan (hd : 0 ≤ g.delay) {p : Planner ℝ} {c' : Controllers ℝ}
    (h : CtrlMoved g (decide (p.controller = .personFollowing)) p.ctrl c') (h0 : 0 ≤ p.initTime) (hn : 0 ≤ p.nominalTime)
    {sol sol' : ℝ → UState ℝ} (hsol : ∀ t, sol' (t + g.delay) = g.pose (sol t)) (fuel : Nat) {l r : Foot ℝ} (hl : l.fp.Timed)
    (hr : r.fp.Timed) :
    PlanMoved g (p.plan sol fuel l r) ((g.planner p c').plan sol' fuel (g.ufoot l) (g.ufoot r)) := by
  unfold Planner.plan
  have e1 : (g.planner p c').swingLeft = p.swingLeft := rfl
  have e2 : (if p.swingLeft = true then g.ufoot r else g.ufoot l).getLastStep =
      (if p.swingLeft = true then r else l).getLastStep.map g.step := by
    split_ifs <;> exact g.ufoot_last _
  rw [e1, e2]
  cases (if p.swingLeft = true then r else l).getLastStep with
  | none => exact ⟨rfl, plannerMoved h, rfl, rfl, hl, hr⟩
  | some prev =>
    simp only [Option.map_some]
    have e3 : (g.planner p c').initialLoop (g.ufoot l) (g.ufoot r) (g.step prev) = g.loop (p.initialLoop l r prev) := by
      unfold Planner.initialLoop
      have a1 : (g.planner p c').initTime = p.initTime + g.delay := rfl
      have a2 : (g.planner p c').firstStep = p.firstStep := rfl
      have a3 : (g.planner p c').nominalTime = p.nominalTime := rfl
      rw [a1, a2, a3, e1]
      simp only [Move.loop, Move.step_impactTime, add_sub_add_right_eq_sub]
      norm_num
    have hs : Move.Sound (p.initialLoop l r prev) := by
      refine ⟨Or.inl ?_, ?_, hl, hr⟩
      · show (-1 : ℝ) < 0; norm_num
      · show 0 ≤ if p.firstStep = true then p.nominalTime else 0
        split_ifs
        · exact hn
        · exact le_refl _
    rw [e3, g.run_loop hd h0 c' hsol fuel hs, g.ufoot_number, g.ufoot_number]
    have hsl := fun s' => Move.sound_loop (s' := s') h0 sol fuel hs
    cases hx : p.loop sol fuel (p.initialLoop l r prev) with
    | outOfFuel => trivial
    | failed s =>
      have := hsl s (Or.inr hx)
      exact ⟨rfl, ⟨h, rfl⟩, rfl, rfl, this.left, this.right⟩
    | exit s =>
      have := hsl s (Or.inl hx)
      exact finish hd h h0 hn hsol _ _ this

/-- `computeNewSteps` on displaced footprints. -/
theorem computeNewSteps (hd : 0 ≤ g.delay) {integ : Integrator ℝ} {p p' : Planner ℝ} (hi : IntegratorMoved g p.controller integ)
    (h : PlannerMoved g p p') (fuel : Nat) {l r : FootPrint ℝ} (hl : l.Timed) (hr : r.Timed) (hs : l.steps ≠ [] ∨ r.steps ≠ [])
    (t e : ℝ) (h0 : 0 ≤ t) (hn : 0 ≤ p.nominalTime) (hm : p.minTime ≤ p.nominalTime) :
    PlanMoved g (p.computeNewSteps integ fuel l r t e)
      (p'.computeNewSteps integ fuel (g.footPrint l) (g.footPrint r) (t + g.delay) (e + g.delay)) := by
  unfold Planner.computeNewSteps
  have a1 : p'.maxLength = p.maxLength := by rw [h.rest]
  have a2 : p'.nominalWidth = p.nominalWidth := by rw [h.rest]
  have a3 : p'.maxLengthBackward = p.maxLengthBackward := by rw [h.rest]
  have a4 : p'.maxAngle = p.maxAngle := by rw [h.rest]
  have a5 : p'.minAngle = p.minAngle := by rw [h.rest]
  have e1 : ({ p' with initTime := t + g.delay, endTime := e + g.delay } : Planner ℝ) =
      g.planner { p with initTime := t, endTime := e } p'.ctrl := by
    conv_lhs => rw [h.rest]
    rfl
  rw [e1, a1, a2, a3, a4, a5]
  split_ifs
  · exact ⟨rfl, h, rfl, rfl, hl, hr⟩
  · exact ⟨rfl, h, rfl, rfl, hl, hr⟩
  · exact ⟨rfl, h, rfl, rfl, hl, hr⟩
  · obtain ⟨c1, h1, h2, hk⟩ := setSaturations (g := g) { p with initTime := t, endTime := e } h.ctrl
    rw [h2]
    rcases hx : Planner.setSaturations { p with initTime := t, endTime := e } with ⟨_ | _, q⟩
    · rw [hx] at h1 hk
      refine ⟨rfl, ⟨?_, rfl⟩, rfl, rfl, hl, hr⟩
      rw [hk.controller]; exact h1
    · rw [hx] at h1 hk
      simp only
      have hc : CtrlMoved g (decide (q.controller = .personFollowing)) q.ctrl c1 := by rw [hk.controller]; exact h1
      have hs' : (Foot.new l).getLastStep ≠ none ∨ (Foot.new r).getLastStep ≠ none := by
        rcases hs with hs | hs
        · exact Or.inl fun hh => hs (List.getLast?_eq_none_iff.mp hh)
        · exact Or.inr fun hh => hs (List.getLast?_eq_none_iff.mp hh)
      have hq0 : 0 ≤ q.initTime := by rw [hk.initTime]; exact h0
      have hqn : 0 ≤ q.nominalTime := by rw [hk.nominalTime]; exact hn
      have hqm : q.minTime ≤ q.nominalTime := by rw [hk.nominalTime, hk.minTime]; exact hm
      have hg := initializePlanner hd (p := q) (by rw [hk.controller]; exact hi) hc (Foot.new l) (Foot.new r) hs' hq0 hqm
      rw [g.ufoot_new, g.ufoot_new]
      cases hy : q.initializePlanner integ (Foot.new l) (Foot.new r) with
      | failed q1 a b =>
        rw [hy] at hg
        obtain ⟨fl, fr, k, c2, h3, e2⟩ := hg
        rw [e2]
        refine ⟨rfl, ⟨?_, rfl⟩, rfl, rfl, ?_, ?_⟩
        · rw [k.controller]; exact h3
        · rw [fl]; exact hl
        · rw [fr]; exact hr
      | ub w =>
        rw [hy] at hg
        rw [show (g.planner q c1).initializePlanner _ _ _ = _ from hg]
        rfl
      | ok q1 a b sol =>
        rw [hy] at hg
        obtain ⟨fl, fr, k, c2, sol', h3, hsol, e2⟩ := hg
        rw [e2]
        refine plan hd ?_ ?_ ?_ hsol fuel ?_ ?_
        · rw [k.controller]; exact h3
        · rw [k.initTime]; exact hq0
        · rw [k.nominalTime]; exact hqn
        · rw [fl]; exact hl
        · rw [fr]; exact hr

end Uni.Spec
