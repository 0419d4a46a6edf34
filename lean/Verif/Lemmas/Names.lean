import Verif.Spec.Names
import Verif.Lemmas.MovedTiming
import Verif.Lemmas.MovedZmp
import Verif.Lemmas.MovedCall

/-! # Other names for the feet -/

set_option autoImplicit false
set_option linter.unusedSectionVars false

namespace Uni.Spec.Names
variable {K : Type} [Field K] [LinearOrder K] [FloorRing K] [Trig K] (ρ : String → String)

@[simp] theorem step_position (s : Step K) : (step ρ s).position = s.position := rfl
@[simp] theorem step_angle (s : Step K) : (step ρ s).angle = s.angle := rfl
@[simp] theorem step_impactTime (s : Step K) : (step ρ s).impactTime = s.impactTime := rfl
@[simp] theorem step_footName (s : Step K) : (step ρ s).footName = ρ s.footName := rfl
@[simp] theorem footPrint_steps (f : FootPrint K) : (footPrint ρ f).steps = f.steps.map (step ρ) := rfl
@[simp] theorem footPrint_footName (f : FootPrint K) : (footPrint ρ f).footName = ρ f.footName := rfl
@[simp] theorem ptr_left (q : Ptr K) : (ptr ρ q).left = q.left := rfl
@[simp] theorem ptr_index (q : Ptr K) : (ptr ρ q).index = q.index := rfl
@[simp] theorem ptr_step (q : Ptr K) : (ptr ρ q).step = step ρ q.step := rfl

/-! ## The planner -/

theorem numberOfSteps (f : FootPrint K) : (footPrint ρ f).numberOfSteps = f.numberOfSteps := by
  simp [FootPrint.numberOfSteps]

theorem getLastStep (f : FootPrint K) : (footPrint ρ f).getLastStep = f.getLastStep.map (step ρ) := by
  simp [FootPrint.getLastStep]

theorem clearSteps (f : FootPrint K) : (footPrint ρ f).clearSteps = footPrint ρ f.clearSteps := rfl

theorem clearLastStep (f : FootPrint K) : (footPrint ρ f).clearLastStep = footPrint ρ f.clearLastStep := by
  unfold FootPrint.clearLastStep
  rw [numberOfSteps]
  split_ifs
  · rw [footPrint, footPrint]; simp only [List.map_dropLast]
  · rfl

theorem addStepRaw (f : FootPrint K) (p : Vec2 K) (a t : K) :
    (footPrint ρ f).addStepRaw p a t = ((f.addStepRaw p a t).1, footPrint ρ (f.addStepRaw p a t).2) := by
  unfold FootPrint.addStepRaw
  split_ifs
  · rfl
  · simp [footPrint, step]

/-- Only the contact of the argument is read. -/
theorem addStep (f : FootPrint K) (s s' : Step K) (hp : s'.position = s.position) (ha : s'.angle = s.angle)
    (ht : s'.impactTime = s.impactTime) :
    (footPrint ρ f).addStep s' = ((f.addStep s).1, footPrint ρ (f.addStep s).2) := by
  unfold FootPrint.addStep
  rw [hp, ha, ht]
  exact addStepRaw ρ f _ _ _

theorem keepOnlyPresentStep (f : FootPrint K) (t : K) : (footPrint ρ f).keepOnlyPresentStep t =
    ((f.keepOnlyPresentStep t).1, footPrint ρ (f.keepOnlyPresentStep t).2) := by
  unfold FootPrint.keepOnlyPresentStep
  have e : (footPrint ρ f).steps.reverse.find? (fun a => decide (a.impactTime ≤ t)) =
      (f.steps.reverse.find? (fun a => decide (a.impactTime ≤ t))).map (step ρ) := by
    rw [footPrint_steps, ← List.map_reverse, List.find?_map]
    rfl
  rw [e]
  cases f.steps.reverse.find? (fun a => decide (a.impactTime ≤ t)) with
  | none => rfl
  | some s => exact addStep ρ f.clearSteps s (step ρ s) rfl rfl rfl

/-- A foot of the planner. -/
def foot (f : Foot K) : Foot K := { f with fp := footPrint ρ f.fp }

/-- The variables of the loop. -/
def loop (s : Loop K) : Loop K := { s with prevStep := step ρ s.prevStep, left := foot ρ s.left, right := foot ρ s.right }

@[simp] theorem foot_fp (f : Foot K) : (foot ρ f).fp = footPrint ρ f.fp := rfl

theorem foot_last (f : Foot K) : (foot ρ f).getLastStep = f.getLastStep.map (step ρ) := getLastStep ρ f.fp

theorem foot_position (f : Foot K) (u : UState K) : (foot ρ f).footPosition u = f.footPosition u := rfl

theorem foot_from (f : Foot K) (u : UState K) :
    (foot ρ f).getFootPositionFromUnicycle u = f.getFootPositionFromUnicycle u := rfl

theorem foot_angle (f : Foot K) (s : Step K) : (foot ρ f).unicycleAngle (step ρ s) = f.unicycleAngle s := rfl

theorem foot_state (f : Foot K) (s : Step K) :
    (foot ρ f).getUnicycleStateFromStep (step ρ s) = f.getUnicycleStateFromStep s := rfl

theorem foot_addStep (f : Foot K) (u : UState K) (t : K) : (foot ρ f).addStepFromUnicycle u t =
    ((f.addStepFromUnicycle u t).1, foot ρ (f.addStepFromUnicycle u t).2) := by
  unfold Foot.addStepFromUnicycle
  have e : (foot ρ f).distanceSet = f.distanceSet := rfl
  rw [e]
  split_ifs
  · rfl
  · have := addStep ρ f.fp ⟨f.footPosition u, u.angle + f.yawOffset, t, ""⟩ ⟨f.footPosition u, u.angle + f.yawOffset, t, ""⟩
      rfl rfl rfl
    simp only [foot_fp, foot_position]
    have e2 : (foot ρ f).yawOffset = f.yawOffset := rfl
    rw [e2, this]
    rfl

theorem foot_addParallel (f other : Foot K) (t : K) : (foot ρ f).addParallelStep (foot ρ other) t =
    ((f.addParallelStep other t).1, foot ρ (f.addParallelStep other t).2) := by
  unfold Foot.addParallelStep
  split_ifs
  · rfl
  rw [foot_last]
  cases other.getLastStep with
  | none => rfl
  | some s =>
    simp only [Option.map_some, foot_angle, step_position]
    have e2 : (foot ρ f).yawOffset = f.yawOffset := rfl
    have e3 : (foot ρ f).distance = f.distance := rfl
    have e4 : (foot ρ other).distance = other.distance := rfl
    rw [e2, e3, e4, foot_fp, addStep ρ f.fp ⟨s.position + rot (other.unicycleAngle s) (f.distance - other.distance),
      other.unicycleAngle s + f.yawOffset, t, ""⟩ _ rfl rfl rfl]
    rfl

theorem foot_tiny (f : Foot K) (u : UState K) : (foot ρ f).isTinyStep u = f.isTinyStep u := by
  unfold Foot.isTinyStep
  rw [foot_last]
  cases f.getLastStep <;> rfl

theorem rPl (b : Bool) (l r : Foot K) (u : UState K) :
    Planner.get_rPl b (foot ρ l) (foot ρ r) u = Planner.get_rPl b l r u := by
  unfold Planner.get_rPl
  rw [foot_last, foot_last, foot_from, foot_from]
  cases l.getLastStep <;> cases r.getLastStep <;> cases l.getFootPositionFromUnicycle u <;>
    cases r.getFootPositionFromUnicycle u <;> rfl

theorem relative (b : Bool) (l r : Foot K) (u : UState K) :
    Planner.get_newStepRelativePosition b (foot ρ l) (foot ρ r) u = Planner.get_newStepRelativePosition b l r u := by
  unfold Planner.get_newStepRelativePosition
  cases b
  · simp only [Bool.false_eq_true, if_false, foot_last, foot_from]
    cases l.getLastStep <;> cases r.getFootPositionFromUnicycle u <;> rfl
  · simp only [if_true, foot_last, foot_from]
    cases r.getLastStep <;> cases l.getFootPositionFromUnicycle u <;> rfl

theorem loop_swing (s : Loop K) : (loop ρ s).swing = foot ρ s.swing := by
  unfold Loop.swing
  have e : (loop ρ s).swingLeft = s.swingLeft := rfl
  rw [e]; split_ifs <;> rfl

theorem loop_stance (s : Loop K) : (loop ρ s).stance = foot ρ s.stance := by
  unfold Loop.stance
  have e : (loop ρ s).swingLeft = s.swingLeft := rfl
  rw [e]; split_ifs <;> rfl

theorem loop_setSwing (s : Loop K) (f : Foot K) : (loop ρ s).setSwing (foot ρ f) = loop ρ (s.setSwing f) := by
  unfold Loop.setSwing
  have e : (loop ρ s).swingLeft = s.swingLeft := rfl
  rw [e]; split_ifs <;> rfl

theorem refresh (p : Planner K) (s : Loop K) : p.refresh (loop ρ s) = ((p.refresh s).1, loop ρ (p.refresh s).2) := by
  unfold Planner.refresh
  rw [loop_stance, foot_last]
  cases s.stance.getLastStep <;> rfl

theorem candidate (s : Loop K) (u : UState K) (d : K) : Planner.candidate (loop ρ s) u d = Planner.candidate s u d := by
  unfold Planner.candidate
  have e1 : (loop ρ s).left = foot ρ s.left := rfl
  have e2 : (loop ρ s).right = foot ρ s.right := rfl
  have e3 : (loop ρ s).swingLeft = s.swingLeft := rfl
  have e4 : (loop ρ s).prevStep = step ρ s.prevStep := rfl
  rw [e1, e2, e3, e4, rPl, relative, loop_stance, loop_swing, foot_angle, foot_position]

theorem body (p : Planner K) (sol : K → UState K) (s : Loop K) :
    p.body sol (loop ρ s) = ((p.body sol s).1, loop ρ (p.body sol s).2) := by
  unfold Planner.body
  have e1 : (loop ρ s).t = s.t := rfl
  have e2 : (loop ρ s).prevStep = step ρ s.prevStep := rfl
  have e3 : (loop ρ s).timeOffset = s.timeOffset := rfl
  have e4 : (loop ρ s).pauseTime = s.pauseTime := rfl
  have e5 : (loop ρ s).tOptim = s.tOptim := rfl
  have e6 : (loop ρ s).minCost = s.minCost := rfl
  have e7 : (loop ρ s).swingLeft = s.swingLeft := rfl
  simp only [e1, e2, e3, e4, e5, e6, e7, step_impactTime, loop_swing, loop_stance, foot_tiny, foot_addStep, foot_addParallel,
    candidate, foot_state]
  split_ifs
  · rfl
  · rcases s.swing.addStepFromUnicycle (sol s.tOptim) s.tOptim with ⟨_ | _, f⟩
    · simp only [loop_setSwing]
    · simp only [loop_setSwing]
      exact refresh ρ p { s.setSwing f with
              t := s.tOptim, pauseTime := 0, tOptim := -1, firstStep := false, timeOffset := 0,
              swingLeft := !s.swingLeft }
  · cases s.stance.getUnicycleStateFromStep s.prevStep with
    | none => rfl
    | some u' =>
      simp only
      split_ifs
      · exact refresh ρ p { s with pauseTime := s.t - s.prevStep.impactTime }
      · rcases s.swing.addParallelStep s.stance s.t with ⟨_ | _, f⟩
        · simp only [loop_setSwing]
        · simp only [loop_setSwing]
          exact refresh ρ p { s.setSwing f with
                  pauseTime := 0, firstStep := false, timeOffset := 0, swingLeft := !s.swingLeft }
  · cases Planner.candidate s (sol s.t) (s.t - s.prevStep.impactTime - s.pauseTime) with
    | none => rfl
    | some d =>
      simp only
      split_ifs <;> rfl
  · rfl

/-- The outcome of the loop. -/
def loopResult : Planner.LoopResult K → Planner.LoopResult K
  | .exit s => .exit (loop ρ s)
  | .failed s => .failed (loop ρ s)
  | .outOfFuel => .outOfFuel

theorem run_loop (p : Planner K) (sol : K → UState K) (n : Nat) : ∀ s : Loop K,
    p.loop sol n (loop ρ s) = loopResult ρ (p.loop sol n s) := by
  induction n with
  | zero => intro s; rfl
  | succ n ih =>
    intro s
    simp only [Planner.loop]
    have e1 : (loop ρ s).t = s.t := rfl
    rw [e1, body]
    split_ifs
    · rcases p.body sol s with ⟨_ | _, s'⟩
      · rfl
      · exact ih s'
    · rfl

/-- The return value and the feet. -/
def threes (q : Bool × Foot K × Foot K) : Bool × Foot K × Foot K := (q.1, foot ρ q.2.1, foot ρ q.2.2)

theorem terminal (p : Planner K) (b : Bool) (l r : Foot K) (u : UState K) :
    p.addTerminalStep b (foot ρ l) (foot ρ r) u = threes ρ (p.addTerminalStep b l r u) := by
  have key : ∀ (stance swing : Foot K) (both : Foot K → Foot K → Foot K × Foot K)
      (_ : ∀ a b, both (foot ρ a) (foot ρ b) = (foot ρ (both a b).1, foot ρ (both a b).2)),
      p.terminalWith b (foot ρ l) (foot ρ r) u (foot ρ stance) (foot ρ swing) both =
      threes ρ (p.terminalWith b l r u stance swing both) := by
    intro stance swing both hboth
    unfold Planner.terminalWith
    rw [foot_last, rPl, relative]
    cases hl : stance.getLastStep with
    | none => rfl
    | some prev =>
      simp only [Option.map_some]
      cases Planner.get_rPl b l r u with
      | none => rfl
      | some q =>
        cases Planner.get_newStepRelativePosition b l r u with
        | none => rfl
        | some rel =>
          simp only [step_impactTime, foot_angle, foot_position, foot_tiny, foot_addStep, foot_addParallel, foot_state]
          split_ifs
          · rcases swing.addStepFromUnicycle u (max (p.initTime + p.nominalTime) (prev.impactTime + p.nominalTime)) with
              ⟨_ | _, sw⟩
            · simp only [hboth, threes]
            · simp only [hboth, threes]
          · cases stance.getUnicycleStateFromStep prev with
            | none => rfl
            | some u' =>
              simp only
              split_ifs
              · rfl
              · simp only [hboth, threes]
  rw [Planner.addTerminalStep_eq, Planner.addTerminalStep_eq]
  cases b
  · exact key l r (fun sw st => (st, sw)) fun _ _ => rfl
  · exact key r l (fun sw st => (sw, st)) fun _ _ => rfl

theorem alignLastSteps (p : Planner K) (l r : FootPrint K) :
    p.alignLastSteps (footPrint ρ l) (footPrint ρ r) = planResult ρ (p.alignLastSteps l r) := by
  unfold Planner.alignLastSteps
  rw [getLastStep, getLastStep]
  cases l.getLastStep with
  | none => cases r.getLastStep <;> rfl
  | some a =>
    cases r.getLastStep with
    | none => rfl
    | some b =>
      have hR := congrArg Prod.snd (addStep ρ r.clearLastStep { b with impactTime := a.impactTime }
        { step ρ b with impactTime := a.impactTime } rfl rfl rfl)
      have hL := congrArg Prod.snd (addStep ρ l.clearLastStep { a with impactTime := b.impactTime }
        { step ρ a with impactTime := b.impactTime } rfl rfl rfl)
      simp only [Option.map_some, step_impactTime, clearLastStep]
      rw [hR, hL]
      split_ifs <;> rfl

theorem finish (p : Planner K) (sol : K → UState K) (nl nr : Nat) (s : Loop K) :
    p.finish sol nl nr (loop ρ s) = planResult ρ (p.finish sol nl nr s) := by
  rw [Planner.finish_eq, Planner.finish_eq]
  have e1 : (loop ρ s).swingLeft = s.swingLeft := rfl
  have e2 : (loop ρ s).firstStep = s.firstStep := rfl
  have e3 : (loop ρ s).left = foot ρ s.left := rfl
  have e4 : (loop ρ s).right = foot ρ s.right := rfl
  rw [e1, e2, e3, e4, terminal]
  have key : ∀ (p : Planner K) (q : Bool × Foot K × Foot K),
      p.finishWith nl nr (threes ρ q) = planResult ρ (p.finishWith nl nr q) := by
    rintro p ⟨_ | _, a, b⟩
    · rfl
    · simp only [threes, Planner.finishWith, foot_fp, numberOfSteps]
      split_ifs
      · exact alignLastSteps ρ p a.fp b.fp
      · rfl
  have := key { p with swingLeft := s.swingLeft, firstStep := s.firstStep } (if p.addTerminal then
        { p with swingLeft := s.swingLeft, firstStep := s.firstStep }.addTerminalStep s.swingLeft s.left s.right (sol p.endTime)
      else (true, s.left, s.right))
  rw [← this]
  congr 1
  split_ifs <;> rfl

theorem plan (p : Planner K) (sol : K → UState K) (fuel : Nat) (l r : Foot K) :
    p.plan sol fuel (foot ρ l) (foot ρ r) = planResult ρ (p.plan sol fuel l r) := by
  unfold Planner.plan
  have e2 : (if p.swingLeft = true then foot ρ r else foot ρ l).getLastStep =
      (if p.swingLeft = true then r else l).getLastStep.map (step ρ) := by
    split_ifs <;> exact foot_last ρ _
  rw [e2]
  cases (if p.swingLeft = true then r else l).getLastStep with
  | none => rfl
  | some prev =>
    simp only [Option.map_some]
    have e3 : p.initialLoop (foot ρ l) (foot ρ r) (step ρ prev) = loop ρ (p.initialLoop l r prev) := rfl
    rw [e3, run_loop, foot_fp, foot_fp, numberOfSteps, numberOfSteps]
    cases p.loop sol fuel (p.initialLoop l r prev) with
    | outOfFuel => rfl
    | failed s => rfl
    | exit s => exact finish ρ p sol _ _ s

theorem configureFoot (f : Foot K) (d y a b : K) :
    Planner.configureFoot (foot ρ f) d y a b = (Planner.configureFoot f d y a b).map (foot ρ) := by
  unfold Planner.configureFoot Foot.setTinyStepLength Foot.setTinyStepAngle
  simp only
  by_cases h1 : a < 0
  · simp only [if_pos h1]; rfl
  · by_cases h2 : b < 0
    · simp only [if_neg h1, if_pos h2]; rfl
    · simp only [if_neg h1, if_neg h2]; rfl

/-- The outcome of the search of the initial state. -/
def initResult : Planner.InitResult K → Planner.InitResult K
  | .failed p l r => .failed p (foot ρ l) (foot ρ r)
  | .ok p l r u => .ok p (foot ρ l) (foot ρ r) u
  | .ub w => .ub w

theorem initReferences (p : Planner K) (l r : Foot K) (u : UState K) (a b : K) :
    p.initReferences (foot ρ l) (foot ρ r) u a b = initResult ρ (p.initReferences l r u a b) := by
  unfold Planner.initReferences
  split_ifs
  · rfl
  simp only
  rcases p.ctrl.person.setDesiredPoint ⟨b, p.ctrl.person.getPersonPosition u.position u.angle, 0⟩ with ⟨_ | _, person⟩
  · rfl
  simp only
  split_ifs
  · split <;> rfl
  · rfl

theorem initialState (p : Planner K) (l r : Foot K) (t : K) :
    p.getInitialStateFromFeet (foot ρ l) (foot ρ r) t = initResult ρ (p.getInitialStateFromFeet l r t) := by
  unfold Planner.getInitialStateFromFeet
  rw [foot_last, foot_last]
  cases l.getLastStep with
  | none =>
    cases r.getLastStep with
    | none =>
      simp only [Option.map_none]
      cases p.stateWithoutSteps t with
      | fail => rfl
      | ub w => rfl
      | ok u => simp only [foot_addStep, initResult]
    | some b =>
      simp only [Option.map_none, Option.map_some, foot_state, step_impactTime]
      cases r.getUnicycleStateFromStep b with
      | none => rfl
      | some u => exact initReferences ρ _ l r u _ _
  | some a =>
    cases r.getLastStep with
    | none =>
      simp only [Option.map_none, Option.map_some, foot_state, step_impactTime]
      cases l.getUnicycleStateFromStep a with
      | none => rfl
      | some u => exact initReferences ρ _ l r u _ _
    | some b =>
      simp only [Option.map_some, foot_state, step_impactTime]
      cases r.getUnicycleStateFromStep b <;> cases l.getUnicycleStateFromStep a <;> simp only [initReferences] <;>
        split_ifs <;> first | rfl | exact @ite_self _ _ (_) _

/-- The outcome of the initialisation. -/
def setupResult : Planner.SetupResult K → Planner.SetupResult K
  | .failed p l r => .failed p (foot ρ l) (foot ρ r)
  | .ok p l r sol => .ok p (foot ρ l) (foot ρ r) sol
  | .ub w => .ub w

theorem initializePlanner (p : Planner K) (integ : Integrator K) (l r : Foot K) :
    p.initializePlanner integ (foot ρ l) (foot ρ r) = setupResult ρ (p.initializePlanner integ l r) := by
  unfold Planner.initializePlanner
  rw [configureFoot, configureFoot]
  cases Planner.configureFoot l (p.nominalWidth / 2) p.leftYaw p.minLength p.minAngle with
  | none => cases Planner.configureFoot r (-p.nominalWidth / 2) p.rightYaw p.minLength p.minAngle <;> rfl
  | some l1 =>
    cases Planner.configureFoot r (-p.nominalWidth / 2) p.rightYaw p.minLength p.minAngle with
    | none => rfl
    | some r1 =>
      simp only [Option.map_some, initialState]
      cases p.getInitialStateFromFeet l1 r1 p.initTime with
      | failed p1 a b => rfl
      | ub w => rfl
      | ok p1 a b u =>
        simp only [initResult]
        split_ifs
        · rfl
        · rcases integ p1 u p1.initTime p1.endTime with ⟨c, _ | sol⟩ <;> rfl

theorem computeNewSteps (p : Planner K) (integ : Integrator K) (fuel : Nat) (l r : FootPrint K) (t e : K) :
    p.computeNewSteps integ fuel (footPrint ρ l) (footPrint ρ r) t e =
      planResult ρ (p.computeNewSteps integ fuel l r t e) := by
  unfold Planner.computeNewSteps
  split_ifs
  · rfl
  · rfl
  · rfl
  · rcases Planner.setSaturations { p with initTime := t, endTime := e } with ⟨_ | _, q⟩
    · rfl
    · simp only
      have e1 : ∀ f : FootPrint K, Foot.new (footPrint ρ f) = foot ρ (Foot.new f) := fun _ => rfl
      rw [e1, e1, initializePlanner]
      cases q.initializePlanner integ (Foot.new l) (Foot.new r) with
      | failed q1 a b => rfl
      | ub w => rfl
      | ok q1 a b sol => exact plan ρ q1 sol fuel a b

/-! ## Measured contacts -/

/-- The outcome of `reGenerate` up to the trajectories. -/
def replanResult : Gen.ReplanResult K → Gen.ReplanResult K
  | .done b p l r prev => .done b p (footPrint ρ l) (footPrint ρ r) (prev.map fun s => (step ρ s.1, step ρ s.2))
  | .ub why => .ub why
  | .outOfFuel => .outOfFuel

theorem planFrom (p : Planner K) (integ : Integrator K) (fuel : Nat) (l r : FootPrint K) (t e : K)
    (prev : Option (Step K × Step K)) :
    Gen.planFrom p integ fuel (footPrint ρ l) (footPrint ρ r) t e (prev.map fun s => (step ρ s.1, step ρ s.2)) =
      replanResult ρ (Gen.planFrom p integ fuel l r t e prev) := by
  unfold Gen.planFrom
  rw [computeNewSteps]
  cases p.computeNewSteps integ fuel l r t e with
  | ub w => rfl
  | outOfFuel => rfl
  | done b p l r => cases b <;> rfl

/-- The same contact. -/
def Same (s s' : Step K) : Prop := s'.position = s.position ∧ s'.angle = s.angle ∧ s'.impactTime = s.impactTime

theorem edited {mL mR mL' mR' : Step K} (hl : Same mL mL') (hr : Same mR mR') (t : K) (c : Gen.Correction) (reset : Bool)
    (a b : Step K) : Gen.editedSteps t mL' mR' c reset (step ρ a) (step ρ b) =
      (step ρ (Gen.editedSteps t mL mR c reset a b).1, step ρ (Gen.editedSteps t mL mR c reset a b).2) := by
  have ed : ∀ {s m m' : Step K}, Same m m' →
      Gen.editStepFromMeasured (step ρ s) m' = step ρ (Gen.editStepFromMeasured s m) := by
    rintro s m m' ⟨h1, h2, h3⟩
    unfold Gen.editStepFromMeasured
    rw [h1, h2, h3]
    rfl
  unfold Gen.editedSteps
  rw [ed hl, ed hr]
  have e : ∀ (b : Bool) (x y : Step K), (if b = true then step ρ x else step ρ y) = step ρ (if b = true then x else y) := by
    intro b x y; split_ifs <;> rfl
  simp only [e, step_impactTime]
  generalize (if c.editsLeft = true then Gen.editStepFromMeasured a mL else a) = x
  generalize (if c.editsRight = true then Gen.editStepFromMeasured b mR else b) = y
  by_cases h1 : t < x.impactTime ∨ t < y.impactTime <;> by_cases h2 : reset = true
  · simp only [if_pos h1, if_pos h2]; rfl
  · simp only [if_pos h1, if_neg h2]; rfl
  · simp only [if_neg h1, if_pos h2]; rfl
  · simp only [if_neg h1, if_neg h2]

theorem replaceStep (b : Bool) (f : FootPrint K) (s : Step K) :
    Gen.replaceStep b (footPrint ρ f) (step ρ s) = ((Gen.replaceStep b f s).1, footPrint ρ (Gen.replaceStep b f s).2) := by
  unfold Gen.replaceStep
  split_ifs
  · exact addStep ρ f.clearSteps s (step ρ s) rfl rfl rfl
  · rfl

theorem fromMeasured (p : Planner K) (integ : Integrator K) (fuel : Nat) (v : Gen.DcmVelocity K) (l r : FootPrint K) (t e : K)
    {mL mR mL' mR' : Step K} (hl : Same mL mL') (hr : Same mR mR') (c : Gen.Correction) :
    Gen.computeNewStepsFromMeasured p integ fuel v (footPrint ρ l) (footPrint ρ r) t e mL' mR' c =
      replanResult ρ (Gen.computeNewStepsFromMeasured p integ fuel v l r t e mL mR c) := by
  unfold Gen.computeNewStepsFromMeasured
  rw [keepOnlyPresentStep, keepOnlyPresentStep]
  rcases l.keepOnlyPresentStep t with ⟨_ | _, l1⟩
  · rfl
  rcases r.keepOnlyPresentStep t with ⟨_ | _, r1⟩
  · rfl
  simp only
  cases Gen.shouldReset v with
  | ub w => rfl
  | fail => rfl
  | ok reset =>
    simp only [getLastStep]
    split_ifs
    · cases l1.getLastStep with
      | none => cases r1.getLastStep <;> rfl
      | some a =>
        cases r1.getLastStep with
        | none => rfl
        | some b =>
          simp only [Option.map_some, edited ρ hl hr, replaceStep]
          rcases Gen.replaceStep (c.editsLeft || reset) l1 (Gen.editedSteps t mL mR c reset a b).1 with ⟨_ | _, l2⟩
          · rfl
          rcases Gen.replaceStep (c.editsRight || reset) r1 (Gen.editedSteps t mL mR c reset a b).2 with ⟨_ | _, r2⟩
          · rfl
          exact planFrom ρ p integ fuel l2 r2 t e (some (a, b))
    · exact planFrom ρ p integ fuel l1 r1 t e none

theorem replan (p : Planner K) (integ : Integrator K) (fuel : Nat) (v : Gen.DcmVelocity K) (l r : FootPrint K) (t e : K)
    {q q' : Gen.Request K} (h : SameContacts q q') :
    Gen.replan p integ fuel v (footPrint ρ l) (footPrint ρ r) t e q' = replanResult ρ (Gen.replan p integ fuel v l r t e q) := by
  have key : q' = q ∨ ∃ a b a' b', q = .steps a b ∧ q' = .steps a' b' ∧ Same a a' ∧ Same b b' := by
    cases q <;> cases q' <;> first
      | exact Or.inr ⟨_, _, _, _, rfl, rfl, h.1, h.2⟩
      | exact Or.inl h
  unfold Gen.replan
  rcases key with rfl | ⟨a, b, a', b', rfl, rfl, ha, hb⟩
  · refine fromMeasured ρ p integ fuel v l r t e ?_ ?_ q'.correction <;> cases q' <;> exact ⟨rfl, rfl, rfl⟩
  · exact fromMeasured ρ p integ fuel v l r t e ha hb _

end Uni.Spec.Names
