import Verif.Props.Settings

/-! # C32, C77: the settings that reach the controllers; the free space -/

set_option autoImplicit false
set_option linter.unusedSectionVars false

namespace Uni.Planner
open Spec
variable {K : Type*} [Field K] [LinearOrder K] [Trig K] [IsStrictOrderedRing K]

/-- As `setting_lastValue`, for configuration calls only. -/
theorem config_lastValue {α : Type*} (get : Planner K → α) (accept : Op K → Option α)
    (hrun : ∀ p o, get (p.run o).2 = (accept o).getD (get p)) (ops : List (Op K)) : ∀ p : Planner K,
      get (p.runAll ops) = lastValue accept (get p) ops := by
  induction ops with
  | nil => intro p; rfl
  | cons o os ih =>
    intro p
    have h := ih (p.run o).2
    rw [hrun] at h
    exact h

/-- Closes the cases of the methods that do not concern a setting. -/
local macro "unconcerned" x:ident : tactic => `(tactic| (simp only [run, $x:ident, setPerson, onAllControllers,
    setSaturationsConservativeFactors, setMaximumIntegratorStepSize, setMaxStepLength, setMaxStepLengthBackward,
    setMaxAngleVariation, setCostWeights, setStepTimings, Problem.setMaxLength, Problem.setMaxLengthBackward,
    Problem.setMaxAngleVariation, Problem.setMinWidth, Problem.setCostWeights, Problem.setFreeSpaceEllipse,
    setPlannerPeriod, setMinimumAngleForNewSteps, setMinimumStepLength, setWidthSetting, setFreeSpaceEllipseMethod,
    setFreeSpaceEllipse, PersonCtrl.setFreeSpaceEllipse, PersonCtrl.setInnerOffsets, PersonCtrl.setGain,
    PersonCtrl.setPersonDistance, PersonCtrl.setDesiredPoint, PersonCtrl.clearDesiredTrajectory,
    PersonCtrl.setConservativeFactor, NavCtrl.setTimeStep, NavCtrl.setNavigationPath, BaseCtrl.setSlowWhenTurnGain,
    BaseCtrl.setSlowWhenBackwardFactor, BaseCtrl.setSlowWhenSidewaysFactor, DirectCtrl.setConstantControl,
    Option.getD_none] <;> (repeat' split) <;> first | rfl | grind))

section
variable (p : Planner K) (o : Op K)

theorem run_slowTurn : ((p.run o).2.ctrl.person.base.turnGain, (p.run o).2.ctrl.directBase.turnGain,
      (p.run o).2.ctrl.nav.base.turnGain) = ((slowTurn o).map fun g => (g, g, g)).getD
      (p.ctrl.person.base.turnGain, p.ctrl.directBase.turnGain, p.ctrl.nav.base.turnGain) := by
  cases o
  case setSlowWhenTurnGain g =>
    by_cases h : g < 0 <;> simp [run, onAllControllers, BaseCtrl.setSlowWhenTurnGain, slowTurn, h, not_le.mpr, not_lt.mp]
  all_goals unconcerned slowTurn

theorem run_slowBackward : ((p.run o).2.ctrl.person.base.backFactor, (p.run o).2.ctrl.directBase.backFactor,
      (p.run o).2.ctrl.nav.base.backFactor) = ((slowBackward o).map fun g => (g, g, g)).getD
      (p.ctrl.person.base.backFactor, p.ctrl.directBase.backFactor, p.ctrl.nav.base.backFactor) := by
  cases o
  case setSlowWhenBackwardFactor g =>
    by_cases h : g < 0 <;>
    simp [run, onAllControllers, BaseCtrl.setSlowWhenBackwardFactor, slowBackward, h, not_le.mpr, not_lt.mp]
  all_goals unconcerned slowBackward

theorem run_slowSideways : ((p.run o).2.ctrl.person.base.sideFactor, (p.run o).2.ctrl.directBase.sideFactor,
      (p.run o).2.ctrl.nav.base.sideFactor) = ((slowSideways o).map fun g => (g, g, g)).getD
      (p.ctrl.person.base.sideFactor, p.ctrl.directBase.sideFactor, p.ctrl.nav.base.sideFactor) := by
  cases o
  case setSlowWhenSidewaysFactor g =>
    by_cases h : g < 0 <;>
    simp [run, onAllControllers, BaseCtrl.setSlowWhenSidewaysFactor, slowSideways, h, not_le.mpr, not_lt.mp]
  all_goals unconcerned slowSideways

theorem run_followGain : (p.run o).2.ctrl.person.gain = (followGain o).getD p.ctrl.person.gain := by
  cases o
  case setPersonFollowingControllerGain g =>
    by_cases h : g ≤ 0 <;> simp [run, setPerson, PersonCtrl.setGain, followGain, h, not_lt.mpr, not_le.mp]
  all_goals unconcerned followGain

theorem run_followPoint : (p.run o).2.ctrl.person.personDistance = (followPoint o).getD p.ctrl.person.personDistance := by
  cases o
  case setDesiredPersonDistance x y =>
    by_cases h : x = 0 <;> simp [run, setPerson, PersonCtrl.setPersonDistance, followPoint, h]
  all_goals unconcerned followPoint

theorem run_spaceFactor : (p.run o).2.ctrl.person.conservative = (spaceFactor o).getD p.ctrl.person.conservative := by
  cases o
  case setFreeSpaceEllipseConservativeFactor f =>
    by_cases h : f < 0 <;> simp [run, setPerson, PersonCtrl.setConservativeFactor, spaceFactor, h, not_le.mpr, not_lt.mp]
  all_goals unconcerned spaceFactor

theorem run_directControl : (p.run o).2.ctrl.direct.desired = (directControl o).getD p.ctrl.direct.desired := by
  cases o
  all_goals unconcerned directControl

end

/-- **C32.** After any sequence of configuration calls each of the three controllers has the slow-down gains given by the
last acceptable call; likewise the settings of the person following and of the direct controller. -/
theorem C32_controllers (p : Planner K) (ops : List (Op K)) :
    let q := p.runAll ops
    let three := fun (accept : Op K → Option K) o => (accept o).map fun g => (g, g, g)
    (q.ctrl.person.base.turnGain, q.ctrl.directBase.turnGain, q.ctrl.nav.base.turnGain) =
      lastValue (three slowTurn) (p.ctrl.person.base.turnGain, p.ctrl.directBase.turnGain, p.ctrl.nav.base.turnGain) ops ∧
    (q.ctrl.person.base.backFactor, q.ctrl.directBase.backFactor, q.ctrl.nav.base.backFactor) =
      lastValue (three slowBackward)
        (p.ctrl.person.base.backFactor, p.ctrl.directBase.backFactor, p.ctrl.nav.base.backFactor) ops ∧
    (q.ctrl.person.base.sideFactor, q.ctrl.directBase.sideFactor, q.ctrl.nav.base.sideFactor) =
      lastValue (three slowSideways)
        (p.ctrl.person.base.sideFactor, p.ctrl.directBase.sideFactor, p.ctrl.nav.base.sideFactor) ops ∧
    q.ctrl.person.gain = lastValue followGain p.ctrl.person.gain ops ∧
    q.ctrl.person.personDistance = lastValue followPoint p.ctrl.person.personDistance ops ∧
    q.ctrl.person.conservative = lastValue spaceFactor p.ctrl.person.conservative ops ∧
    q.ctrl.direct.desired = lastValue directControl p.ctrl.direct.desired ops :=
  ⟨config_lastValue (fun p => (p.ctrl.person.base.turnGain, p.ctrl.directBase.turnGain, p.ctrl.nav.base.turnGain)) _
      run_slowTurn ops p,
   config_lastValue (fun p => (p.ctrl.person.base.backFactor, p.ctrl.directBase.backFactor, p.ctrl.nav.base.backFactor)) _
      run_slowBackward ops p,
   config_lastValue (fun p => (p.ctrl.person.base.sideFactor, p.ctrl.directBase.sideFactor, p.ctrl.nav.base.sideFactor)) _
      run_slowSideways ops p,
   config_lastValue (fun p => p.ctrl.person.gain) _ run_followGain ops p,
   config_lastValue (fun p => p.ctrl.person.personDistance) _ run_followPoint ops p,
   config_lastValue (fun p => p.ctrl.person.conservative) _ run_spaceFactor ops p,
   config_lastValue (fun p => p.ctrl.direct.desired) _ run_directControl ops p⟩

/-! ## C77 -/

/-- The free space `e` in force is known to those who have to obey it, according to the method. -/
def Obeyed (p : Planner K) (e : Ellipse K) : Prop :=
  p.ctrl.person.outer = (if p.method = .footstepsOnly then Ellipse.clear else e) ∧
  p.problem.freeSpace = (if p.method = .referenceOnly then Ellipse.clear else e)

theorem person_outer (c : PersonCtrl K) (e : Ellipse K) : (c.setFreeSpaceEllipse e).2.outer = e := by
  unfold PersonCtrl.setFreeSpaceEllipse
  simp only
  split_ifs <;> rfl

theorem Obeyed.run {p : Planner K} {e : Ellipse K} (h : Obeyed p e) (o : Op K)
    (ho : (∃ e, o = .setFreeSpaceEllipse e) → (p.run o).1 = true) : Obeyed (p.run o).2 ((space o).getD e) := by
  obtain ⟨h1, h2⟩ := h
  cases o
  case setFreeSpaceEllipse e' =>
    have h3 := ho ⟨e', rfl⟩
    have h4 := person_outer p.ctrl.person e'
    have hm : p.method = .referenceOnly ∨ p.method = .footstepsOnly ∨ p.method = .referenceAndFootsteps := by
      generalize p.method = m
      cases m <;> simp
    simp only [Planner.run, setFreeSpaceEllipse, setPerson, Problem.setFreeSpaceEllipse, space, Option.getD_some,
      Obeyed] at h3 ⊢
    rcases hm with hm | hm | hm
    · rw [hm] at h1 h2
      by_cases g : (p.ctrl.person.setFreeSpaceEllipse e').1 = true <;> simp_all
    · rw [hm] at h1 h2
      simp_all
    · rw [hm] at h1 h2
      by_cases g : (p.ctrl.person.setFreeSpaceEllipse e').1 = true <;> simp_all
  case setFreeSpaceEllipseMethod m =>
    refine ⟨?_, ?_⟩
    · simp only [Planner.run, setFreeSpaceEllipseMethod, space, Option.getD_some, person_outer]
      exact (ite_self _).symm
    · simp only [Planner.run, setFreeSpaceEllipseMethod, Problem.setFreeSpaceEllipse, space, Option.getD_some]
      exact (ite_self _).symm
  case setInnerFreeSpaceEllipseOffset x =>
    refine ⟨?_, h2⟩
    refine Eq.trans ?_ h1
    simp only [Planner.run, setPerson, PersonCtrl.setInnerOffsets]
    split_ifs <;> simp [person_outer]
  case setInnerFreeSpaceEllipseOffsets x y =>
    refine ⟨?_, h2⟩
    refine Eq.trans ?_ h1
    simp only [Planner.run, setPerson, PersonCtrl.setInnerOffsets]
    split_ifs <;> simp [person_outer]
  all_goals
    refine ⟨Eq.trans ?_ (h1.trans ?_), Eq.trans ?_ (h2.trans ?_)⟩
    · unconcerned space
    · rw [run_method]; rfl
    · unconcerned space
    · rw [run_method]; rfl

/-- **C77.** After any sequence of configuration calls on a new planner in which the free spaces given were accepted, the
last one given since the method was chosen confines the references, the footsteps, or both, as the method prescribes; the
others are not confined. -/
theorem C77_method (ops : List (Op K)) (h : Granted (Planner.new : Planner K) ops) :
    let q := (Planner.new : Planner K).runAll ops
    Obeyed q (lastValue space Ellipse.clear ops) ∧ q.method = lastValue spaceMethod .referenceOnly ops := by
  have key : ∀ (ops : List (Op K)) (p : Planner K) (e : Ellipse K), Obeyed p e → Granted p ops →
      Obeyed (p.runAll ops) (lastValue space e ops) := by
    intro ops
    induction ops with
    | nil => exact fun p e h _ => h
    | cons o os ih => exact fun p e h hg => ih _ _ (h.run o hg.1) hg.2
  exact ⟨key ops _ _ ⟨by simp [Planner.new, PersonCtrl.new], by simp [Planner.new, Problem.new]⟩ h,
    config_lastValue (fun p => p.method) _ run_method ops _⟩

/-- **C77.** A free space that confines the footsteps only is always accepted. -/
theorem C77_accepted (p : Planner K) (e : Ellipse K) (h : p.method = .footstepsOnly) :
    (p.run (.setFreeSpaceEllipse e)).1 = true := by
  simp [run, setFreeSpaceEllipse, h, Problem.setFreeSpaceEllipse]

section NonVacuity
local instance spaceTrig : Trig ℚ := ⟨fun _ => 1, fun _ => 0, fun q => q, fun _ => 0, fun _ => 0, fun _ _ => 0, 22 / 7⟩

/-- Non-vacuity of C77: both are confined to the unit disc. -/
example : Granted (Planner.new : Planner ℚ) [.setFreeSpaceEllipseMethod .referenceAndFootsteps, .setFreeSpaceEllipse unitDisc] ∧
    ((Planner.new : Planner ℚ).runAll [.setFreeSpaceEllipseMethod .referenceAndFootsteps,
      .setFreeSpaceEllipse unitDisc]).problem.freeSpace.isSet = true ∧
    ((Planner.new : Planner ℚ).runAll [.setFreeSpaceEllipseMethod .referenceAndFootsteps,
      .setFreeSpaceEllipse unitDisc]).ctrl.person.outer.isSet = true :=
  ⟨⟨fun _ => by decide +kernel, fun _ => by decide +kernel, trivial⟩, by decide +kernel, by decide +kernel⟩

/-- Non-vacuity of `C32_controllers`: an accepted and a refused value. -/
example : ((Planner.new : Planner ℚ).runAll [.setSlowWhenTurnGain 3, .setSlowWhenTurnGain (-1)]).ctrl.nav.base.turnGain = 3 := by
  decide +kernel

end NonVacuity
end Uni.Planner
