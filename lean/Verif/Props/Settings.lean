import Verif.Spec.Settings
import Verif.Lemmas.PlannerKeep

/-! # C32, C33: the settings of the planner -/

set_option autoImplicit false
set_option linter.unusedSectionVars false

namespace Uni.Planner
open Spec
variable {K : Type*} [Field K] [LinearOrder K] [Trig K] [IsStrictOrderedRing K]

/-- Removing the past of the reference changes no setting. -/
theorem clear_keep {p q : Planner K} {t : K} {b : Bool} (h : p.clearDesiredTrajectoryUpTo t = .ok (b, q)) :
    SameConfig p q := by
  unfold clearDesiredTrajectoryUpTo at h
  split at h
  · cases h; constructor
  · cases h
  · cases h

/-- A setting `get` unaffected by planning and changed only by acceptable calls holds the last accepted value. -/
theorem setting_lastValue {α : Type*} (get : Planner K → α) (accept : Op K → Option α)
    (hrun : ∀ p o, get (p.run o).2 = (accept o).getD (get p)) (hkeep : ∀ p q, SameConfig p q → get q = get p)
    (evs : List (Event K)) : ∀ p : Planner K,
      get (evs.foldl Event.apply p) = lastValue accept (get p) (configurations evs) := by
  induction evs with
  | nil => intro p; rfl
  | cons e es ih =>
    intro p
    rw [List.foldl_cons, ih]
    cases e with
    | configure o =>
      simp only [Event.apply, configurations, lastValue, List.foldl_cons]
      rw [hrun]
    | plan integ fuel left right t0 t1 =>
      simp only [configurations]
      congr 1
      have hk := computeNewSteps_keep p integ fuel left right t0 t1
      simp only [Event.apply]
      split
      · rename_i h
        rw [h] at hk
        exact hkeep _ _ (hk _ rfl)
      · rfl
    | clear t =>
      simp only [configurations]
      congr 1
      simp only [Event.apply]
      split
      · rename_i h
        exact hkeep _ _ (clear_keep h)
      · rfl

/-- Closes the cases of the methods that do not concern a setting. -/
local macro "unconcerned" x:ident : tactic => `(tactic| (simp only [run, $x:ident, setPerson, onAllControllers,
    setSaturationsConservativeFactors, setMaximumIntegratorStepSize, setMaxStepLength, setMaxStepLengthBackward,
    setMaxAngleVariation, setCostWeights, setStepTimings, Problem.setMaxLength, Problem.setMaxLengthBackward,
    Problem.setMaxAngleVariation, Problem.setMinWidth, Problem.setCostWeights, Problem.setFreeSpaceEllipse,
    setPlannerPeriod, setMinimumAngleForNewSteps, setMinimumStepLength, setWidthSetting, setFreeSpaceEllipseMethod,
    setFreeSpaceEllipse, Option.getD_none] <;> (repeat' split) <;> first | rfl | grind))

section
variable (p : Planner K) (o : Op K)

theorem run_timings : ((p.run o).2.minTime, (p.run o).2.maxTime, (p.run o).2.nominalTime) =
    (timings o).getD (p.minTime, p.maxTime, p.nominalTime) := by
  cases o
  case setStepTimings a b c =>
    simp only [run, setStepTimings, timings]
    by_cases h : 0 ≤ a ∧ a ≤ c ∧ c ≤ b
    · have h1 := h.1
      have h2 := h.2.1
      have h3 := h.2.2
      rw [if_pos h, if_neg (by rintro (h | h | h) <;> linarith), if_neg (by intro h; linarith),
        if_neg (by rintro (h | h) <;> linarith)]
      rfl
    · rw [if_neg h]
      split_ifs with g1 g2 g3
      · rfl
      · rfl
      · rfl
      · exfalso
        apply h
        push Not at g1 g2 g3
        exact ⟨g1.1, g3.1, g3.2⟩
  all_goals unconcerned timings

theorem run_period : (p.run o).2.dT = (period o).getD p.dT := by
  cases o
  case setPlannerPeriod x => by_cases h : x < 0 <;> simp [run, setPlannerPeriod, period, h, not_le.mpr, not_lt.mp]
  all_goals unconcerned period

theorem run_minAngle : (p.run o).2.minAngle = (Spec.minAngle o).getD p.minAngle := by
  cases o
  case setMinimumAngleForNewSteps x =>
    by_cases h : x < 0 <;> simp [run, setMinimumAngleForNewSteps, Spec.minAngle, h, not_le.mpr, not_lt.mp]
  all_goals unconcerned Spec.minAngle

theorem run_minLength : (p.run o).2.minLength = (Spec.minLength o).getD p.minLength := by
  cases o
  case setMinimumStepLength x =>
    by_cases h : x < 0 <;> simp [run, setMinimumStepLength, Spec.minLength, h, not_le.mpr, not_lt.mp]
  all_goals unconcerned Spec.minLength

theorem run_widths : ((p.run o).2.problem.minWidth, (p.run o).2.nominalWidth) =
    ((widths o).map (fun w => (some w.1, w.2))).getD (p.problem.minWidth, p.nominalWidth) := by
  cases o
  case setWidthSetting a b =>
    by_cases h : 0 ≤ a ∧ a ≤ b
    · have h1 := h.1
      have h2 := h.2
      simp only [run, setWidthSetting, widths, Problem.setMinWidth, if_pos h, if_neg (not_lt.mpr (h1.trans h2)),
        if_neg (not_lt.mpr h1), if_neg (not_lt.mpr h2)]
      rfl
    · simp only [run, setWidthSetting, widths, Problem.setMinWidth, if_neg h]
      split_ifs with g1 g2 g3
      · rfl
      · rfl
      · rfl
      · exact absurd ⟨not_lt.mp g3, not_lt.mp g2⟩ h
  all_goals unconcerned Spec.widths

theorem run_maxLengths : ((p.run o).2.maxLength, (p.run o).2.maxLengthBackward) =
    (maxLengths o).getD (p.maxLength, p.maxLengthBackward) := by
  cases o
  case setMaxStepLength x =>
    by_cases h : x < 0 <;>
    simp [run, setMaxStepLength, maxLengths, Problem.setMaxLength, Problem.setMaxLengthBackward, h, not_le.mpr, not_lt.mp]
  case setMaxStepLengthBackward x m =>
    by_cases h : m < 0
    · simp [run, setMaxStepLengthBackward, maxLengths, h, not_le.mpr h]
    · by_cases h' : x < 0
      · simp [run, setMaxStepLengthBackward, maxLengths, Problem.setMaxLength, h, h', not_le.mpr h']
      · have hm : ¬ x * m < 0 := not_lt.mpr (mul_nonneg (not_lt.mp h') (not_lt.mp h))
        simp [run, setMaxStepLengthBackward, maxLengths, Problem.setMaxLength, Problem.setMaxLengthBackward, h, h', hm,
          not_lt.mp h', not_lt.mp h]
  all_goals unconcerned Spec.maxLengths

/-- The bounds enforced on each step follow those of the planner. -/
theorem run_lengthBounds : ((p.run o).2.problem.maxLength, (p.run o).2.problem.maxLengthBackward) =
    ((maxLengths o).map (fun w => (some w.1, some w.2))).getD (p.problem.maxLength, p.problem.maxLengthBackward) := by
  cases o
  case setMaxStepLength x =>
    by_cases h : x < 0 <;>
    simp [run, setMaxStepLength, maxLengths, Problem.setMaxLength, Problem.setMaxLengthBackward, h, not_le.mpr, not_lt.mp]
  case setMaxStepLengthBackward x m =>
    by_cases h : m < 0
    · simp [run, setMaxStepLengthBackward, maxLengths, h, not_le.mpr h]
    · by_cases h' : x < 0
      · simp [run, setMaxStepLengthBackward, maxLengths, Problem.setMaxLength, h, h', not_le.mpr h']
      · have hm : ¬ x * m < 0 := not_lt.mpr (mul_nonneg (not_lt.mp h') (not_lt.mp h))
        simp [run, setMaxStepLengthBackward, maxLengths, Problem.setMaxLength, Problem.setMaxLengthBackward, h, h', hm,
          not_lt.mp h', not_lt.mp h]
  all_goals unconcerned Spec.maxLengths

theorem run_maxAngle : ((p.run o).2.maxAngle, (p.run o).2.problem.maxAngle) =
    ((Spec.maxAngle o).map (fun a => (a, some a))).getD (p.maxAngle, p.problem.maxAngle) := by
  cases o
  case setMaxAngleVariation x =>
    by_cases h : x < 0 <;>
    simp [run, setMaxAngleVariation, Spec.maxAngle, Problem.setMaxAngleVariation, h, not_le.mpr, not_lt.mp]
  all_goals unconcerned Spec.maxAngle

theorem run_factors : ((p.run o).2.linFactor, (p.run o).2.angFactor) = (factors o).getD (p.linFactor, p.angFactor) := by
  cases o
  case setSaturationsConservativeFactors l a =>
    simp only [run, setSaturationsConservativeFactors, factors]
    by_cases h : 0 ≤ l ∧ l ≤ 1 ∧ 0 ≤ a ∧ a ≤ 1
    · obtain ⟨h1, h2, h3, h4⟩ := h
      rw [if_pos (show 0 ≤ l ∧ l ≤ 1 ∧ 0 ≤ a ∧ a ≤ 1 from ⟨h1, h2, h3, h4⟩),
        if_neg (by rintro (h | h) <;> linarith), if_neg (by rintro (h | h) <;> linarith)]
      rfl
    · rw [if_neg h]
      split_ifs with g1 g2
      · rfl
      · rfl
      · push Not at g1 g2
        exact absurd ⟨g1.1, g1.2, g2.1, g2.2⟩ h
  all_goals unconcerned Spec.factors

theorem run_integrationStep : (p.run o).2.integratorStep = (integrationStep o).getD p.integratorStep := by
  cases o
  case setMaximumIntegratorStepSize x =>
    simp only [run, setMaximumIntegratorStepSize, integrationStep, NavCtrl.setTimeStep]
    by_cases h0 : x = 0
    · simp [h0]
    · by_cases h : 0 < x
      · simp [h0, h, not_le.mpr h]
      · simp [h0, h, not_lt.mp h]
  all_goals unconcerned Spec.integrationStep

theorem run_positionWeight : (p.run o).2.problem.positionWeight = (positionWeight o).getD p.problem.positionWeight := by
  cases o
  case setCostWeights a b =>
    simp only [run, setCostWeights, Problem.setCostWeights, positionWeight]
    by_cases ha : a < 0
    · simp [ha, not_le.mpr ha]
    · by_cases hb : b < 0 <;> simp [ha, hb, not_lt.mp ha]
  all_goals unconcerned Spec.positionWeight

theorem run_timeWeight : (p.run o).2.problem.timeWeight = (timeWeight o).getD p.problem.timeWeight := by
  cases o
  case setCostWeights a b =>
    simp only [run, setCostWeights, Problem.setCostWeights, timeWeight]
    by_cases ha : a < 0
    · simp [ha, not_le.mpr ha]
    · by_cases hb : b < 0
      · simp [ha, hb, not_le.mpr hb]
      · simp [ha, hb, not_lt.mp ha, not_lt.mp hb]
  all_goals unconcerned Spec.timeWeight

theorem run_leftYaw : (p.run o).2.leftYaw = (leftYawOffset o).getD p.leftYaw := by
  cases o
  all_goals unconcerned Spec.leftYawOffset

theorem run_rightYaw : (p.run o).2.rightYaw = (rightYawOffset o).getD p.rightYaw := by
  cases o
  all_goals unconcerned Spec.rightYawOffset

theorem run_addTerminal : (p.run o).2.addTerminal = (terminalStep o).getD p.addTerminal := by
  cases o
  all_goals unconcerned Spec.terminalStep

theorem run_reset : (p.run o).2.resetStartingFoot = (resetFoot o).getD p.resetStartingFoot := by
  cases o
  all_goals unconcerned Spec.resetFoot

theorem run_startLeft : (p.run o).2.startLeft = (startFoot o).getD p.startLeft := by
  cases o
  all_goals unconcerned Spec.startFoot

theorem run_controller : (p.run o).2.controller = (controllerKind o).getD p.controller := by
  cases o
  all_goals unconcerned Spec.controllerKind

theorem run_method : (p.run o).2.method = (spaceMethod o).getD p.method := by
  cases o
  all_goals unconcerned Spec.spaceMethod

end

/-- **C32.** After any history of configuration calls and planning requests on a new planner, each setting has the value
given by the last acceptable call concerning it, or its default; the bounds enforced on every step follow the settings. -/
theorem C32_values (evs : List (Event K)) :
    let p := evs.foldl Event.apply (Planner.new : Planner K)
    let ops := configurations evs
    (p.minTime, p.maxTime, p.nominalTime) = lastValue timings (3, 10, 4) ops ∧
    p.dT = lastValue period (1 / 100) ops ∧
    p.minAngle = lastValue Spec.minAngle (deg2rad 5) ops ∧
    p.minLength = lastValue Spec.minLength (1 / 20) ops ∧
    (p.problem.minWidth, p.nominalWidth) =
      lastValue (fun o => (widths o).map fun w => (some w.1, w.2)) (some (2 / 25), 7 / 50) ops ∧
    (p.maxLength, p.maxLengthBackward) = lastValue maxLengths (1 / 5, 1 / 5) ops ∧
    (p.problem.maxLength, p.problem.maxLengthBackward) =
      lastValue (fun o => (maxLengths o).map fun w => (some w.1, some w.2)) (some (1 / 5), none) ops ∧
    (p.maxAngle, p.problem.maxAngle) =
      lastValue (fun o => (Spec.maxAngle o).map fun a => (a, some a)) (deg2rad 45, some (deg2rad 45)) ops ∧
    (p.linFactor, p.angFactor) = lastValue factors (9 / 10, 7 / 10) ops ∧
    p.integratorStep = lastValue integrationStep (1 / 100) ops ∧
    p.leftYaw = lastValue leftYawOffset 0 ops ∧
    p.rightYaw = lastValue rightYawOffset 0 ops ∧
    p.addTerminal = lastValue terminalStep true ops ∧
    p.resetStartingFoot = lastValue resetFoot false ops ∧
    p.controller = lastValue controllerKind .personFollowing ops ∧
    p.method = lastValue spaceMethod .referenceOnly ops := by
  refine ⟨?_, ?_, ?_, ?_, ?_, ?_, ?_, ?_, ?_, ?_, ?_, ?_, ?_, ?_, ?_, ?_⟩
  · exact setting_lastValue (fun p => (p.minTime, p.maxTime, p.nominalTime)) _ run_timings
      (fun p q h => by rw [h]) evs _
  · exact setting_lastValue (fun p => p.dT) _ run_period (fun p q h => by rw [h]) evs _
  · exact setting_lastValue (fun p => p.minAngle) _ run_minAngle (fun p q h => by rw [h]) evs _
  · exact setting_lastValue (fun p => p.minLength) _ run_minLength (fun p q h => by rw [h]) evs _
  · exact setting_lastValue (fun p => (p.problem.minWidth, p.nominalWidth)) _ run_widths (fun p q h => by rw [h]) evs _
  · exact setting_lastValue (fun p => (p.maxLength, p.maxLengthBackward)) _ run_maxLengths (fun p q h => by rw [h]) evs _
  · exact setting_lastValue (fun p => (p.problem.maxLength, p.problem.maxLengthBackward)) _ run_lengthBounds
      (fun p q h => by rw [h]) evs _
  · exact setting_lastValue (fun p => (p.maxAngle, p.problem.maxAngle)) _ run_maxAngle (fun p q h => by rw [h]) evs _
  · exact setting_lastValue (fun p => (p.linFactor, p.angFactor)) _ run_factors (fun p q h => by rw [h]) evs _
  · exact setting_lastValue (fun p => p.integratorStep) _ run_integrationStep (fun p q h => by rw [h]) evs _
  · exact setting_lastValue (fun p => p.leftYaw) _ run_leftYaw (fun p q h => by rw [h]) evs _
  · exact setting_lastValue (fun p => p.rightYaw) _ run_rightYaw (fun p q h => by rw [h]) evs _
  · exact setting_lastValue (fun p => p.addTerminal) _ run_addTerminal (fun p q h => by rw [h]) evs _
  · exact setting_lastValue (fun p => p.resetStartingFoot) _ run_reset (fun p q h => by rw [h]) evs _
  · exact setting_lastValue (fun p => p.controller) _ run_controller (fun p q h => by rw [h]) evs _
  · exact setting_lastValue (fun p => p.method) _ run_method (fun p q h => by rw [h]) evs _

/-- **C32**, the weights of the cost: the time weight is that of the last accepted call of `setCostWeights`; the position weight
is that of the last call whose position weight is acceptable, even if the call was refused because of the other weight
(`C33_cost_weights_violated`). -/
theorem C32_cost_weights (evs : List (Event K)) :
    let p := evs.foldl Event.apply (Planner.new : Planner K)
    let ops := configurations evs
    p.problem.positionWeight = lastValue positionWeight 1 ops ∧ p.problem.timeWeight = lastValue timeWeight (5 / 2) ops :=
  ⟨setting_lastValue (fun p => p.problem.positionWeight) _ run_positionWeight (fun p q h => by rw [h]) evs _,
    setting_lastValue (fun p => p.problem.timeWeight) _ run_timeWeight (fun p q h => by rw [h]) evs _⟩

/-- A property of all acceptable values and of the default holds of the last accepted value. -/
theorem lastValue_prop {α : Type*} (P : α → Prop) (accept : Op K → Option α)
    (hP : ∀ o v, accept o = some v → P v) (ops : List (Op K)) : ∀ d, P d → P (lastValue accept d ops) := by
  induction ops with
  | nil => exact fun d h => h
  | cons o ops ih =>
    intro d hd
    refine ih _ ?_
    show P ((accept o).getD d)
    cases h : accept o with
    | none => exact hd
    | some v => exact hP o v h

/-- **C32.** After any history of configuration calls and planning requests on a new planner the settings are mutually
consistent. -/
theorem C32_consistent (hpi : (0 : K) ≤ Trig.pi) (evs : List (Event K)) :
    Consistent (evs.foldl Event.apply (Planner.new : Planner K)) := by
  obtain ⟨h1, h2, h3, h4, h5, h6, h7, h8, h9, h10, -⟩ := C32_values (K := K) evs
  set p := evs.foldl Event.apply (Planner.new : Planner K)
  have d5 : (0 : K) ≤ deg2rad 5 := by unfold deg2rad; positivity
  have d45 : (0 : K) ≤ deg2rad 45 := by unfold deg2rad; positivity
  have t := lastValue_prop (fun v : K × K × K => 0 ≤ v.1 ∧ v.1 ≤ v.2.2 ∧ v.2.2 ≤ v.2.1) timings
    (by rintro (_ | _) v h <;> simp only [timings, reduceCtorEq] at h; split_ifs at h with g; cases h; exact g)
    (configurations evs) (3, 10, 4) (by norm_num)
  rw [← h1] at t
  have len := lastValue_prop (fun v : K × K => 0 ≤ v.1 ∧ 0 ≤ v.2) maxLengths
    (by
      rintro (_ | _) v h <;> simp only [maxLengths, reduceCtorEq] at h <;> split_ifs at h with g <;> cases h
      · exact ⟨g, g⟩
      · exact ⟨g.1, mul_nonneg g.1 g.2⟩)
    (configurations evs) (1 / 5, 1 / 5) (by norm_num)
  rw [← h6] at len
  have fac := lastValue_prop (fun v : K × K => 0 ≤ v.1 ∧ v.1 ≤ 1 ∧ 0 ≤ v.2 ∧ v.2 ≤ 1) factors
    (by rintro (_ | _) v h <;> simp only [factors, reduceCtorEq] at h; split_ifs at h with g; cases h; exact g)
    (configurations evs) (9 / 10, 7 / 10) (by norm_num)
  rw [← h9] at fac
  have wid := lastValue_prop (fun v : Option K × K => ∃ w, v.1 = some w ∧ 0 ≤ w ∧ w ≤ v.2)
    (fun o => (widths o).map fun w => (some w.1, w.2))
    (by
      rintro (_ | _) v h <;> simp only [widths, reduceCtorEq, Option.map_none] at h
      split_ifs at h with g <;> cases h
      exact ⟨_, rfl, g⟩)
    (configurations evs) (some (2 / 25), 7 / 50) ⟨2 / 25, rfl, by norm_num, by norm_num⟩
  rw [← h5] at wid
  have ang := lastValue_prop (fun v : K × Option K => 0 ≤ v.1 ∧ v.2 = some v.1)
    (fun o => (Spec.maxAngle o).map fun a => (a, some a))
    (by
      rintro (_ | _) v h <;> simp only [Spec.maxAngle, reduceCtorEq, Option.map_none] at h
      split_ifs at h with g <;> cases h
      exact ⟨g, rfl⟩)
    (configurations evs) (deg2rad 45, some (deg2rad 45)) ⟨d45, rfl⟩
  rw [← h8] at ang
  have bounds : p.problem.maxLength = some p.maxLength ∧
      (p.problem.maxLengthBackward = none ∨ p.problem.maxLengthBackward = some p.maxLengthBackward) := by
    suffices h : ∀ (ops : List (Op K)) (a : K × K) (b : Option K × Option K),
        (b.1 = some a.1 ∧ (b.2 = none ∨ b.2 = some a.2)) →
        ((lastValue (fun o => (maxLengths o).map fun w => (some w.1, some w.2)) b ops).1 =
            some (lastValue maxLengths a ops).1 ∧
          ((lastValue (fun o => (maxLengths o).map fun w => (some w.1, some w.2)) b ops).2 = none ∨
           (lastValue (fun o => (maxLengths o).map fun w => (some w.1, some w.2)) b ops).2 =
            some (lastValue maxLengths a ops).2)) by
      have := h (configurations evs) (1 / 5, 1 / 5) (some (1 / 5), none) ⟨rfl, .inl rfl⟩
      rw [← h7, ← h6] at this
      exact this
    intro ops
    induction ops with
    | nil => exact fun a b h => h
    | cons o ops ih =>
      intro a b h
      simp only [lastValue, List.foldl_cons]
      refine ih _ _ ?_
      cases maxLengths o with
      | none => exact h
      | some w => exact ⟨rfl, .inr rfl⟩
  refine ⟨t.1, t.2.1, t.2.2, ?_, ?_, ?_, len.1, len.2, ang.1, ⟨fac.1, fac.2.1⟩, fac.2.2, ?_, bounds.1, ang.2, wid,
    bounds.2⟩
  · rw [h2]
    refine lastValue_prop (fun x : K => 0 ≤ x) _ ?_ _ _ (by norm_num)
    rintro (_ | _) v h <;> simp only [period, reduceCtorEq] at h
    split_ifs at h with g; cases h; exact g
  · rw [h3]
    refine lastValue_prop (fun x : K => 0 ≤ x) _ ?_ _ _ d5
    rintro (_ | _) v h <;> simp only [Spec.minAngle, reduceCtorEq] at h
    split_ifs at h with g; cases h; exact g
  · rw [h4]
    refine lastValue_prop (fun x : K => 0 ≤ x) _ ?_ _ _ (by norm_num)
    rintro (_ | _) v h <;> simp only [Spec.minLength, reduceCtorEq] at h
    split_ifs at h with g; cases h; exact g
  · rw [h10]
    refine lastValue_prop (fun x : K => 0 < x) _ ?_ _ _ (by norm_num)
    rintro (_ | _) v h <;> simp only [integrationStep, reduceCtorEq] at h
    split_ifs at h with g; cases h; exact g

/-- The settings of a reachable planner meet the hypotheses on times of the planning theorems (C22 to C31). -/
theorem C32_timed (hpi : (0 : K) ≤ Trig.pi) (evs : List (Event K)) :
    Timed (evs.foldl Event.apply (Planner.new : Planner K)) :=
  have h := C32_consistent hpi evs
  ⟨h.period, h.minTime, h.nominal⟩

/-! ## C33 -/

/-- The configuration methods that do not change anything when they refuse. -/
def Atomic : Op K → Prop
  | .setCostWeights .. | .setFreeSpaceEllipse .. | .setInnerFreeSpaceEllipseOffset .. | .setInnerFreeSpaceEllipseOffsets ..
  | .setMaximumIntegratorStepSize .. => False
  | _ => True

theorem onAllControllers_rejected (p : Planner K) (f : BaseCtrl K → Bool × BaseCtrl K) (b : Bool)
    (h1 : ∀ c, (f c).1 = b) (h2 : ∀ c, (f c).1 = false → (f c).2 = c) (h : (p.onAllControllers f).1 = false) :
    (p.onAllControllers f).2 = p := by
  cases b
  · simp only [onAllControllers, h1, h2 _ (h1 _), Bool.false_eq_true, if_false]
  · simp [onAllControllers, h1] at h

/-- **C33 (partial).** A configuration method of the planner that returns false leaves the planner, hence its
configuration, unchanged, except the five listed in `Atomic`, for which this is refuted below. -/
theorem C33_rejected_unchanged_partial (p : Planner K) (o : Op K) (ho : Atomic o) (h : (p.run o).1 = false) :
    (p.run o).2 = p := by
  cases o
  case setSlowWhenTurnGain g =>
    refine onAllControllers_rejected p _ (decide ¬ g < 0) ?_ ?_ h <;> intro c <;>
    simp only [BaseCtrl.setSlowWhenTurnGain] <;> split_ifs <;> simp_all
  case setSlowWhenBackwardFactor g =>
    refine onAllControllers_rejected p _ (decide ¬ g < 0) ?_ ?_ h <;> intro c <;>
    simp only [BaseCtrl.setSlowWhenBackwardFactor] <;> split_ifs <;> simp_all
  case setSlowWhenSidewaysFactor g =>
    refine onAllControllers_rejected p _ (decide ¬ g < 0) ?_ ?_ h <;> intro c <;>
    simp only [BaseCtrl.setSlowWhenSidewaysFactor] <;> split_ifs <;> simp_all
  case setMaxStepLengthBackward x m =>
    simp only [run, setMaxStepLengthBackward, Problem.setMaxLength, Problem.setMaxLengthBackward] at h ⊢
    by_cases hm : m < 0
    · simp [hm]
    · by_cases hx : x < 0
      · simp [hm, hx]
      · have hxm : ¬ x * m < 0 := not_lt.mpr (mul_nonneg (not_lt.mp hx) (not_lt.mp hm))
        simp [hm, hx, hxm] at h
  case setMaxStepLength x =>
    simp only [run, setMaxStepLength, Problem.setMaxLength, Problem.setMaxLengthBackward] at h ⊢
    by_cases hx : x < 0 <;> simp_all
  case setMaxAngleVariation x =>
    simp only [run, setMaxAngleVariation, Problem.setMaxAngleVariation] at h ⊢
    by_cases hx : x < 0 <;> simp_all
  case setWidthSetting a b =>
    simp only [run, setWidthSetting, Problem.setMinWidth] at h ⊢
    by_cases h1 : b < 0 <;> by_cases h2 : b < a <;> by_cases h3 : a < 0 <;> simp_all
  all_goals first
    | exact ho.elim
    | (simp only [run, setPerson, setSaturationsConservativeFactors, setStepTimings, setPlannerPeriod,
        setMinimumAngleForNewSteps, setMinimumStepLength, PersonCtrl.setPersonDistance, PersonCtrl.setGain,
        PersonCtrl.setDesiredPoint, PersonCtrl.setConservativeFactor, NavCtrl.setNavigationPath] at h ⊢
       split_ifs at h ⊢ <;> simp_all)
    | simp [run, setPerson] at h

/-- **C33 is violated by `setCostWeights`**: the position weight is stored although the call is refused. -/
theorem C33_cost_weights_violated (p : Planner K) :
    (p.run (.setCostWeights 7 (-1))).1 = false ∧ (p.run (.setCostWeights 7 (-1))).2.problem.positionWeight = 7 := by
  have h : ¬ (7 : K) < 0 := by norm_num
  simp [run, setCostWeights, Problem.setCostWeights, h]

/-- **C33 is violated by `setMaximumIntegratorStepSize`**: a negative step is refused by the integrator after the
navigation controller has taken its absolute value. -/
theorem C33_integrator_step_violated (p : Planner K) (x : K) (hx : x < 0) :
    (p.run (.setMaximumIntegratorStepSize x)).1 = false ∧
      (p.run (.setMaximumIntegratorStepSize x)).2.ctrl.nav.dt = -x ∧
      (p.run (.setMaximumIntegratorStepSize x)).2.integratorStep = p.integratorStep := by
  simp [run, setMaximumIntegratorStepSize, NavCtrl.setTimeStep, hx.ne, hx.le, abs_of_neg hx]

/-- The unit disc around the origin. -/
def unitDisc : Ellipse K := (Ellipse.clear.setEllipse 1 1 0 0 0).2

theorem unitDisc_spec : (unitDisc : Ellipse K).isSet = true ∧ (unitDisc : Ellipse K).semiMajor = 1 ∧
    (unitDisc : Ellipse K).semiMinor = 1 := by
  have h : ¬ ((1 : K) < Ellipse.eps10 ∨ (1 : K) < Ellipse.eps10) := by
    simp only [or_self, not_lt, Ellipse.eps10]
    norm_num
  simp only [unitDisc, Ellipse.setEllipse, if_neg h, and_self]

/-- **C33 is violated by `setFreeSpaceEllipse`** (after the inner offsets have been set to 2, an accepted call): the unit
disc is refused, but has replaced the previous free space. -/
theorem C33_free_space_violated :
    let p : Planner K := (Planner.new.run (.setInnerFreeSpaceEllipseOffset 2)).2
    (Planner.new.run (.setInnerFreeSpaceEllipseOffset (2 : K))).1 = true ∧
    p.ctrl.person.outer.isSet = false ∧
    (p.run (.setFreeSpaceEllipse unitDisc)).1 = false ∧
    (p.run (.setFreeSpaceEllipse unitDisc)).2.ctrl.person.outer = unitDisc := by
  obtain ⟨h1, h2, h3⟩ := unitDisc_spec (K := K)
  have h : ¬ (2 : K) < 0 := by norm_num
  have h' : (1 : K) ≤ 2 := by norm_num
  simp [run, setPerson, PersonCtrl.setInnerOffsets, h, Planner.new, PersonCtrl.new, PersonCtrl.setFreeSpaceEllipse,
    Ellipse.clear, setFreeSpaceEllipse, h1, h2, h3, h']

/-- **C33 is violated by `setInnerFreeSpaceEllipseOffset(s)`**: with the unit disc as free space, offsets of 2 are refused
but stored. -/
theorem C33_inner_offset_violated :
    let p : Planner K := (Planner.new.run (.setFreeSpaceEllipse unitDisc)).2
    (Planner.new.run (.setFreeSpaceEllipse (unitDisc : Ellipse K))).1 = true ∧
    p.ctrl.person.offsetMajor = 0 ∧
    (p.run (.setInnerFreeSpaceEllipseOffset 2)).1 = false ∧
    (p.run (.setInnerFreeSpaceEllipseOffset 2)).2.ctrl.person.offsetMajor = 2 ∧
    (p.run (.setInnerFreeSpaceEllipseOffsets 2 2)).1 = false ∧
    (p.run (.setInnerFreeSpaceEllipseOffsets 2 2)).2.ctrl.person.offsetMajor = 2 := by
  obtain ⟨h1, h2, h3⟩ := unitDisc_spec (K := K)
  have h : ¬ (2 : K) < 0 := by norm_num
  have h' : (1 : K) ≤ 2 := by norm_num
  have h0 : ¬ (1 : K) ≤ 0 := by norm_num
  have he : ¬ (1 : K) < Ellipse.eps10 := by
    simp only [not_lt, Ellipse.eps10]
    norm_num
  simp [run, setPerson, PersonCtrl.setInnerOffsets, h, Planner.new, PersonCtrl.new, PersonCtrl.setFreeSpaceEllipse,
    Ellipse.setEllipse, setFreeSpaceEllipse, h1, h2, h3, h', h0, he]

/-! ## Non-vacuity -/

section NonVacuity

local instance settingsTrig : Trig ℚ := ⟨fun _ => 1, fun _ => 0, fun q => q, fun _ => 0, fun _ => 0, fun _ _ => 0, 22 / 7⟩

/-- A history with accepted and refused calls and planning requests. -/
def history : List (Event ℚ) :=
  [.configure (.setStepTimings 1 5 2), .configure (.setStepTimings 6 5 2), .configure (.setPlannerPeriod (1 / 2)),
   .plan (fun p u _ _ => (p.ctrl, some fun _ => u)) 100 .empty .empty 0 10,
   .configure (.setPlannerPeriod (-1)), .configure (.setMaxStepLengthBackward 1 (1 / 2))]

/-- C32 on that history. -/
example : ((history.foldl Event.apply (Planner.new : Planner ℚ)).minTime,
      (history.foldl Event.apply (Planner.new : Planner ℚ)).nominalTime,
      (history.foldl Event.apply (Planner.new : Planner ℚ)).dT,
      (history.foldl Event.apply (Planner.new : Planner ℚ)).maxLengthBackward,
      (history.foldl Event.apply (Planner.new : Planner ℚ)).problem.maxLengthBackward) =
      (1, 2, 1 / 2, 1 / 2, some (1 / 2)) ∧
    (0 : ℚ) ≤ Trig.pi := by decide +kernel

/-- C33: refused calls exist. -/
example : ((Planner.new : Planner ℚ).run (.setStepTimings 6 5 2)).1 = false ∧
    Atomic (.setStepTimings 6 5 2 : Op ℚ) := ⟨by decide +kernel, trivial⟩

end NonVacuity
end Uni.Planner
