import Verif.Lemmas.Used
import Verif.Props.Walker

/-! # C86: the settings in force -/

set_option autoImplicit false
set_option linter.unusedSectionVars false

namespace Uni.Walker
open Spec Gen

section
variable {K : Type} [Field K] [LinearOrder K] [IsStrictOrderedRing K] [FloorRing K] [Trig K]

/-! ## The setters -/

theorem feet_values (ops : List (FeetSettings.Op K)) : ops.foldl (fun s o => (FeetSettings.run s o).2) FeetSettings.new = feet ops := by
  have h1 := last_runs (fun s : FeetSettings K => s.stepHeight) (fun s o => (s.run o).2) Spec.stepHeight
    (by
      intro s o
      cases o <;> simp only [FeetSettings.run, Spec.stepHeight, Option.getD_none]
      · rename_i h
        by_cases hh : h < 0
        · simp [hh, not_le.2 hh]
        · simp [hh, not_lt.1 hh]
      · split <;> rfl) FeetSettings.new ops
  have h2 := last_runs (fun s : FeetSettings K => s.pitchDelta) (fun s o => (s.run o).2) pitch
    (by
      intro s o
      cases o <;> simp only [FeetSettings.run, pitch, Option.getD_none, Option.getD_some]
      · split <;> rfl
      · simp only [Planner.deg2rad]
        ring
      · split <;> rfl) FeetSettings.new ops
  have h3 := last_runs (fun s : FeetSettings K => s.swingApex) (fun s o => (s.run o).2) apexTime
    (by
      intro s o
      cases o <;> simp only [FeetSettings.run, apexTime, Option.getD_none]
      · split <;> rfl
      · rename_i r
        by_cases hh : 0 < r ∧ r < 1
        · simp [hh.1, hh.2, not_le.2 hh.1, not_le.2 hh.2]
        · rw [if_neg hh, if_pos (by by_contra hc; rw [not_or, not_le, not_le] at hc; exact hh hc)]
          rfl) FeetSettings.new ops
  have h4 := last_runs (fun s : FeetSettings K => s.landingVelocity) (fun s o => (s.run o).2) Spec.landingVelocity
    (by
      intro s o
      cases o <;> simp only [FeetSettings.run, Spec.landingVelocity, Option.getD_none, Option.getD_some]
      all_goals (split <;> rfl)) FeetSettings.new ops
  exact FeetSettings.ext h1 h2 h3 h4

theorem height_values (l : List (K × K)) :
    l.foldl (fun s a => (HeightSettings.set s a.1 a.2).2) HeightSettings.new =
      ⟨(last comHeight (-1, 0) l).1, (last comHeight (-1, 0) l).2⟩ := by
  have h := last_runs (fun s : HeightSettings K => (s.height, s.delta)) (fun s a => (s.set a.1 a.2).2) comHeight
    (by
      intro s a
      simp only [HeightSettings.set, comHeight]
      by_cases h1 : a.1 < 0
      · simp [h1, not_le.2 h1]
      · by_cases h2 : a.1 + a.2 < 0
        · simp [h1, h2, not_le.2 h2]
        · simp [h1, h2, not_lt.1 h1, not_lt.1 h2]) HeightSettings.new l
  exact HeightSettings.ext (congrArg Prod.fst h) (congrArg Prod.snd h)

theorem zmp_values (s : (Vec2 K × Vec2 K) × (Vec2 K × Vec2 K)) (l : List (ZmpOp K)) :
    l.foldl (fun s o => ((stanceDelta o).getD s.1, (switchDelta o).getD s.2)) s = (last stanceDelta s.1 l, last switchDelta s.2 l) := by
  induction l generalizing s with
  | nil => rfl
  | cons o l ih => rw [List.foldl_cons, ih]; rfl

theorem dcm_values (s : K × K × K × K × (Vec2 K × Vec2 K) × Bool) (l : List (DcmOp K)) :
    l.foldl (fun s o => ((omega o).getD s.1, (alpha o).getD s.2.1, (stillness o).getD s.2.2.1, (lastOffset o).getD s.2.2.2.1,
        (footOffset o).getD s.2.2.2.2.1, (fifthOrder o).getD s.2.2.2.2.2)) s =
      (last omega s.1 l, last alpha s.2.1 l, last stillness s.2.2.1 l, last lastOffset s.2.2.2.1 l, last footOffset s.2.2.2.2.1 l,
        last fifthOrder s.2.2.2.2.2 l) := by
  induction l generalizing s with
  | nil => rfl
  | cons o l ih => rw [List.foldl_cons, ih]; rfl

theorem zmp_step (z : Zmp K) (o : ZmpOp K) :
    zmpSettings (o.run z) = ((stanceDelta o).getD (zmpSettings z).1, (switchDelta o).getD (zmpSettings z).2) := by
  cases o <;> rfl

theorem dcm_step (d : Dcm K) (o : DcmOp K) :
    dcmSettings (o.run d) = ((omega o).getD (dcmSettings d).1, (alpha o).getD (dcmSettings d).2.1,
      (stillness o).getD (dcmSettings d).2.2.1, (lastOffset o).getD (dcmSettings d).2.2.2.1,
      (footOffset o).getD (dcmSettings d).2.2.2.2.1, (fifthOrder o).getD (dcmSettings d).2.2.2.2.2) := by
  cases o with
  | setDCMInitialState p v => rfl
  | setOmega x =>
    simp only [DcmOp.run, Dcm.setOmega, omega]
    by_cases h : x < 0
    · rw [if_pos h, if_neg (not_le.2 h)]; rfl
    · rw [if_neg h, if_pos (not_lt.1 h)]; rfl
  | setAlpha x =>
    simp only [DcmOp.run, Dcm.setAlpha]
    rw [if_neg (by rintro ⟨h1, h2⟩; linarith)]
    rfl
  | setStillnessPercentage x =>
    simp only [DcmOp.run, Dcm.setStillnessPercentage]
    rw [if_neg (by rintro ⟨h1, h2⟩; linarith)]
    rfl
  | setLastStepDCMOffsetPercentage x =>
    simp only [DcmOp.run, Dcm.setLastStepDCMOffsetPercentage, lastOffset]
    by_cases h : 0 ≤ x ∧ x ≤ 1
    · rw [if_neg (by rintro (h1 | h1) <;> linarith [h.1, h.2]), if_pos h]; rfl
    · rw [if_pos (by by_contra hc; rw [not_or, not_lt, not_lt] at hc; exact h ⟨hc.2, hc.1⟩), if_neg h]; rfl
  | setFootOriginOffset l r => rfl
  | setFirstDCMTrajectoryMode b => rfl

/-! ## Histories -/

/-- C86, the timings: after any history each of them has the value of the last acceptable call, or its default. -/
theorem C86_timings {integ : Integrator K} {sort : Sorter K} {calls : List (Op K)} {w : Walker K} (h : Used integ sort calls w) :
    let ops := calls.filterMap timingCall
    w.cfg.switchPercentage = last switchFraction (1 / 2) ops ∧
    w.cfg.endSwitch = last halfSwitch 1 ops ∧
    (w.cfg.maxStepTime, w.cfg.nominalStepTime) = last pauseTimes (10, 2) ops ∧
    w.cfg.pauseActive = last pauses true ops ∧
    (w.cfg.mergeBegin, w.cfg.mergeEnd) = last mergeWindow (1 / 2, 1 / 2) ops := by
  have hall : w.cfg = (calls.filterMap timingCall).foldl (fun s o => (GenSettings.run s o).2) GenSettings.new := by
    induction h with
    | new g => rfl
    | op ops w o _ ih =>
      rw [List.filterMap_append]
      cases o <;> simp [Walker.run, timingCall, List.foldl_append, List.filterMap_cons, ih]
    | call ops w w' fuel c b _ hc ih => rw [(Kept.call hc).cfg, ih]
    | handle ops w w' _ hc ih => rw [(Kept.handle hc).cfg, ih]
  intro ops
  rw [hall]
  refine ⟨last_runs (fun s : GenSettings K => s.switchPercentage) (fun s o => (GenSettings.run s o).2) _ ?_ _ _,
    last_runs (fun s : GenSettings K => s.endSwitch) (fun s o => (GenSettings.run s o).2) _ ?_ _ _,
    last_runs (fun s : GenSettings K => (s.maxStepTime, s.nominalStepTime)) (fun s o => (GenSettings.run s o).2) _ ?_ _ _,
    last_runs (fun s : GenSettings K => s.pauseActive) (fun s o => (GenSettings.run s o).2) _ ?_ _ _,
    last_runs (fun s : GenSettings K => (s.mergeBegin, s.mergeEnd)) (fun s o => (GenSettings.run s o).2) _ ?_ _ _⟩
  · intro s o
    cases o <;> simp only [GenSettings.run, switchFraction, Option.getD_none, GenSettings.setMergePointRatios]
    · rename_i x
      by_cases hx : 0 < x
      · rw [if_neg (not_le.2 hx), if_pos hx]; rfl
      · rw [if_pos (not_lt.1 hx), if_neg hx]; rfl
    all_goals (split_ifs <;> rfl)
  · intro s o
    cases o <;> simp only [GenSettings.run, halfSwitch, Option.getD_none, GenSettings.setMergePointRatios]
    case setTerminalHalfSwitchTime x =>
      by_cases hx : 0 < x
      · rw [if_neg (not_le.2 hx), if_pos hx]; rfl
      · rw [if_pos (not_lt.1 hx), if_neg hx]; rfl
    all_goals (split_ifs <;> rfl)
  · intro s o
    cases o <;> simp only [GenSettings.run, pauseTimes, Option.getD_none, GenSettings.setMergePointRatios]
    case setPauseConditions m n =>
      by_cases hx : 0 ≤ m ∧ 0 < n ∧ n ≤ m
      · rw [if_neg (not_lt.2 hx.1), if_neg (not_le.2 hx.2.1), if_neg (not_lt.2 hx.2.2), if_pos hx]; rfl
      · rw [if_neg hx]
        split_ifs with h1 h2 h3
        · rfl
        · rfl
        · rfl
        · exact absurd ⟨not_lt.1 h1, not_le.1 h2, not_lt.1 h3⟩ hx
    all_goals (split_ifs <;> rfl)
  · intro s o
    cases o <;> simp only [GenSettings.run, pauses, Option.getD_none, Option.getD_some, GenSettings.setMergePointRatios]
    all_goals (split_ifs <;> rfl)
  · intro s o
    cases o <;> simp only [GenSettings.run, mergeWindow, Option.getD_none, GenSettings.setMergePointRatios]
    case setMergePointRatio r =>
      by_cases hx : 0 ≤ r ∧ r ≤ 1
      · have hn : ¬ (r < 0 ∨ 1 < r) := by rintro (h1 | h1) <;> linarith [hx.1, hx.2]
        rw [if_neg hn, if_neg hn, if_neg (lt_irrefl r), if_pos hx]; rfl
      · rw [if_pos (by by_contra hc; rw [not_or, not_lt, not_lt] at hc; exact hx hc), if_neg hx]; rfl
    case setMergePointRatios a b =>
      by_cases hx : 0 ≤ a ∧ a ≤ b ∧ b ≤ 1
      · obtain ⟨x1, x2, x3⟩ := hx
        rw [if_neg (by rintro (h1 | h1) <;> linarith), if_neg (by rintro (h1 | h1) <;> linarith), if_neg (not_lt.2 x2), if_pos ⟨x1, x2, x3⟩]
        rfl
      · rw [if_neg hx]
        split_ifs with h1 h2 h3
        · rfl
        · rfl
        · rfl
        · rw [not_or, not_lt, not_lt] at h1 h2
          exact absurd ⟨h1.1, not_lt.1 h3, h2.2⟩ hx
    all_goals (split_ifs <;> rfl)

/-- C86, the planner: it is as after the same calls on a planner of its own (for which C32 tells the settings), with planning requests
in between. -/
theorem C86_planner {integ : Integrator K} {sort : Sorter K} {calls : List (Op K)} {w : Walker K} (h : Used integ sort calls w) :
    ∃ evs : List (Event K), configurations evs = calls.filterMap plannerCall ∧ w.planner = evs.foldl Event.apply Planner.new := by
  induction h with
  | new g => exact ⟨[], rfl, rfl⟩
  | op ops w o _ ih =>
    obtain ⟨evs, h1, h2⟩ := ih
    rw [List.filterMap_append, ← h1]
    cases o with
    | planner o =>
      refine ⟨evs ++ [.configure o], ?_, ?_⟩
      · rw [configurations_append]; rfl
      · rw [List.foldl_append, ← h2]; rfl
    | _ => exact ⟨evs, by simp [plannerCall, List.filterMap_cons], h2⟩
  | call ops w w' fuel c b _ hc ih =>
    obtain ⟨evs, h1, h2⟩ := ih
    obtain ⟨evs', h3, h4⟩ := (Kept.call hc).planner
    refine ⟨evs ++ evs', ?_, ?_⟩
    · rw [configurations_append, h1, h3, List.append_nil]
    · rw [h4, List.foldl_append, ← h2]
  | handle ops w w' _ hc ih =>
    obtain ⟨evs, h1, h2⟩ := ih
    obtain ⟨evs', h3, h4⟩ := (Kept.handle hc).planner
    refine ⟨evs ++ evs', ?_, ?_⟩
    · rw [configurations_append, h1, h3, List.append_nil]
    · rw [h4, List.foldl_append, ← h2]

/-- C86, the trajectory generators: after any history a generator is there if it was attached, and each of its settings has the value of
the last acceptable call made since then, or its default.  Refused calls and calls that generate change nothing. -/
theorem C86_generators {integ : Integrator K} {sort : Sorter K} {calls : List (Op K)} {w : Walker K} (h : Used integ sort calls w) :
    w.cubic.map (·.state) = (since addsCubic cubicCall calls).map feet ∧
    w.minJerk.map (·.state) = (since addsMinJerk minJerkCall calls).map feet ∧
    w.zmp.map (fun p => ((p.state.leftStance, p.state.rightStance), (p.state.leftSwitch, p.state.rightSwitch))) =
      (since addsZmp zmpCall calls).map (fun ops => (last stanceDelta (0, 0) ops, last switchDelta (0, 0) ops)) ∧
    w.dcm.map (fun p => (p.state.omega, p.state.alpha, p.state.stillness, p.state.lastOffset, (p.state.leftDelta, p.state.rightDelta),
        p.state.quintic)) =
      (since addsDcm dcmCall calls).map (fun ops => (last omega (981 / 50) ops, last alpha (1 / 2) ops, last stillness (1 / 10) ops,
        last lastOffset 0 ops, last footOffset (0, 0) ops, last fifthOrder false ops)) ∧
    w.height.map (fun p => (p.state.height, p.state.delta)) =
      (since addsHeight heightCall calls).map (last comHeight (-1, 0)) := by
  have key : w.cubic.map (fun q => id q.state) =
        (since addsCubic cubicCall calls).map (fun l => l.foldl (fun s o => (FeetSettings.run s o).2) FeetSettings.new) ∧
      w.minJerk.map (fun q => id q.state) =
        (since addsMinJerk minJerkCall calls).map (fun l => l.foldl (fun s o => (FeetSettings.run s o).2) FeetSettings.new) ∧
      w.zmp.map (fun q => zmpSettings q.state) = (since addsZmp zmpCall calls).map
        (fun l => l.foldl (fun s o => ((stanceDelta o).getD s.1, (switchDelta o).getD s.2)) ((0, 0), (0, 0))) ∧
      w.dcm.map (fun q => dcmSettings q.state) = (since addsDcm dcmCall calls).map
        (fun l => l.foldl (fun s o => ((omega o).getD s.1, (alpha o).getD s.2.1, (stillness o).getD s.2.2.1,
          (lastOffset o).getD s.2.2.2.1, (footOffset o).getD s.2.2.2.2.1, (fifthOrder o).getD s.2.2.2.2.2))
          (dcmSettings Dcm.new)) ∧
      w.height.map (fun q => id q.state) =
        (since addsHeight heightCall calls).map (fun l => l.foldl (fun s a => (HeightSettings.set s a.1 a.2).2) HeightSettings.new) := by
    induction h with
    | new g => exact ⟨rfl, rfl, rfl, rfl, rfl⟩
    | op ops w o _ ih =>
      obtain ⟨h1, h2, h3, h4, h5⟩ := ih
      refine ⟨obeys (p := w.cubic) ?_ h1 ?_ ?_ ?_, obeys (p := w.minJerk) ?_ h2 ?_ ?_ ?_, obeys (p := w.zmp) ?_ h3 ?_ ?_ ?_,
        obeys (p := w.dcm) ?_ h4 ?_ ?_ ?_, obeys (p := w.height) ?_ h5 ?_ ?_ ?_⟩
      · cases o <;> simp [addsCubic, cubicCall]
      · intro ha hp; cases o <;> simp [addsCubic] at ha; simp [Walker.run, hp, Plugin.attach]
      · intro ha hp; cases o <;> simp [addsCubic] at ha; simp only [Walker.run]; revert hp; cases w.cubic <;> simp [Plugin.attach]
      · intro ha; cases o <;> simp [addsCubic] at ha <;> simp [cubicCall, Walker.run, Plugin.set, Option.map_map, Function.comp_def]
      · cases o <;> simp [addsMinJerk, minJerkCall]
      · intro ha hp; cases o <;> simp [addsMinJerk] at ha; simp [Walker.run, hp, Plugin.attach]
      · intro ha hp; cases o <;> simp [addsMinJerk] at ha; simp only [Walker.run]; revert hp; cases w.minJerk <;> simp [Plugin.attach]
      · intro ha; cases o <;> simp [addsMinJerk] at ha <;> simp [minJerkCall, Walker.run, Plugin.set, Option.map_map, Function.comp_def]
      · cases o <;> simp [addsZmp, zmpCall]
      · intro ha hp; cases o <;> simp [addsZmp] at ha; simp [Walker.run, hp, Plugin.attach, zmpSettings, Zmp.new]
      · intro ha hp; cases o <;> simp [addsZmp] at ha; simp only [Walker.run]; revert hp; cases w.zmp <;> simp [Plugin.attach]
      · intro ha
        cases o <;> simp [addsZmp] at ha <;> simp [zmpCall, Walker.run, Plugin.set, Option.map_map, Function.comp_def, zmp_step]
      · cases o <;> simp [addsDcm, dcmCall]
      · intro ha hp; cases o <;> simp [addsDcm] at ha; simp [Walker.run, hp, Plugin.attach]
      · intro ha hp; cases o <;> simp [addsDcm] at ha; simp only [Walker.run]; revert hp; cases w.dcm <;> simp [Plugin.attach]
      · intro ha
        cases o <;> simp [addsDcm] at ha <;>
          simp [dcmCall, Walker.run, Plugin.set, Option.map_map, Function.comp_def, dcm_step]
      · cases o <;> simp [addsHeight, heightCall]
      · intro ha hp; cases o <;> simp [addsHeight] at ha; simp [Walker.run, hp, Plugin.attach]
      · intro ha hp; cases o <;> simp [addsHeight] at ha; simp only [Walker.run]; revert hp; cases w.height <;> simp [Plugin.attach]
      · intro ha; cases o <;> simp [addsHeight] at ha <;> simp [heightCall, Walker.run, Plugin.set, Option.map_map, Function.comp_def]
    | call ops w w' fuel c b _ hc ih =>
      obtain ⟨h1, h2, h3, h4, h5⟩ := ih
      have k := Kept.call hc
      exact ⟨k.cubic.trans h1, k.minJerk.trans h2, k.zmp.trans h3, k.dcm.trans h4, k.height.trans h5⟩
    | handle ops w w' _ hc ih =>
      obtain ⟨h1, h2, h3, h4, h5⟩ := ih
      have k := Kept.handle hc
      exact ⟨k.cubic.trans h1, k.minJerk.trans h2, k.zmp.trans h3, k.dcm.trans h4, k.height.trans h5⟩
  obtain ⟨h1, h2, h3, h4, h5⟩ := key
  refine ⟨?_, ?_, ?_, ?_, ?_⟩
  · simp only [feet_values] at h1; exact h1
  · simp only [feet_values] at h2; exact h2
  · simp only [zmp_values] at h3; exact h3
  · simp only [dcm_values] at h4
    have e : (981 / 100 / (1 / 2) : K) = 981 / 50 := by norm_num
    rw [← e]
    exact h4
  · simp only [height_values] at h5
    have := congrArg (Option.map fun s : HeightSettings K => (s.height, s.delta)) h5
    simpa [Option.map_map, Function.comp_def] using this

/-- C86, the return values: exactly the acceptable calls are accepted (for the setters that report it). -/
theorem C86_accepted :
    (∀ (s : GenSettings K) (o : GenSettings.Op K), (s.run o).1 = true ↔
      (switchFraction o).isSome ∨ (halfSwitch o).isSome ∨ (pauseTimes o).isSome ∨ (pauses o).isSome ∨ (mergeWindow o).isSome) ∧
    (∀ (s : FeetSettings K) (o : FeetSettings.Op K), (s.run o).1 = true ↔
      (Spec.stepHeight o).isSome ∨ (pitch o).isSome ∨ (apexTime o).isSome ∨ (Spec.landingVelocity o).isSome) ∧
    ∀ (s : HeightSettings K) (h d : K), (s.set h d).1 = true ↔ (comHeight (h, d)).isSome := by
  refine ⟨?_, ?_, ?_⟩
  · intro s o
    cases o <;> simp [GenSettings.run, switchFraction, halfSwitch, pauseTimes, pauses, mergeWindow, GenSettings.setMergePointRatios] <;>
      split_ifs <;> simp_all <;> grind
  · intro s o
    cases o <;> simp [FeetSettings.run, Spec.stepHeight, pitch, apexTime, Spec.landingVelocity] <;> split_ifs <;> simp_all
    grind
  · intro s h d
    simp [HeightSettings.set, comHeight]
    split_ifs <;> simp_all

end

/-! ## Non-vacuity -/

private local instance : Trig ℚ :=
  ⟨fun _ => 1, fun _ => 0, fun x => x, fun x => x, fun x => x, fun x _ => x, 22 / 7⟩

private def calls : List (Op ℚ) :=
  [.addMinJerk, .timing (.setPauseConditions 8 4), .addCubic, .cubic (.setStepHeight (1 / 10)), .cubic (.setStepHeight (-1)),
   .addCubic, .cubic (.setPitchDelta 90), .timing (.setPauseConditions 1 4), .planner (.setPlannerPeriod (1 / 2))]

/-- A history with refused calls and with a generation (that fails: there are no steps). -/
example : ∃ w : Walker ℚ, Used (fun p _ _ _ => (p.ctrl, none)) (fun _ _ => []) calls w ∧
    (since addsCubic cubicCall calls).map feet = some ⟨1 / 10, 11 / 7, 1 / 2, 0⟩ ∧
    (since addsMinJerk minJerkCall calls).map feet = some ⟨-1, 0, 1 / 2, 0⟩ ∧
    last pauseTimes (10, 2) (calls.filterMap timingCall) = (8, 4) := by
  have key : ∀ (l ops : List (Op ℚ)) (w : Walker ℚ), Used (fun p _ _ _ => (p.ctrl, none)) (fun _ _ => []) ops w →
      ∃ w, Used (fun p _ _ _ => (p.ctrl, none)) (fun _ _ => []) (ops ++ l) w := by
    intro l
    induction l with
    | nil => intro ops w h; exact ⟨w, by simpa using h⟩
    | cons o l ih =>
      intro ops w h
      obtain ⟨w', h'⟩ := ih _ _ (Used.op _ _ o h)
      exact ⟨w', by simpa using h'⟩
  obtain ⟨w, hw⟩ := key calls [] (.new 0) (.new 0)
  refine ⟨_, Used.call _ w _ 0 (.fromFootPrints ⟨[], "left"⟩ ⟨[], "right"⟩ 0 1) false hw rfl, ?_⟩
  decide +kernel

end Uni.Walker
