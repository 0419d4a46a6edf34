import Verif.Lemmas.Planned
import Verif.Props.Settings

/-! # Runs of the whole generator -/

set_option autoImplicit false
set_option linter.unusedSectionVars false

namespace Uni
open Spec Gen
variable {K : Type} [Field K] [LinearOrder K] [IsStrictOrderedRing K] [FloorRing K] [Trig K]

namespace Plugin
variable {S T : Type}

theorem run_true {p p' : Option (Plugin S T)} {f : S → Out (Bool × S × Option T)} :
    run p f = .ok (true, p') ↔ (p = none ∧ p' = none) ∨ ∃ q s r, p = some q ∧ f q.state = .ok (true, s, r) ∧ p' = some ⟨s, r⟩ := by
  unfold run
  cases p with
  | none => simp [eq_comm]
  | some q =>
    simp only
    constructor
    · intro h
      split at h
      · rename_i b s r hf
        cases h
        exact Or.inr ⟨q, s, r, rfl, hf, rfl⟩
      · cases h
      · cases h
    · rintro (⟨h, -⟩ | ⟨q', s, r, h, hf, rfl⟩)
      · cases h
      · cases h
        rw [hf]

/-- Whatever the outcome, the generator keeps its state or changes it as the call prescribes. -/
theorem run_ok {p p' : Option (Plugin S T)} {f : S → Out (Bool × S × Option T)} {b : Bool} (h : run p f = .ok (b, p')) :
    (p = none ∧ p' = none ∧ b = true) ∨ (∃ q s r, p = some q ∧ f q.state = .ok (b, s, r) ∧ p' = some ⟨s, r⟩) ∨
      ∃ q, p = some q ∧ f q.state = .fail ∧ b = false ∧ p' = some ⟨q.state, none⟩ := by
  unfold run at h
  cases p with
  | none => simp only at h; cases h; exact Or.inl ⟨rfl, rfl, rfl⟩
  | some q =>
    simp only at h
    split at h
    · rename_i b s r hf
      cases h
      exact Or.inr (Or.inl ⟨q, s, r, rfl, hf, rfl⟩)
    · rename_i hf
      cases h
      exact Or.inr (Or.inr ⟨q, rfl, hf, rfl, rfl⟩)
    · cases h

end Plugin

theorem Dcm.compute_some {d d' : Dcm K} {cfg : GenSettings K} {initTime dT : K} {steps : List (Step K)} {shifts : List Nat}
    {lp : List Phase} {left right : FootPrint K} :
    d.computeNewTrajectories cfg initTime dT steps shifts lp left right ≠ .ok (true, d', none) := by
  intro h
  unfold computeNewTrajectories at h
  rw [Out.bind_eq_ok] at h
  obtain ⟨d1, -, h⟩ := h
  split at h
  · split_ifs at h
    · cases h
    · cases h
    · split at h
      · cases h
      · split at h
        · cases h
        · split at h <;> cases h
  · cases h

namespace Walker
variable {w w' : Walker K} {initTime dT : K} {ordered : List (Ptr K)} {t : Timing K}

theorem trajectories_true : w.trajectories initTime dT ordered t = .ok (true, w') ↔
    ∃ c m z d g, Plugin.run w.cubic (runCubic w.garbage dT w.left w.right t) = .ok (true, c) ∧
      Plugin.run w.minJerk (runMinJerk dT w.left w.right t) = .ok (true, m) ∧
      Plugin.run w.zmp (runZmp w.cfg initTime dT w.left w.right ordered t) = .ok (true, z) ∧
      Plugin.run w.dcm (runDcm w.cfg initTime dT w.left w.right ordered t) = .ok (true, d) ∧
      Plugin.run w.height (runHeight dT t) = .ok (true, g) ∧
      w' = { w with cubic := c, minJerk := m, zmp := z, dcm := d, height := g } := by
  unfold trajectories
  constructor
  · intro h
    rw [Out.bind_eq_ok] at h
    obtain ⟨⟨b, c⟩, h1, h⟩ := h
    cases b
    · simp at h
    simp only [Bool.true_eq_false, if_false] at h
    rw [Out.bind_eq_ok] at h
    obtain ⟨⟨b, m⟩, h2, h⟩ := h
    cases b
    · simp at h
    simp only [Bool.true_eq_false, if_false] at h
    rw [Out.bind_eq_ok] at h
    obtain ⟨⟨b, z⟩, h3, h⟩ := h
    cases b
    · simp at h
    simp only [Bool.true_eq_false, if_false] at h
    rw [Out.bind_eq_ok] at h
    obtain ⟨⟨b, d⟩, h4, h⟩ := h
    cases b
    · simp at h
    simp only [Bool.true_eq_false, if_false] at h
    rw [Out.bind_eq_ok] at h
    obtain ⟨⟨b, g⟩, h5, h⟩ := h
    simp only [Out.ok.injEq, Prod.mk.injEq] at h
    obtain ⟨rfl, rfl⟩ := h
    exact ⟨c, m, z, d, g, h1, h2, h3, h4, h5, rfl⟩
  · rintro ⟨c, m, z, d, g, h1, h2, h3, h4, h5, rfl⟩
    rw [h1]
    simp only [Out.bind_ok, Bool.true_eq_false, if_false]
    rw [h2]
    simp only [Out.bind_ok, Bool.true_eq_false, if_false]
    rw [h3]
    simp only [Out.bind_ok, Bool.true_eq_false, if_false]
    rw [h4]
    simp only [Out.bind_ok, Bool.true_eq_false, if_false]
    rw [h5]
    rfl

/-- What the generators can turn into, whatever the outcome. -/
theorem trajectories_ok {b : Bool} (h : w.trajectories initTime dT ordered t = .ok (b, w')) :
    ∃ c m z d g, w' = { w with cubic := c, minJerk := m, zmp := z, dcm := d, height := g } ∧
      (c = w.cubic ∨ ∃ b, Plugin.run w.cubic (runCubic w.garbage dT w.left w.right t) = .ok (b, c)) ∧
      (m = w.minJerk ∨ ∃ b, Plugin.run w.minJerk (runMinJerk dT w.left w.right t) = .ok (b, m)) ∧
      (z = w.zmp ∨ ∃ b, Plugin.run w.zmp (runZmp w.cfg initTime dT w.left w.right ordered t) = .ok (b, z)) ∧
      (d = w.dcm ∨ ∃ b, Plugin.run w.dcm (runDcm w.cfg initTime dT w.left w.right ordered t) = .ok (b, d)) ∧
      (g = w.height ∨ ∃ b, Plugin.run w.height (runHeight dT t) = .ok (b, g)) := by
  unfold trajectories at h
  rw [Out.bind_eq_ok] at h
  obtain ⟨⟨b1, c⟩, h1, h⟩ := h
  cases b1
  · simp only [if_true, Out.ok.injEq, Prod.mk.injEq] at h
    exact ⟨c, _, _, _, _, h.2.symm, Or.inr ⟨_, h1⟩, Or.inl rfl, Or.inl rfl, Or.inl rfl, Or.inl rfl⟩
  simp only [Bool.true_eq_false, if_false] at h
  rw [Out.bind_eq_ok] at h
  obtain ⟨⟨b2, m⟩, h2, h⟩ := h
  cases b2
  · simp only [if_true, Out.ok.injEq, Prod.mk.injEq] at h
    exact ⟨c, m, _, _, _, h.2.symm, Or.inr ⟨_, h1⟩, Or.inr ⟨_, h2⟩, Or.inl rfl, Or.inl rfl, Or.inl rfl⟩
  simp only [Bool.true_eq_false, if_false] at h
  rw [Out.bind_eq_ok] at h
  obtain ⟨⟨b3, z⟩, h3, h⟩ := h
  cases b3
  · simp only [if_true, Out.ok.injEq, Prod.mk.injEq] at h
    exact ⟨c, m, z, _, _, h.2.symm, Or.inr ⟨_, h1⟩, Or.inr ⟨_, h2⟩, Or.inr ⟨_, h3⟩, Or.inl rfl, Or.inl rfl⟩
  simp only [Bool.true_eq_false, if_false] at h
  rw [Out.bind_eq_ok] at h
  obtain ⟨⟨b4, d⟩, h4, h⟩ := h
  cases b4
  · simp only [if_true, Out.ok.injEq, Prod.mk.injEq] at h
    exact ⟨c, m, z, d, _, h.2.symm, Or.inr ⟨_, h1⟩, Or.inr ⟨_, h2⟩, Or.inr ⟨_, h3⟩, Or.inr ⟨_, h4⟩, Or.inl rfl⟩
  simp only [Bool.true_eq_false, if_false] at h
  rw [Out.bind_eq_ok] at h
  obtain ⟨⟨b5, g⟩, h5, h⟩ := h
  simp only [Out.ok.injEq, Prod.mk.injEq] at h
  exact ⟨c, m, z, d, g, h.2.symm, Or.inr ⟨_, h1⟩, Or.inr ⟨_, h2⟩, Or.inr ⟨_, h3⟩, Or.inr ⟨_, h4⟩, Or.inr ⟨_, h5⟩⟩

/-- A successful run of `generateFromFootPrints`. -/
theorem fromFootPrints_true {left right : FootPrint K} {sorted : List (Ptr K)}
    (h : w.generateFromFootPrints left right initTime dT sorted = .ok (true, w')) :
    ∃ ordered t, timeline w.cfg left right initTime dT sorted = .ok (ordered, t) ∧
      trajectories { w with left := left, right := right, outputs := outputsAfter w.cfg left right initTime dT sorted w.outputs }
        initTime dT ordered t = .ok (true, w') := by
  unfold generateFromFootPrints at h
  simp only at h
  split at h
  · rename_i o t ht
    exact ⟨o, t, ht, h⟩
  · cases h
  · cases h

/-- Whatever the outcome, only the footprints, the outputs and the generators change. -/
theorem fromFootPrints_ok {left right : FootPrint K} {sorted : List (Ptr K)} {b : Bool}
    (h : w.generateFromFootPrints left right initTime dT sorted = .ok (b, w')) :
    ∃ c m z d g ordered t,
      w' = { w with left := left, right := right, outputs := outputsAfter w.cfg left right initTime dT sorted w.outputs,
                    cubic := c, minJerk := m, zmp := z, dcm := d, height := g } ∧
      (c = w.cubic ∨ ∃ b, Plugin.run w.cubic (runCubic w.garbage dT left right t) = .ok (b, c)) ∧
      (m = w.minJerk ∨ ∃ b, Plugin.run w.minJerk (runMinJerk dT left right t) = .ok (b, m)) ∧
      (z = w.zmp ∨ ∃ b, Plugin.run w.zmp (runZmp w.cfg initTime dT left right ordered t) = .ok (b, z)) ∧
      (d = w.dcm ∨ ∃ b, Plugin.run w.dcm (runDcm w.cfg initTime dT left right ordered t) = .ok (b, d)) ∧
      (g = w.height ∨ ∃ b, Plugin.run w.height (runHeight dT t) = .ok (b, g)) := by
  unfold generateFromFootPrints at h
  simp only at h
  split at h
  · rename_i o t ht
    obtain ⟨c, m, z, d, g, e, h1, h2, h3, h4, h5⟩ := trajectories_ok h
    exact ⟨c, m, z, d, g, o, t, e, h1, h2, h3, h4, h5⟩
  · cases h
    exact ⟨_, _, _, _, _, [], ⟨[], [], [], [], 0, 0, 0, false, false⟩, rfl, Or.inl rfl, Or.inl rfl, Or.inl rfl, Or.inl rfl, Or.inl rfl⟩
  · cases h

/-- A successful request delivers everything. -/
theorem complete_of {left right : FootPrint K} {sorted : List (Ptr K)}
    (hapex : ∀ p, w.minJerk = some p → 0 < p.state.swingApex ∧ p.state.swingApex < 1)
    (h : w.generateFromFootPrints left right initTime dT sorted = .ok (true, w')) : ∃ n, Complete w' n := by
  obtain ⟨o, t, ht, h⟩ := fromFootPrints_true h
  obtain ⟨c, m, z, d, g, h1, h2, h3, h4, h5, rfl⟩ := trajectories_true.mp h
  simp only at h1 h2 h3 h4 h5
  refine ⟨t.left.length, ?_, ?_, ?_, ?_, ?_, ?_⟩
  · obtain ⟨l, r, e1, e2⟩ := C63_after_success_partial w.outputs [] (q := ⟨w.cfg, left, right, initTime, dT, sorted⟩) (a := (o, t)) ht
    have e3 := e1
    simp only [List.nil_append, outputsAll, List.foldl_cons, List.foldl_nil, outputsAfter, ht, GenOutputs.getStepPhases, Out.ok.injEq,
      Prod.mk.injEq] at e3
    exact ⟨l, r, e1, by rw [e3.1], e2⟩
  · rintro p hp
    simp only at hp
    subst hp
    rcases Plugin.run_true.mp h1 with ⟨-, h⟩ | ⟨q, s, r, -, hf, he⟩
    · cases h
    cases he
    unfold runCubic at hf
    rw [Out.bind_eq_ok] at hf
    obtain ⟨out, ho, hf⟩ := hf
    cases hf
    exact ⟨out.1, out.2, rfl, CubicFeet.lengths ht ho⟩
  · rintro p hp
    simp only at hp
    subst hp
    rcases Plugin.run_true.mp h2 with ⟨-, h⟩ | ⟨q, s, r, hq, hf, he⟩
    · cases h
    cases he
    unfold runMinJerk at hf
    rw [Out.bind_eq_ok] at hf
    obtain ⟨out, ho, hf⟩ := hf
    cases hf
    exact ⟨out.1, out.2, rfl, MinJerk.lengths ht (hapex q hq).1 (hapex q hq).2 ho⟩
  · rintro p hp
    simp only at hp
    subst hp
    rcases Plugin.run_true.mp h3 with ⟨-, h⟩ | ⟨q, s, r, hq, hf, he⟩
    · cases h
    cases he
    unfold runZmp at hf
    rw [Out.bind_eq_ok] at hf
    obtain ⟨out, ho, hf⟩ := hf
    cases hf
    exact ⟨out.2, rfl, Zmp.lengths ht ho⟩
  · rintro p hp
    simp only at hp
    subst hp
    rcases Plugin.run_true.mp h4 with ⟨-, h⟩ | ⟨q, s, r, hq, hf, he⟩
    · cases h
    cases he
    unfold runDcm at hf
    cases r with
    | none => exact absurd hf Dcm.compute_some
    | some out => exact ⟨out, rfl, Dcm.lengths ht hf⟩
  · rintro p hp
    simp only at hp
    subst hp
    rcases Plugin.run_true.mp h5 with ⟨-, h⟩ | ⟨q, s, r, hq, hf, he⟩
    · cases h
    cases he
    unfold runHeight at hf
    rw [Out.bind_eq_ok] at hf
    obtain ⟨out, ho, hf⟩ := hf
    cases hf
    exact ⟨out, rfl, (CoMHeight.samples ht ho).1⟩

/-! ## Histories -/

/-- Made by the setters. -/
def FeetMade (s : FeetSettings K) : Prop := ∃ ops, s = FeetSettings.new.runAll ops
/-- Made by the setters. -/
def HeightMade (s : HeightSettings K) : Prop := ∃ ops, s = HeightSettings.new.runAll ops
/-- An announced initial state is there. -/
def DcmMade (s : Dcm K) : Prop := s.specified = true → s.initial ≠ none

/-- The calls that led to the state of the parts. -/
structure History (w : Walker K) : Prop where
  cfg : ∃ ops, w.cfg = GenSettings.new.runAll ops
  planner : ∃ evs : List (Event K), w.planner = evs.foldl Event.apply Planner.new
  cubic : ∀ p, w.cubic = some p → FeetMade p.state
  minJerk : ∀ p, w.minJerk = some p → FeetMade p.state
  dcm : ∀ p, w.dcm = some p → DcmMade p.state
  height : ∀ p, w.height = some p → HeightMade p.state

theorem History.new (g : K) : History (Walker.new g) where
  cfg := ⟨[], rfl⟩
  planner := ⟨[], rfl⟩
  cubic := by intro p hp; cases hp
  minJerk := by intro p hp; cases hp
  dcm := by intro p hp; cases hp
  height := by intro p hp; cases hp

theorem attach_state {S T : Type} {P : S → Prop} {p : Option (Plugin S T)} {s : S} (hs : P s) (hp : ∀ q, p = some q → P q.state) :
    ∀ q, Plugin.attach p s = some q → P q.state := by
  intro q hq
  unfold Plugin.attach at hq
  split at hq
  · cases hq; exact hs
  · cases hq; exact hp _ rfl

theorem set_state {S T : Type} {P : S → Prop} {p : Option (Plugin S T)} {f : S → S} (hf : ∀ s, P s → P (f s))
    (hp : ∀ q, p = some q → P q.state) : ∀ q, Plugin.set p f = some q → P q.state := by
  intro q hq
  cases p with
  | none => cases hq
  | some x => cases hq; exact hf _ (hp _ rfl)

theorem run_state {S T : Type} {P : S → Prop} {p p' : Option (Plugin S T)} {f : S → Out (Bool × S × Option T)} {b : Bool}
    (hf : ∀ s b s' r, P s → f s = .ok (b, s', r) → P s') (hp : ∀ q, p = some q → P q.state) (h : Plugin.run p f = .ok (b, p')) :
    ∀ q, p' = some q → P q.state := by
  intro q hq
  subst hq
  rcases Plugin.run_ok h with ⟨-, h, -⟩ | ⟨q', s, r, e, e1, e2⟩ | ⟨q', e, -, -, e2⟩
  · cases h
  · cases e2; exact hf _ _ _ _ (hp q' e) e1
  · cases e2; exact hp q' e

theorem History.op (h : History w) (o : Op K) : History (w.run o) := by
  have feet : ∀ (o : FeetSettings.Op K) (s : FeetSettings K), FeetMade s → FeetMade (s.run o).2 := by
    rintro o s ⟨ops, rfl⟩
    exact ⟨ops ++ [o], by simp [FeetSettings.runAll]⟩
  cases o with
  | timing o =>
    obtain ⟨ops, e⟩ := h.cfg
    exact { h with cfg := ⟨ops ++ [o], by simp [run, e, GenSettings.runAll]⟩ }
  | planner o =>
    obtain ⟨evs, e⟩ := h.planner
    exact { h with planner := ⟨evs ++ [.configure o], by simp [run, e, Event.apply]⟩ }
  | addCubic => exact { h with cubic := attach_state (P := FeetMade) ⟨[], rfl⟩ h.cubic }
  | addMinJerk => exact { h with minJerk := attach_state (P := FeetMade) ⟨[], rfl⟩ h.minJerk }
  | addZmp g => exact { h with }
  | addDcm =>
    exact { h with dcm := attach_state (P := DcmMade) (by intro h; cases h) h.dcm }
  | addHeight => exact { h with height := attach_state (P := HeightMade) ⟨[], rfl⟩ h.height }
  | cubic o => exact { h with cubic := set_state (P := FeetMade) (feet o) h.cubic }
  | minJerk o => exact { h with minJerk := set_state (P := FeetMade) (feet o) h.minJerk }
  | zmp o => exact { h with }
  | dcm o =>
    refine { h with dcm := set_state (P := DcmMade) (f := fun d => o.run d) ?_ h.dcm }
    intro s hs
    cases o with
    | setDCMInitialState p v => intro _; simp [DcmOp.run, Dcm.setDCMInitialState]
    | setOmega x => simp only [DcmOp.run, Dcm.setOmega]; split_ifs <;> exact hs
    | setAlpha x => simp only [DcmOp.run, Dcm.setAlpha]; split_ifs <;> exact hs
    | setStillnessPercentage x => simp only [DcmOp.run, Dcm.setStillnessPercentage]; split_ifs <;> exact hs
    | setLastStepDCMOffsetPercentage x => simp only [DcmOp.run, Dcm.setLastStepDCMOffsetPercentage]; split_ifs <;> exact hs
    | setFootOriginOffset l r => exact hs
    | setFirstDCMTrajectoryMode b => exact hs
  | height x y =>
    refine { h with height := set_state (P := HeightMade) (f := fun c => (c.set x y).2) ?_ h.height }
    rintro s ⟨ops, rfl⟩
    exact ⟨ops ++ [(x, y)], by simp [HeightSettings.runAll]⟩

theorem runDcm_state {cfg : GenSettings K} {left right : FootPrint K} (s : Dcm K) (b : Bool) (s' : Dcm K) (r : Option (DcmOut K))
    (hs : DcmMade s) (h : runDcm cfg initTime dT left right ordered t s = .ok (b, s', r)) :
    DcmMade s' := by
  unfold runDcm Dcm.computeNewTrajectories at h
  rw [Out.bind_eq_ok] at h
  obtain ⟨d1, h1, h⟩ := h
  have k1 : d1.specified = true → d1.initial ≠ none := by
    unfold Dcm.setInitial at h1
    split_ifs at h1 with hc
    · cases h1; exact hs
    · split at h1
      · cases h1; simp
      · cases h1
  have k2 : ∀ a x y z : _, ({ d1 with dT := dT }.setPauseConditions a x y z).2.specified = true →
      ({ d1 with dT := dT }.setPauseConditions a x y z).2.initial ≠ none := by
    intro a x y z
    unfold Dcm.setPauseConditions
    split_ifs <;> exact k1
  split at h
  · split_ifs at h
    · cases h; exact k1
    · cases h; exact k1
    · split at h
      · rename_i d2 e
        have := k2 cfg.pauseActive (cfg.switchPercentage * cfg.maxStepTime) (cfg.switchPercentage * cfg.nominalStepTime) cfg.endSwitch
        rw [e] at this
        cases h
        exact this
      · rename_i d2 e
        have := k2 cfg.pauseActive (cfg.switchPercentage * cfg.maxStepTime) (cfg.switchPercentage * cfg.nominalStepTime) cfg.endSwitch
        rw [e] at this
        split at h
        · cases h
        · split at h
          · cases h; intro h; cases h
          · cases h; exact this
          · cases h
  · cases h; exact k1

theorem History.fromFootPrints {left right : FootPrint K} {sorted : List (Ptr K)} {b : Bool} (hw : History w)
    (h : w.generateFromFootPrints left right initTime dT sorted = .ok (b, w')) : History w' := by
  obtain ⟨c, m, z, d, g, o, t, rfl, h1, h2, -, h4, h5⟩ := fromFootPrints_ok h
  refine ⟨hw.cfg, hw.planner, ?_, ?_, ?_, ?_⟩
  · rcases h1 with rfl | ⟨b, h1⟩
    · exact hw.cubic
    · refine run_state (P := FeetMade) ?_ hw.cubic h1
      rintro s b s' r hs hf
      unfold runCubic at hf
      rw [Out.bind_eq_ok] at hf
      obtain ⟨x, -, hf⟩ := hf
      cases hf
      exact hs
  · rcases h2 with rfl | ⟨b, h2⟩
    · exact hw.minJerk
    · refine run_state (P := FeetMade) ?_ hw.minJerk h2
      rintro s b s' r hs hf
      unfold runMinJerk at hf
      rw [Out.bind_eq_ok] at hf
      obtain ⟨x, -, hf⟩ := hf
      cases hf
      exact hs
  · rcases h4 with rfl | ⟨b, h4⟩
    · exact hw.dcm
    · exact run_state (P := DcmMade) runDcm_state hw.dcm h4
  · rcases h5 with rfl | ⟨b, h5⟩
    · exact hw.height
    · refine run_state (P := HeightMade) ?_ hw.height h5
      rintro s b s' r hs hf
      unfold runHeight at hf
      rw [Out.bind_eq_ok] at hf
      obtain ⟨x, -, hf⟩ := hf
      cases hf
      exact hs

theorem History.fromMembers {sort : Sorter K} {b : Bool} (hw : History w) (h : w.fromMembers initTime dT sort = .done b w') :
    History w' := by
  unfold Walker.fromMembers at h
  split at h
  · rename_i e; cases h; exact hw.fromFootPrints e
  · cases h; exact hw
  · cases h

theorem planner_plan {p p' : Planner K} {integ : Integrator K} {fuel : Nat} {left right left' right' : FootPrint K} {t0 t1 : K} {b : Bool}
    (hp : ∃ evs : List (Event K), p = evs.foldl Event.apply Planner.new)
    (h : p.computeNewSteps integ fuel left right t0 t1 = .done b p' left' right') :
    ∃ evs : List (Event K), p' = evs.foldl Event.apply Planner.new := by
  obtain ⟨evs, e⟩ := hp
  refine ⟨evs ++ [.plan integ fuel left right t0 t1], ?_⟩
  rw [List.foldl_append, ← e]
  simp only [List.foldl_cons, List.foldl_nil, Event.apply, h]

theorem History.plan {integ : Integrator K} {fuel : Nat} {t0 t1 : K} {b : Bool} (hw : History w)
    (h : w.plan integ fuel t0 t1 = .done b w') : History w' := by
  unfold Walker.plan at h
  split at h
  · rename_i e; cases h; exact { hw with planner := planner_plan hw.planner e }
  · cases h
  · cases h

/-- A re-planning request either leaves the planner alone or is one planning call. -/
theorem replan_planner {p p' : Planner K} {integ : Integrator K} {fuel : Nat} {dcm : DcmVelocity K} {left right left' right' : FootPrint K}
    {t0 t1 : K} {q : Request K} {b : Bool} {prev : Option (Step K × Step K)}
    (h : Gen.replan p integ fuel dcm left right t0 t1 q = .done b p' left' right' prev) :
    p' = p ∨ ∃ l r b', p.computeNewSteps integ fuel l r t0 t1 = .done b' p' left' right' := by
  have key : ∀ l r pr, planFrom p integ fuel l r t0 t1 pr = .done b p' left' right' prev →
      ∃ l r b', p.computeNewSteps integ fuel l r t0 t1 = .done b' p' left' right' := by
    intro l r pr hh
    unfold planFrom at hh
    split at hh
    · rename_i e; cases hh; exact ⟨l, r, _, e⟩
    · rename_i e; cases hh; exact ⟨l, r, _, e⟩
    · cases hh
    · cases hh
  unfold Gen.replan computeNewStepsFromMeasured at h
  split at h
  · cases h; exact Or.inl rfl
  · split at h
    · cases h; exact Or.inl rfl
    · split at h
      · cases h
      · cases h; exact Or.inl rfl
      · split_ifs at h
        · split at h
          · simp only at h
            split at h
            · cases h; exact Or.inl rfl
            · split at h
              · cases h; exact Or.inl rfl
              · exact Or.inr (key _ _ _ h)
          · cases h
        · exact Or.inr (key _ _ _ h)

theorem History.replan {integ : Integrator K} {fuel : Nat} {t0 t1 : K} {q : Request K} {b : Bool} (hw : History w)
    (h : w.replan integ fuel t0 t1 q = .done b w') : History w' := by
  unfold Walker.replan at h
  split at h
  · rename_i b' p' l' r' prev e
    cases h
    have hp : ∃ evs : List (Event K), p' = evs.foldl Event.apply Planner.new := by
      rcases replan_planner e with rfl | ⟨l, r, b', e⟩
      · exact hw.planner
      · exact planner_plan hw.planner e
    exact { hw with planner := hp }
  · cases h
  · cases h

theorem next_done {r : Result K} {f : Walker K → Result K} {b : Bool} (h : r.next f = .done b w') :
    (∃ w1, r = .done true w1 ∧ f w1 = .done b w') ∨ (b = false ∧ r = .done false w') := by
  unfold Result.next at h
  split at h
  · exact Or.inl ⟨_, rfl, h⟩
  · rename_i hne
    cases b
    · exact Or.inr ⟨rfl, h⟩
    · exact absurd h (hne _)

theorem History.call {integ : Integrator K} {fuel : Nat} {sort : Sorter K} {c : Call K} {b : Bool} (hw : History w)
    (h : w.call integ fuel sort c = .done b w') : History w' := by
  cases c with
  | fromFootPrints l r t0 dT =>
    simp only [Walker.call] at h
    split at h
    · rename_i e; cases h; exact hw.fromFootPrints e
    · cases h; exact hw
    · cases h
  | generate t0 dT t1 =>
    rcases next_done h with ⟨w1, e1, e2⟩ | ⟨-, e⟩
    · exact (hw.plan e1).fromMembers e2
    · exact hw.plan e
  | reGenerate t0 dT t1 q =>
    rcases next_done h with ⟨w1, e1, e2⟩ | ⟨-, e⟩
    · exact (hw.replan e1).fromMembers e2
    · exact hw.replan e

theorem History.handle {integ : Integrator K} (hw : History w) (h : Handle integ w w') : History w' := by
  cases h with
  | left l => exact { hw with }
  | right r => exact { hw with }
  | clear t b p e =>
    obtain ⟨evs, e'⟩ := hw.planner
    refine { hw with planner := ⟨evs ++ [.clear t], ?_⟩ }
    rw [List.foldl_append, ← e']
    simp only [List.foldl_cons, List.foldl_nil, Event.apply, e]
  | plan fuel l r l' r' t0 t1 b p e => exact { hw with planner := planner_plan hw.planner e }

theorem Reached.history {integ : Integrator K} {sort : Sorter K} (h : Reached integ sort w) : History w := by
  induction h with
  | new g => exact History.new g
  | op w o _ ih => exact ih.op o
  | call w w' fuel c b _ h ih => exact ih.call h
  | handle w w' _ h ih => exact ih.handle h

theorem Reached.valid {integ : Integrator K} {sort : Sorter K} (h : Reached integ sort w) : ValidTimings w.cfg := by
  obtain ⟨ops, e⟩ := h.history.cfg
  rw [e]
  exact C36_settings ops

theorem Reached.timed (hpi : (0 : K) ≤ Trig.pi) {integ : Integrator K} {sort : Sorter K} (h : Reached integ sort w) : Timed w.planner := by
  obtain ⟨evs, e⟩ := h.history.planner
  rw [e]
  exact Planner.C32_timed hpi evs

theorem feet_apex (ops : List (FeetSettings.Op K)) :
    0 < ((FeetSettings.new : FeetSettings K).runAll ops).swingApex ∧ ((FeetSettings.new : FeetSettings K).runAll ops).swingApex < 1 := by
  have h0 : 0 < (FeetSettings.new : FeetSettings K).swingApex ∧ (FeetSettings.new : FeetSettings K).swingApex < 1 := by
    simp only [FeetSettings.new]; norm_num
  have hstep : ∀ (s : FeetSettings K) o, 0 < s.swingApex ∧ s.swingApex < 1 → 0 < (s.run o).2.swingApex ∧ (s.run o).2.swingApex < 1 := by
    intro s o hs
    cases o with
    | setStepHeight h => simp only [FeetSettings.run]; split_ifs <;> exact hs
    | setPitchDelta p => exact hs
    | setFootApexTime r =>
      simp only [FeetSettings.run]
      split_ifs with hr
      · exact hs
      · rw [not_or, not_le, not_le] at hr; exact hr
    | setFootLandingVelocity v => exact hs
  have : ∀ (ops : List (FeetSettings.Op K)) (s : FeetSettings K), 0 < s.swingApex ∧ s.swingApex < 1 →
      0 < (s.runAll ops).swingApex ∧ (s.runAll ops).swingApex < 1 := by
    intro ops
    induction ops with
    | nil => exact fun s h => h
    | cons o ops ih => exact fun s h => ih _ (hstep s o h)
  exact this ops _ h0

theorem Reached.minJerk {integ : Integrator K} {sort : Sorter K} (h : Reached integ sort w) :
    ∀ p, w.minJerk = some p → 0 < p.state.swingApex ∧ p.state.swingApex < 1 := by
  intro p hp
  obtain ⟨ops, e⟩ := h.history.minJerk p hp
  rw [e]
  exact feet_apex ops

theorem Reached.cubic {integ : Integrator K} {sort : Sorter K} (h : Reached integ sort w) :
    ∀ p, w.cubic = some p → 0 < p.state.swingApex ∧ p.state.swingApex < 1 := by
  intro p hp
  obtain ⟨ops, e⟩ := h.history.cubic p hp
  rw [e]
  exact feet_apex ops

end Walker
end Uni
