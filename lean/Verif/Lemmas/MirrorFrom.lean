import Verif.Lemmas.MirrorDcm
import Verif.Lemmas.Ties

/-! # Mirrored walks: all the trajectories for given footprints -/

set_option autoImplicit false
set_option linter.unusedSectionVars false

namespace Uni

namespace Spec.Mirror
variable {K : Type} [Field K] [LinearOrder K] [IsStrictOrderedRing K] [FloorRing K] [Trig K]

theorem ends_length (l : List Seg) (n : Nat) : (ends n l).length = l.length := by
  induction l generalizing n with
  | nil => rfl
  | cons s l ih => simp [ends, ih]

theorem segs_length (tt : Timetable) (f : Bool) : (tt.segs f).length = 2 * tt.slots.length + 1 := by
  unfold Timetable.segs
  rw [List.length_append]
  simp only [List.length_singleton, Nat.add_right_cancel_iff]
  induction tt.slots with
  | nil => rfl
  | cons s l ih =>
    rw [List.flatMap_cons, List.length_append, ih]
    unfold Slot.segs
    split <;> simp <;> omega

theorem first (tt : Timetable) : First (tt.phases true) tt.shifts where
  even := by
    unfold Timetable.shifts
    rw [List.length_cons, ends_length, segs_length]
    omega
  double := by
    intro s p hs h0 hp
    have hsegs : ∃ g l, tt.segs true = g :: l ∧ (g.1 = .switchIn ∨ g.1 = .switchOut) := by
      unfold Timetable.segs
      cases tt.slots with
      | nil =>
        refine ⟨_, [], rfl, ?_⟩
        simp only
        split <;> simp
      | cons a l =>
        rw [List.flatMap_cons]
        unfold Slot.segs
        split
        · exact ⟨_, _, rfl, .inr rfl⟩
        · exact ⟨_, _, rfl, .inl rfl⟩
    obtain ⟨g, l, e, hg⟩ := hsegs
    unfold Timetable.shifts at hs
    unfold Timetable.phases at hp
    rw [e] at hs hp
    simp only [ends, List.getElem?_cons_succ, List.getElem?_cons_zero, Nat.zero_add, Option.some.injEq] at hs
    rw [expand_cons, List.getElem?_append_left (by rw [List.length_replicate]; omega), List.getElem?_replicate,
      if_pos (by omega)] at hp
    cases hp
    exact hg

/-- What the generators need to know of the timings. -/
structure Sound (t : Timing K) : Prop where
  opposite : t.right = t.left.map phase
  aligned : AlignedFrom t.left 0 t.shifts.tail
  first : First t.left t.shifts

theorem sound {cfg : GenSettings K} {left right : FootPrint K} {initTime dT : K} {sorted ordered : List (Ptr K)} {t : Timing K}
    (h : Gen.timeline cfg left right initTime dT sorted = .ok (ordered, t)) : Sound t := by
  obtain ⟨l, r, tt, hr⟩ := Gen.timeline_ok h
  have hb := hr.built
  refine ⟨?_, ?_, ?_⟩
  · rw [hb.right, hb.left, tt.phases_false]
  · rw [hb.left, hb.shifts]; exact tt.aligned true
  · rw [hb.left, hb.shifts]; exact Mirror.first tt

theorem leftFixed (phases : List Phase) :
    Gen.leftFixed (phases.map phase) = (Gen.leftFixed phases).map not := by
  unfold Gen.leftFixed
  simp only [List.map_map]
  refine List.map_congr_left fun p _ => ?_
  cases p <;> rfl

/-- Every generator that is attached follows its image. -/
theorem run_follows {S T : Type} {R : Plugin S T → Plugin S T → Prop} {Q : Plugin S T → Plugin S T → Prop}
    {p p' q : Option (Plugin S T)} (h : Both R p p')
    {f f' : S → Out (Bool × S × Option T)} (hq : Plugin.run p f = .ok (true, q))
    (hf : ∀ a a' s r, R a a' → f a.state = .ok (true, s, r) → ∃ s' r', f' a'.state = .ok (true, s', r') ∧ Q ⟨s, r⟩ ⟨s', r'⟩) :
    ∃ q', Plugin.run p' f' = .ok (true, q') ∧ Both Q q q' := by
  rcases Plugin.run_true.mp hq with ⟨rfl, rfl⟩ | ⟨a, s, r, rfl, h1, rfl⟩
  · rcases p' with _ | p'
    · exact ⟨none, rfl, trivial⟩
    · exact h.elim
  · rcases p' with _ | p'
    · exact h.elim
    · obtain ⟨s', r', h2, h3⟩ := hf a p' s r h h1
      exact ⟨some ⟨s', r'⟩, by simp only [Plugin.run, h2], h3⟩

end Spec.Mirror

namespace Spec
variable {K : Type} [Field K] [LinearOrder K] [IsStrictOrderedRing K] [FloorRing K] [Trig K]

theorem Both.imp {α β : Type} {R S : α → β → Prop} {a : Option α} {b : Option β} (h : Both R a b) (hRS : ∀ x y, R x y → S x y) :
    Both S a b := by
  rcases a with _ | a <;> rcases b with _ | b
  · exact h
  · exact h
  · exact h
  · exact hRS a b h

theorem SettingsMirrored.from (hp : TrigParity K) {w w' : Walker K} (h : SettingsMirrored w w') {left right : FootPrint K} {initTime dT : K}
    {sorted : List (Ptr K)} (hs : SortedPtrs left right sorted) {w1 : Walker K}
    (hw : w.generateFromFootPrints left right initTime dT sorted = .ok (true, w1)) :
    ∃ w1', w'.generateFromFootPrints (Mirror.footPrint right) (Mirror.footPrint left) initTime dT (sorted.map Mirror.ptr) =
      .ok (true, w1') ∧ WalkMirrored w1 w1' := by
  unfold Walker.generateFromFootPrints at hw ⊢
  have htl := Mirror.timeline w.cfg left right initTime dT sorted hs
  simp only [h.cfg]
  cases htm : Gen.timeline w.cfg left right initTime dT sorted with
  | fail => simp only [htm] at hw; cases hw
  | ub u => simp only [htm] at hw; cases hw
  | ok o =>
    obtain ⟨ordered, t⟩ := o
    obtain ⟨⟨ordered', t'⟩, e, e1, ht, hnt⟩ := htl _ htm
    have hsnd := Mirror.sound htm
    simp only [htm] at hw
    simp only at e1 ht hnt
    subst e1
    simp only [e]
    obtain ⟨c, m, z, d, g, hc, hm, hz, hd, hg, rfl⟩ := Walker.trajectories_true.mp hw
    simp only at hc hm hz hd hg
    have hst : (ordered.map Mirror.ptr).map Ptr.step = (ordered.map Ptr.step).map Mirror.step := by
      simp only [List.map_map]; rfl
    obtain ⟨c', hc', rc⟩ := Mirror.run_follows (Q := fun p p' => p'.state = p.state ∧ p'.result = p.result.map Mirror.feet)
      (f' := Walker.runCubic w.garbage dT (Mirror.footPrint right) (Mirror.footPrint left) t') h.cubic hc (by
        intro a a' s r ha h1
        obtain ⟨o, ho, h1⟩ := Out.bind_eq_ok.mp h1
        cases h1
        obtain ⟨o', ho', rfl⟩ := Mirror.cubic_feet hp _ _ _ _ _ ht o ho
        refine ⟨a'.state, some (Mirror.feet o), ?_, ha, rfl⟩
        rw [ha]
        simp only [Walker.runCubic, ho', Out.bind_ok])
    obtain ⟨m', hm', rm⟩ := Mirror.run_follows (Q := fun p p' => p'.state = p.state ∧ p'.result = p.result.map Mirror.feet)
      (f' := Walker.runMinJerk dT (Mirror.footPrint right) (Mirror.footPrint left) t') h.minJerk hm (by
        intro a a' s r ha h1
        obtain ⟨o, ho, h1⟩ := Out.bind_eq_ok.mp h1
        cases h1
        obtain ⟨o', ho', rfl⟩ := Mirror.minJerk_feet hp _ _ _ _ ht o ho
        refine ⟨a'.state, some (Mirror.feet o), ?_, ha, rfl⟩
        rw [ha]
        simp only [Walker.runMinJerk, ho', Out.bind_ok])
    obtain ⟨z', hz', rz⟩ := Mirror.run_follows (Q := fun p p' => ZmpStateMirrored p.state p'.state ∧ Both ZmpOutMirrored p.result p'.result)
      (f' := Walker.runZmp w.cfg initTime dT (Mirror.footPrint right) (Mirror.footPrint left) (ordered.map Mirror.ptr) t') h.zmp hz (by
        intro a a' s r ha h1
        obtain ⟨o, ho, h1⟩ := Out.bind_eq_ok.mp h1
        cases h1
        obtain ⟨o', ho', h2, h3⟩ := ha.new hp w.cfg initTime dT left right (ordered.map Ptr.step) ht hsnd.opposite hsnd.aligned o ho
        refine ⟨o'.1, some o'.2, ?_, h2, h3⟩
        simp only [Walker.runZmp, hst, ho', Out.bind_ok])
    obtain ⟨d', hd', rd⟩ := Mirror.run_follows
      (Q := fun p p' => p'.state = Mirror.dcmState p.state ∧ Both (DcmOutMirrored t.left) p.result p'.result)
      (f' := Walker.runDcm w.cfg initTime dT (Mirror.footPrint right) (Mirror.footPrint left) (ordered.map Mirror.ptr) t') h.dcm hd (by
        intro a a' s r ha h1
        obtain ⟨o', ho', h2⟩ := Mirror.dcm_new a.state hp w.cfg initTime dT (ordered.map Ptr.step) ht hsnd.opposite hsnd.aligned
          hsnd.first left right s r h1
        refine ⟨_, o', ?_, rfl, h2⟩
        rw [ha]
        simp only [Walker.runDcm, hst]
        exact ho')
    obtain ⟨g', hg', rg⟩ := Mirror.run_follows (Q := fun p p' => p'.state = p.state ∧ p'.result = p.result)
      (f' := Walker.runHeight dT t') h.height hg (by
        intro a a' s r ha h1
        refine ⟨s, r, ?_, rfl, rfl⟩
        rw [ha, ← h1]
        have e : CoMHeight.computeNewTrajectories a.state dT t'.left t'.shifts =
            CoMHeight.computeNewTrajectories a.state dT t.left t.shifts := by
          rw [ht.shifts]
          rcases ht.phases with ⟨h2, -⟩ | ⟨n, -, -, h2, -, -⟩
          · rw [h2, hsnd.opposite, Mirror.height]
          · rw [h2]
        simp only [Walker.runHeight, e])
    refine ⟨_, Walker.trajectories_true.mpr ⟨c', m', z', d', g', ?_, hm', ?_, ?_, hg', rfl⟩, ?_⟩
    · simp only [h.garbage]; exact hc'
    · simp only [h.cfg]; exact hz'
    · simp only [h.cfg]; exact hd'
    · refine ⟨⟨rfl, h.garbage, rc.imp fun _ _ h => h.1, rm.imp fun _ _ h => h.1, rz.imp fun _ _ h => h.1,
          rd.imp fun _ _ h => h.1, rg.imp fun _ _ h => h.1⟩, rfl, rfl, ?_, rc.imp fun _ _ h => h.2, rm.imp fun _ _ h => h.2,
          rz.imp fun _ _ h => h.2, ?_, rg.imp fun _ _ h => h.2⟩
      · intro hn
        obtain ⟨h1, h2⟩ := hnt hn
        simp only [Gen.outputsAfter, htm, e, Mirror.outputs, h1, h2, ht.merges, Option.map_some, Prod.swap, GenOutputs.mk.injEq, true_and]
        rw [hsnd.opposite]
        exact Mirror.leftFixed _
      · refine rd.imp fun a b hab => ⟨(t.left, t.right), ?_, hab.2⟩
        simp only [Gen.outputsAfter, htm]

/-! ## Back and forth -/

namespace Mirror

theorem step_step (s : Step K) : step (step s) = s := by
  cases s; simp only [step, vector_vector, neg_neg, name_name]

theorem footPrint_footPrint (f : FootPrint K) : footPrint (footPrint f) = f := by
  obtain ⟨l, n⟩ := f
  simp only [footPrint, name_name, List.map_map, FootPrint.mk.injEq, and_true]
  conv_rhs => rw [← List.map_id l]
  exact List.map_congr_left fun s _ => step_step s

theorem ptr_ptr (q : Ptr K) : ptr (ptr q) = q := by
  cases q; simp only [ptr, step_step, Bool.not_not]

theorem weight_weight (m : Motion K) : weight (weight m) = m := by
  cases m; simp [weight]

theorem dcmState_dcmState (d : Dcm K) : dcmState (dcmState d) = d := by
  have e : ∀ i : Option (Vec2 K × Vec2 K), (i.map init).map init = i := by
    intro i
    cases i <;> simp [init, vector_vector]
  cases d
  simp only [dcmState, vector_vector, e]

theorem sortedPtrs {left right : FootPrint K} {s : List (Ptr K)} (h : SortedPtrs left right s) :
    SortedPtrs (footPrint right) (footPrint left) (s.map ptr) := by
  refine ⟨?_, ?_⟩
  · refine (h.1.map ptr).trans ?_
    unfold Ptr.ofFeet
    rw [List.map_append]
    have e : ∀ (b : Bool) (l : List (Step K)), (Ptr.ofFoot b l).map ptr = Ptr.ofFoot (!b) (l.map step) := by
      intro b l
      unfold Ptr.ofFoot
      simp only [List.map_map, List.zipIdx_map]
      rfl
    rw [e, e]
    exact List.perm_append_comm
  · rw [List.pairwise_map]
    exact h.2

end Mirror

theorem Both.symm' {α β : Type} {R : α → β → Prop} {S : β → α → Prop} {a : Option α} {b : Option β} (h : Both R a b)
    (hRS : ∀ x y, R x y → S y x) : Both S b a := by
  rcases a with _ | a <;> rcases b with _ | b
  · exact h
  · exact h
  · exact h
  · exact hRS a b h

theorem ZmpStateMirrored.symm {z z' : Zmp K} (h : ZmpStateMirrored z z') : ZmpStateMirrored z' z where
  offsets := by
    obtain ⟨h1, h2, h3, h4⟩ := h.offsets
    rw [h1, h2, h3, h4]
    simp only [Mirror.vector_vector, and_self]
  initial := ⟨h.initial.1.symm, fun hi => by rw [h.initial.2 (h.initial.1 ▸ hi), Mirror.weight_weight]⟩
  previous := ⟨h.previous.1.symm, fun hi => by
    obtain ⟨h1, h2⟩ := h.previous.2 (h.previous.1 ▸ hi)
    rw [h1, h2, Mirror.step_step, Mirror.step_step]
    exact ⟨rfl, rfl⟩⟩
  states := by
    refine List.Forall₂.flip (h.states.imp fun a b hab => ?_)
    rcases hab with rfl | ⟨rfl, rfl⟩
    · exact .inl (Mirror.weight_weight a).symm
    · exact .inr ⟨rfl, rfl⟩

theorem SettingsMirrored.symm {w w' : Walker K} (h : SettingsMirrored w w') : SettingsMirrored w' w where
  cfg := h.cfg.symm
  garbage := h.garbage.symm
  cubic := h.cubic.symm' fun _ _ h => h.symm
  minJerk := h.minJerk.symm' fun _ _ h => h.symm
  zmp := h.zmp.symm' fun _ _ h => h.symm
  dcm := h.dcm.symm' fun _ _ h => by rw [h, Mirror.dcmState_dcmState]
  height := h.height.symm' fun _ _ h => h.symm

/-- A walk exists if and only if it exists in the mirror. -/
theorem SettingsMirrored.succeeds (hp : TrigParity K) {w w' : Walker K} (h : SettingsMirrored w w') {left right : FootPrint K}
    {initTime dT : K} {sorted : List (Ptr K)} (hs : SortedPtrs left right sorted) :
    (∃ w1, w.generateFromFootPrints left right initTime dT sorted = .ok (true, w1)) ↔
      ∃ w1', w'.generateFromFootPrints (Mirror.footPrint right) (Mirror.footPrint left) initTime dT (sorted.map Mirror.ptr) =
        .ok (true, w1') := by
  constructor
  · rintro ⟨w1, h1⟩
    obtain ⟨w1', h2, -⟩ := h.from hp hs h1
    exact ⟨w1', h2⟩
  · rintro ⟨w1', h1⟩
    obtain ⟨w1, h2, -⟩ := h.symm.from hp (Mirror.sortedPtrs hs) h1
    rw [Mirror.footPrint_footPrint, Mirror.footPrint_footPrint, List.map_map] at h2
    have e : sorted.map (Mirror.ptr ∘ Mirror.ptr) = sorted := by
      conv_rhs => rw [← List.map_id sorted]
      exact List.map_congr_left fun q _ => Mirror.ptr_ptr q
    rw [e] at h2
    exact ⟨w1, h2⟩

/-! ## Settings -/

theorem Both.attach {S T : Type} {R : Plugin S T → Plugin S T → Prop} {p p' : Option (Plugin S T)} {s s' : S} (h : Both R p p')
    (hs : R ⟨s, none⟩ ⟨s', none⟩) : Both R (Plugin.attach p s) (Plugin.attach p' s') := by
  rcases p with _ | p <;> rcases p' with _ | p'
  · exact hs
  · exact h.elim
  · exact h.elim
  · exact h

theorem Both.set {S T : Type} {R : S → S → Prop} {p p' : Option (Plugin S T)} {f f' : S → S}
    (h : Both (fun p p' => R p.state p'.state) p p') (hf : ∀ s s', R s s' → R (f s) (f' s')) :
    Both (fun p p' => R p.state p'.state) (Plugin.set p f) (Plugin.set p' f') := by
  rcases p with _ | p <;> rcases p' with _ | p'
  · exact h
  · exact h.elim
  · exact h.elim
  · exact hf _ _ h

theorem SettingsMirrored.run {w w' : Walker K} (h : SettingsMirrored w w') (o : Walker.Op K) :
    SettingsMirrored (w.run o) (w'.run (Mirror.op o)) := by
  cases o with
  | timing o => exact { h with cfg := by simp only [Mirror.op, Walker.run, h.cfg] }
  | planner o => exact { h with }
  | addCubic => exact { h with cubic := h.cubic.attach rfl }
  | addMinJerk => exact { h with minJerk := h.minJerk.attach rfl }
  | addZmp g =>
    refine { h with zmp := h.zmp.attach ⟨⟨?_, ?_, ?_, ?_⟩, ⟨rfl, fun h => by cases h⟩, ⟨rfl, fun h => by cases h⟩, .nil⟩ } <;>
      exact (Mirror.vector_zero).symm
  | addDcm =>
    refine { h with dcm := h.dcm.attach ?_ }
    simp only [Mirror.dcmState, Dcm.new, Mirror.vector_zero, Option.map_none]
  | addHeight => exact { h with height := h.height.attach rfl }
  | cubic o => exact { h with cubic := Both.set (R := fun s s' => s' = s) (f := fun c : FeetSettings K => (c.run o).2) (f' := fun c : FeetSettings K => (c.run o).2) h.cubic (fun s s' e => by rw [e]) }
  | minJerk o => exact { h with minJerk := Both.set (R := fun s s' => s' = s) (f := fun c : FeetSettings K => (c.run o).2) (f' := fun c : FeetSettings K => (c.run o).2) h.minJerk (fun s s' e => by rw [e]) }
  | height a b => exact { h with height := Both.set (R := fun s s' => s' = s) (f := fun c : HeightSettings K => (c.set a b).2) (f' := fun c : HeightSettings K => (c.set a b).2) h.height (fun s s' e => by rw [e]) }
  | zmp o =>
    refine { h with zmp := Both.set (R := ZmpStateMirrored) (f := fun z => o.run z) (f' := fun z => (Mirror.zmpOp o).run z) h.zmp fun s s' e => ?_ }
    cases o with
    | setWeightInitialState m => exact { e with initial := ⟨rfl, fun _ => rfl⟩ }
    | setPreviousSteps l r => exact { e with previous := ⟨rfl, fun _ => ⟨rfl, rfl⟩⟩ }
    | setStanceZMPDelta l r => exact { e with offsets := ⟨rfl, rfl, e.offsets.2.2.1, e.offsets.2.2.2⟩ }
    | setInitialSwitchZMPDelta l r => exact { e with offsets := ⟨e.offsets.1, e.offsets.2.1, rfl, rfl⟩ }
  | dcm o =>
    have key : ∀ s s' : Dcm K, s' = Mirror.dcmState s → (Mirror.dcmOp o).run s' = Mirror.dcmState (o.run s) := by
      intro s s' e
      rw [e]
      cases o with
      | setDCMInitialState p v => rfl
      | setOmega x => simp only [Mirror.dcmOp, Walker.DcmOp.run, Dcm.setOmega]; split <;> rfl
      | setAlpha x => simp only [Mirror.dcmOp, Walker.DcmOp.run, Dcm.setAlpha]; split <;> rfl
      | setStillnessPercentage x => simp only [Mirror.dcmOp, Walker.DcmOp.run, Dcm.setStillnessPercentage]; split <;> rfl
      | setLastStepDCMOffsetPercentage x =>
        simp only [Mirror.dcmOp, Walker.DcmOp.run, Dcm.setLastStepDCMOffsetPercentage]; split <;> rfl
      | setFootOriginOffset l r => rfl
      | setFirstDCMTrajectoryMode b => rfl
    exact { h with dcm := Both.set (R := fun s s' => s' = Mirror.dcmState s) h.dcm key }

theorem SettingsMirrored.runAll (ops : List (Walker.Op K)) : ∀ {w w' : Walker K}, SettingsMirrored w w' →
    SettingsMirrored (w.runAll ops) (w'.runAll (ops.map Mirror.op)) := by
  induction ops with
  | nil => exact fun h => h
  | cons o ops ih => exact fun h => ih (h.run o)

theorem SettingsMirrored.new (g : K) : SettingsMirrored (Walker.new g) (Walker.new g) :=
  ⟨rfl, rfl, trivial, trivial, trivial, trivial, trivial⟩

end Spec
end Uni
