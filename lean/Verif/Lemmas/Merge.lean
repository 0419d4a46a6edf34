import Verif.Spec.Merge
import Verif.Props.Walker

/-! # Facts about walks that replace a walk in execution -/

set_option autoImplicit false
set_option linter.unusedSectionVars false

namespace Uni
open Spec Gen
variable {K : Type} [Field K] [LinearOrder K] [IsStrictOrderedRing K] [FloorRing K]

namespace Gen
variable {cfg : GenSettings K} {left right : FootPrint K} {initTime dT : K} {sorted ordered : List (Ptr K)} {t : Timing K}

/-- The steps of a walk whose phases have samples are in the order in which the foot lands. -/
theorem steps_increasing (hs : SortedPtrs left right sorted) (h : timeline cfg left right initTime dT sorted = .ok (ordered, t))
    (hpos : t.shifts.Pairwise (· < ·)) (f : Bool) :
    (if f then left.steps else right.steps).Pairwise (fun a b => a.impactTime < b.impactTime) := by
  obtain ⟨l, r, tt, hr⟩ := timeline_ok h
  have hp : tt.Positive := positive_of_shifts (by rw [← hr.built.shifts]; exact hpos)
  have hdT := hr.dT_pos
  have hland := landing_of hs h hr f
  have hsucc : ∀ (m : Nat) (x : Slot), tt.slots[m]? = some x → slotStart tt.slots m + 2 ≤ slotStart tt.slots (m + 1) := by
    intro m x hx
    have := hp.1 x (List.mem_of_getElem? hx)
    rw [slotStart_succ _ _ _ hx]; omega
  obtain ⟨hd, hhd, hhi⟩ : ∃ hd : Step K, (if f then left.steps else right.steps)[0]? = some hd ∧ hd.impactTime ≤ initTime := by
    cases f
    · exact ⟨r, by rw [← List.head?_eq_getElem?]; exact hr.headR, hr.init_r⟩
    · exact ⟨l, by rw [← List.head?_eq_getElem?]; exact hr.headL, hr.init_l⟩
  generalize hsteps : (if f then left.steps else right.steps) = steps at *
  rw [List.pairwise_iff_getElem]
  intro i j hi hj hij
  obtain ⟨j, rfl⟩ : ∃ j', j = j' + 1 := ⟨j - 1, by omega⟩
  obtain ⟨m, x, m1, m2, m3, m4⟩ := hland j _ (List.getElem?_eq_getElem hj)
  have h8 := hsucc m x m1
  have h11 := (abs_le.mp m4).2
  cases i with
  | zero =>
    rw [List.getElem?_eq_getElem hi] at hhd
    cases hhd
    have h9 : (2 : K) * dT ≤ ((slotStart tt.slots (m + 1) : Nat) : K) * dT :=
      mul_le_mul_of_nonneg_right (by exact_mod_cast (by omega)) hdT.le
    linarith
  | succ i =>
    obtain ⟨m', x', n1, n2, n3, n4⟩ := hland i _ (List.getElem?_eq_getElem hi)
    have hmm : m' < m := by
      by_contra hge
      have := countP_take_mono (fun x : Slot => x.left == f) tt.slots (show m ≤ m' by omega)
      omega
    have h9 := slotStart_mono tt.slots (show m' + 1 ≤ m by omega)
    have h10 : (((slotStart tt.slots (m' + 1) : Nat) : K) + 2) * dT ≤ ((slotStart tt.slots (m + 1) : Nat) : K) * dT :=
      mul_le_mul_of_nonneg_right (by exact_mod_cast (by omega)) hdT.le
    have h12 := (abs_le.mp n4).1
    linarith

theorem present_standing {steps : List (Step K)} {time : K} {s : Step K} (hinc : steps.Pairwise (fun a b => a.impactTime < b.impactTime))
    (h : Present steps time s) : Standing steps time s := by
  obtain ⟨older, newer, rfl, h1, h2⟩ := h
  refine ⟨by simp, h1, fun s' hs' ht => ?_⟩
  rw [List.mem_append, List.mem_cons] at hs'
  rw [List.pairwise_append] at hinc
  rcases hs' with h | rfl | h
  · exact (hinc.2.2 s' h s (by simp)).le
  · exact le_refl _
  · exact absurd ht (not_le.2 (h2 s' h))

theorem standing_unique {steps : List (Step K)} {time : K} {a b : Step K} (hinc : steps.Pairwise (fun a b => a.impactTime < b.impactTime))
    (ha : Standing steps time a) (hb : Standing steps time b) : a = b := by
  have e : a.impactTime = b.impactTime := le_antisymm (hb.last a ha.mem ha.before) (ha.last b hb.mem hb.before)
  obtain ⟨i, hi, rfl⟩ := List.getElem_of_mem ha.mem
  obtain ⟨j, hj, rfl⟩ := List.getElem_of_mem hb.mem
  rcases lt_trichotomy i j with h | rfl | h
  · exact absurd e (List.pairwise_iff_getElem.mp hinc i j hi hj h).ne
  · rfl
  · exact absurd e (List.pairwise_iff_getElem.mp hinc j i hj hi h).ne'

end Gen

variable [Trig K]

namespace Walker
variable {w w' : Walker K} {initTime dT : K} {left right : FootPrint K} {sorted ordered : List (Ptr K)} {t : Timing K}

/-- What a successful run has done. -/
structure MadeBy (w w' : Walker K) (initTime dT : K) (sorted ordered : List (Ptr K)) (t : Timing K) : Prop where
  cfg : w'.cfg = w.cfg
  made : timeline w'.cfg w'.left w'.right initTime dT sorted = .ok (ordered, t)
  outputs : w'.outputs = ⟨some (t.left, t.right), t.merges, contacts t.left, contacts t.right, leftFixed t.left⟩
  cubic : ∀ p', w'.cubic = some p' → ∃ p lo ro, w.cubic = some p ∧ p'.state = p.state ∧ p'.result = some (lo, ro) ∧
    CubicFeet.computeNewTrajectories p.state w.garbage dT w'.left w'.right t.left t.right t.shifts = .ok (lo, ro)
  minJerk : ∀ p', w'.minJerk = some p' → ∃ p lo ro, w.minJerk = some p ∧ p'.state = p.state ∧ p'.result = some (lo, ro) ∧
    MinJerk.computeNewTrajectories p.state dT w'.left w'.right t.left t.right t.shifts = .ok (lo, ro)
  zmp : ∀ p', w'.zmp = some p' → ∃ p o, w.zmp = some p ∧ p'.result = some o ∧
    p.state.computeNewTrajectories w'.cfg initTime dT t.merges w'.left w'.right (ordered.map Ptr.step) t.left t.right t.shifts =
      .ok (p'.state, o)
  dcm : ∀ p', w'.dcm = some p' → ∃ p o, w.dcm = some p ∧ p'.result = some o ∧
    Dcm.Done p.state w'.cfg w'.left w'.right initTime dT ordered t p'.state o
  height : ∀ p', w'.height = some p' → ∃ p o, w.height = some p ∧ p'.state = p.state ∧ p'.result = some o ∧
    CoMHeight.computeNewTrajectories p.state dT t.left t.shifts = .ok o

theorem made_by (h : w.generateFromFootPrints left right initTime dT sorted = .ok (true, w')) :
    w'.left = left ∧ w'.right = right ∧ ∃ ordered t, MadeBy w w' initTime dT sorted ordered t := by
  obtain ⟨o, t, ht, h⟩ := fromFootPrints_true h
  obtain ⟨c, m, z, d, g, h1, h2, h3, h4, h5, rfl⟩ := trajectories_true.mp h
  simp only at h1 h2 h3 h4 h5
  refine ⟨rfl, rfl, o, t, rfl, ht, by simp only [outputsAfter, ht], ?_, ?_, ?_, ?_, ?_⟩
  · intro p hp
    simp only at hp
    subst hp
    rcases Plugin.run_true.mp h1 with ⟨-, h⟩ | ⟨q, s, r, hq, hf, he⟩
    · cases h
    cases he
    unfold runCubic at hf
    rw [Out.bind_eq_ok] at hf
    obtain ⟨out, ho, hf⟩ := hf
    cases hf
    exact ⟨q, out.1, out.2, hq, rfl, rfl, ho⟩
  · intro p hp
    simp only at hp
    subst hp
    rcases Plugin.run_true.mp h2 with ⟨-, h⟩ | ⟨q, s, r, hq, hf, he⟩
    · cases h
    cases he
    unfold runMinJerk at hf
    rw [Out.bind_eq_ok] at hf
    obtain ⟨out, ho, hf⟩ := hf
    cases hf
    exact ⟨q, out.1, out.2, hq, rfl, rfl, ho⟩
  · intro p hp
    simp only at hp
    subst hp
    rcases Plugin.run_true.mp h3 with ⟨-, h⟩ | ⟨q, s, r, hq, hf, he⟩
    · cases h
    cases he
    unfold runZmp at hf
    rw [Out.bind_eq_ok] at hf
    obtain ⟨out, ho, hf⟩ := hf
    cases hf
    exact ⟨q, out.2, hq, rfl, ho⟩
  · intro p hp
    simp only at hp
    subst hp
    rcases Plugin.run_true.mp h4 with ⟨-, h⟩ | ⟨q, s, r, hq, hf, he⟩
    · cases h
    cases he
    unfold runDcm at hf
    cases r with
    | none => exact absurd hf Dcm.compute_some
    | some out => exact ⟨q, out, hq, rfl, hf⟩
  · intro p hp
    simp only at hp
    subst hp
    rcases Plugin.run_true.mp h5 with ⟨-, h⟩ | ⟨q, s, r, hq, hf, he⟩
    · cases h
    cases he
    unfold runHeight at hf
    rw [Out.bind_eq_ok] at hf
    obtain ⟨out, ho, hf⟩ := hf
    cases hf
    exact ⟨q, out, hq, rfl, rfl, ho⟩

theorem members_made_by {sort : Sorter K} (h : w.fromMembers initTime dT sort = .done true w') :
    w'.left = w.left ∧ w'.right = w.right ∧ ∃ ordered t, MadeBy w w' initTime dT (sort w'.left w'.right) ordered t := by
  unfold fromMembers at h
  split at h
  · rename_i e
    cases h
    obtain ⟨h1, h2, h3⟩ := made_by e
    rw [h1, h2]
    exact ⟨rfl, rfl, h3⟩
  · cases h
  · cases h

theorem call_made_by {integ : Integrator K} {fuel : Nat} {sort : Sorter K} {c : Call K} (h : w.call integ fuel sort c = .done true w') :
    ∃ w1 ordered t, MadeBy w1 w' (timesOf c).1 (timesOf c).2 (sort w'.left w'.right) ordered t := by
  cases c with
  | fromFootPrints l r t0 dT =>
    simp only [Walker.call] at h
    split at h
    · rename_i e
      cases h
      obtain ⟨h1, h2, h3⟩ := made_by e
      rw [h1, h2]
      exact ⟨w, h3⟩
    · cases h
    · cases h
  | generate t0 dT t1 =>
    rcases next_done h with ⟨w1, e1, e2⟩ | ⟨h, -⟩
    · exact ⟨w1, (members_made_by e2).2.2⟩
    · cases h
  | reGenerate t0 dT t1 q =>
    rcases next_done h with ⟨w1, e1, e2⟩ | ⟨h, -⟩
    · exact ⟨w1, (members_made_by e2).2.2⟩
    · cases h

/-- The parts of a merge: contacts `sL` and `sR` on the ground when the walk is planned again, contacts `cL` and `cR` from which the new
walk starts, what the trajectory generators were given. -/
structure Parts (old new w3 : Walker K) (time dT : K) (weight : Motion K) (pos vel : Vec2 K) (q : Request K) (sL sR cL cR : Step K) : Prop where
  cfg : w3.cfg = old.cfg
  cubic : w3.cubic = old.cubic
  minJerk : w3.minJerk = old.minJerk
  height : w3.height = old.height
  dcm : w3.dcm = Plugin.set old.dcm fun d => (d.setDCMInitialState pos vel).2
  zmp : w3.zmp = Plugin.set old.zmp (fun z => z.setWeightInitialState weight) ∧ cL.position = sL.position ∧ cL.angle = sL.angle ∧
      cR.position = sR.position ∧ cR.angle = sR.angle ∨
    w3.zmp = Plugin.set old.zmp fun z => (z.setWeightInitialState weight).setPreviousSteps
      { sL with footName := old.left.footName } { sR with footName := old.right.footName }
  left : Present old.left.steps time sL
  right : Present old.right.steps time sR
  leftPlace : (cL.position, cL.angle) = if q.correction.editsLeft then ((q.measuredLeft time old.left.footName).position,
    sL.angle + relativeYaw sL.angle (q.measuredLeft time old.left.footName).angle) else (sL.position, sL.angle)
  rightPlace : (cR.position, cR.angle) = if q.correction.editsRight then ((q.measuredRight time old.right.footName).position,
    sR.angle + relativeYaw sR.angle (q.measuredRight time old.right.footName).angle) else (sR.position, sR.angle)
  leftHead : ∃ s, new.left.steps.head? = some s ∧ s.position = cL.position ∧ s.angle = cL.angle
  rightHead : ∃ s, new.right.steps.head? = some s ∧ s.position = cR.position ∧ s.angle = cR.angle
  leftNamed : Named new.left ∧ new.left.footName = old.left.footName
  rightNamed : Named new.right ∧ new.right.footName = old.right.footName

theorem runAll_planner (changes : List (Planner.Op K)) (w : Walker K) :
    ∃ p, w.runAll (changes.map .planner) = { w with planner := p } := by
  induction changes generalizing w with
  | nil => exact ⟨w.planner, rfl⟩
  | cons o l ih =>
    obtain ⟨p, hp⟩ := ih (w.run (.planner o))
    exact ⟨p, hp⟩

theorem parts {integ : Integrator K} {sort : Sorter K} {before old new : Walker K} {c : Call K} {k m : Nat} {q : Request K} {dT : K}
    (hpi : (0 : K) ≤ Trig.pi) (h : Merging integ sort before old new c k m q dT) (hL : NonNeg old.left) (hR : NonNeg old.right) :
    ∃ w1 ordered t w3 ordered' t' weight pos vel sL sR cL cR,
      MadeBy w1 old (timesOf c).1 (timesOf c).2 (sort old.left old.right) ordered t ∧
      MadeBy w3 new (timeOf c m) dT (sort new.left new.right) ordered' t' ∧
      (∀ p, old.zmp = some p → p.state.initStates[k]? = some weight) ∧
      (∀ p o, old.dcm = some p → p.result = some o → ∃ s, o.samples[m]? = some s ∧ s.pos = pos ∧ s.vel = vel) ∧
      Parts old new w3 (timeOf c m) dT weight pos vel q sL sR cL cR := by
  obtain ⟨fuel0, hg⟩ := h.generated
  obtain ⟨w1, ordered, t, hm1⟩ := call_made_by hg
  obtain ⟨fuel, changes, weight, pos, vel, endTime, r1, r2, r3⟩ := h.replanned
  have hro : Reached integ sort old := .call _ _ _ _ _ h.reached hg
  obtain ⟨p2, hp2⟩ := runAll_planner changes old
  have hrun : old.runAll (changes.map .planner ++ [.zmp (.setWeightInitialState weight), .dcm (.setDCMInitialState pos vel)]) =
      { old with planner := p2, zmp := Plugin.set old.zmp fun z => z.setWeightInitialState weight,
                 dcm := Plugin.set old.dcm fun d => (d.setDCMInitialState pos vel).2 } := by
    unfold runAll at hp2 ⊢
    rw [List.foldl_append, hp2]
    rfl
  have hr2 : Reached integ sort (old.runAll (changes.map .planner ++
      [.zmp (.setWeightInitialState weight), .dcm (.setDCMInitialState pos vel)])) := Reached.runAll _ hro
  have ht2 := hr2.timed hpi
  rw [hrun] at r3 ht2
  rcases next_done r3 with ⟨w3, e1, e2⟩ | ⟨hf, -⟩
  swap
  · cases hf
  obtain ⟨n1, n2, ordered', t', hm3⟩ := members_made_by e2
  unfold Walker.replan at e1
  split at e1
  rotate_left
  · cases e1
  · cases e1
  rename_i b p' l' r' prev hre
  simp only [Result.done.injEq] at e1
  obtain ⟨rfl, rfl⟩ := e1
  simp only at hre n1 n2
  obtain ⟨sL, sR, reset, cL, cR, h1, h2, h3, h4, p1, p2', h5, h6⟩ := computeNewStepsFromMeasured_true hL hR hre
  obtain ⟨d, hd⟩ := Planner.exists_plan ht2 (by intro s hs; simp at hs; rw [hs]; exact p1)
    (by intro s hs; simp at hs; rw [hs]; exact p2') h5
  obtain ⟨m1, m2, m3, m4⟩ := hd.named (by intro s hs; simp at hs; rw [hs]) (by intro s hs; simp at hs; rw [hs])
  have place := editedSteps_place (timeOf c m) (q.measuredLeft (timeOf c m) old.left.footName)
    (q.measuredRight (timeOf c m) old.right.footName) q.correction reset
    { sL with footName := old.left.footName } { sR with footName := old.right.footName }
  rw [← h4] at place
  simp only at place
  have same : q.correction = .none → cL.position = sL.position ∧ cL.angle = sL.angle ∧ cR.position = sR.position ∧ cR.angle = sR.angle := by
    intro hc
    rw [hc] at place
    simp only [Correction.editsLeft, Correction.editsRight, reduceCtorEq, or_self, decide_false, Bool.false_eq_true, if_false,
      Prod.mk.injEq] at place
    exact ⟨place.1.1, place.1.2, place.2.1, place.2.2⟩
  have hfs := C52_first_steps rfl rfl hd
  refine ⟨w1, ordered, t, _, ordered', t', weight, pos, vel, sL, sR, cL, cR, hm1, hm3, r1, r2, rfl, rfl, rfl, rfl, rfl, ?_, h1, h2, ?_, ?_, ?_,
    ?_, ?_, ?_⟩
  · subst h6
    simp only
    by_cases hc : q.correction ≠ .none ∨ reset = true
    · right
      rw [if_pos hc]
      cases old.zmp <;> rfl
    · left
      rw [if_neg hc]
      rw [not_or, not_not] at hc
      exact ⟨rfl, same hc.1⟩
  · exact place.1
  · exact place.2
  · rw [n1]
    rcases hfs with ⟨a, b, e1, e2⟩ | ⟨e1, e2⟩
    · rw [e1]; exact ⟨_, rfl, rfl, rfl⟩
    · rw [e1]; exact ⟨_, rfl, rfl, rfl⟩
  · rw [n2]
    rcases hfs with ⟨a, b, e1, e2⟩ | ⟨e1, e2⟩
    · rw [e2]; exact ⟨_, rfl, rfl, rfl⟩
    · rw [e2]; exact ⟨_, rfl, rfl, rfl⟩
  · rw [n1]; exact ⟨m1, m3⟩
  · rw [n2]; exact ⟨m2, m4⟩

/-- At a sample with both feet on the ground both are in a double support. -/
theorem both_down {cfg : GenSettings K} (h : timeline cfg left right initTime dT sorted = .ok (ordered, t)) {j : Nat}
    (hl : (contacts t.left)[j]? = some true) (hr : (contacts t.right)[j]? = some true) :
    j < t.left.length ∧ ∃ a b, t.left[j]? = some a ∧ t.right[j]? = some b ∧ (a = .switchIn ∨ a = .switchOut) ∧ (b = .switchIn ∨ b = .switchOut) := by
  have hj : j < t.left.length := by
    have := (List.getElem?_eq_some_iff.mp hl).1
    simpa [contacts] using this
  obtain ⟨a, b, ha, hb, hc⟩ := C35_complementary h j hj
  refine ⟨hj, a, b, ha, hb, ?_⟩
  simp only [contacts, List.getElem?_map, ha, hb, Option.map_some, Option.some.injEq, decide_eq_true_eq] at hl hr
  cases a <;> cases b <;> simp_all [Complementary]

end Walker
end Uni
