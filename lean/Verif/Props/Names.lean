import Verif.Lemmas.NamesWalk
import Verif.Props.Walker
import Verif.Lemmas.WalkerRun
import Verif.Lemmas.Walker
import Verif.Lemmas.DCMWalk
import Verif.Spec.Names

/-! # C107: the names of the feet

The names "left" and "right" of the constructor are only the labels by which a step finds its foot.  `FootPrint::setFootName`
can replace them; this file says for which parts of the library the names matter. -/

set_option autoImplicit false
set_option linter.unusedSectionVars false

namespace Uni
open Spec Spec.Names
variable {K : Type} [Field K] [LinearOrder K] [IsStrictOrderedRing K] [FloorRing K] [Trig K]

/-- C107.  The planner ignores the names: with any other names, even equal ones, the same steps are planned with the same
outcome, and the new steps carry the new name of their foot. -/
theorem C107_planner (ρ : String → String) (p : Planner K) (integ : Integrator K) (fuel : Nat) (l r : FootPrint K) (t e : K) :
    p.computeNewSteps integ fuel (footPrint ρ l) (footPrint ρ r) t e =
      planResult ρ (p.computeNewSteps integ fuel l r t e) :=
  Names.computeNewSteps ρ p integ fuel l r t e

/-- A step of `generateFromFootPrints` through `call`. -/
private theorem next_of {ρ : String → String} {a : Walker.Result K} {f f' : Walker K → Walker.Result K}
    (h : ∀ w, a = .done true w → f' (walker ρ w) = result ρ (f w)) : (result ρ a).next f' = result ρ (a.next f) := by
  rcases a with ⟨_ | _, w⟩ | why | _
  · rfl
  · exact h w rfl
  · rfl
  · rfl

/-- C107.  Without a DCM generator a call that generates does not look at the names beyond telling them apart: if both
footprints and all that the object holds are renamed in a way that keeps different names different, then every call has the
same outcome, the same phases, the same trajectories of the feet, of the ZMP and of the height, and the same steps with the
new names.  The names in the measured steps handed over to `reGenerate` have no effect at all. -/
theorem C107_call {ρ : String → String} (hρ : Function.Injective ρ) {sort sort' : Walker.Sorter K} (hs : Blind ρ sort sort')
    (w : Walker K) (hd : w.dcm = none) (integ : Integrator K) (fuel : Nat) :
    (∀ l r t dT, (walker ρ w).call integ fuel sort' (.fromFootPrints (footPrint ρ l) (footPrint ρ r) t dT) =
      result ρ (w.call integ fuel sort (.fromFootPrints l r t dT))) ∧
    (∀ t dT e, (walker ρ w).call integ fuel sort' (.generate t dT e) = result ρ (w.call integ fuel sort (.generate t dT e))) ∧
    (∀ t dT e q q', SameContacts q q' → (walker ρ w).call integ fuel sort' (.reGenerate t dT e q') =
      result ρ (w.call integ fuel sort (.reGenerate t dT e q))) := by
  refine ⟨fun l r t dT => ?_, fun t dT e => ?_, fun t dT e q q' h => ?_⟩
  · unfold Walker.call
    simp only
    rw [hs, Names.fromFootPrints hρ w hd]
    rcases w.generateFromFootPrints l r t dT (sort l r) with ⟨b, w'⟩ | _ | _ <;> rfl
  · unfold Walker.call Walker.generate
    simp only
    rw [walker_plan]
    exact next_of fun w' hw' => fromMembers hρ hs w' ((plan_dcm hw').trans hd) t dT
  · unfold Walker.call Walker.reGenerate
    simp only
    rw [walker_replan ρ w integ fuel t e h]
    exact next_of fun w' hw' => fromMembers hρ hs w' ((replan_dcm hw').trans hd) t dT

/-- A sort by the impact time alone does not look at the names. -/
theorem insertion_blind (ρ : String → String) : Blind ρ (Walker.insertion (K := K)) Walker.insertion := by
  intro l r
  unfold Walker.insertion
  rw [List.map_insertionSort (fun a b : Ptr K => a.step.impactTime ≤ b.step.impactTime)
    (fun a b : Ptr K => a.step.impactTime ≤ b.step.impactTime) (ptr ρ) _ (fun a _ b _ => Iff.rfl)]
  congr 1
  unfold Ptr.ofFeet Ptr.ofFoot
  simp only [footPrint, List.map_append, List.map_map, List.zipIdx_map]
  rfl

/-- C107.  Footprints with the same name are refused before anything is generated, whatever the rest is. -/
theorem C107_equal_names (w : Walker K) (l r : FootPrint K) (t dT : K) (sorted : List (Ptr K)) (hn : l.footName = r.footName) :
    ∃ w', w.generateFromFootPrints l r t dT sorted = .ok (false, w') ∧ w'.cubic = w.cubic ∧ w'.minJerk = w.minJerk ∧
      w'.zmp = w.zmp ∧ w'.dcm = w.dcm ∧ w'.height = w.height := by
  have h : Gen.timeline w.cfg l r t dT sorted = .fail := by
    unfold Gen.timeline
    split
    · rw [if_pos hn]
    · rfl
  refine ⟨{ w with left := l, right := r, outputs := Gen.outputsAfter w.cfg l r t dT sorted w.outputs }, ?_, rfl, rfl, rfl,
    rfl, rfl⟩
  unfold Walker.generateFromFootPrints
  simp only
  rw [h]

/-! ## The generators that read the names -/

/-- A name that the DCM generator knows. -/
private def Known (s : Step K) : Prop := s.footName = "left" ∨ s.footName = "right"

private theorem known_of {d : Dcm K} {s : Step K} {z : Vec2 K} (h : d.zmpOf s = .ok z) : Known s := by
  unfold Dcm.zmpOf at h
  split_ifs at h with h1 h2
  · exact Or.inl h1
  · exact Or.inr h2

private theorem known_addSteps {d : Dcm K} : ∀ (k : Nat) (sh : List Nat) (steps : List (Step K)) (tr tr' : List (Piece K)),
    d.addSteps sh steps tr = .ok tr' → 2 * k + 1 ≤ sh.length → ∀ s ∈ steps.take k, Known s
  | 0, _, _, _, _, _, _ => by simp
  | k + 1, e :: s :: x :: sh, steps, tr, tr', h, hk => by
    unfold Dcm.addSteps at h
    split at h
    · cases h
    · cases h
    · rw [Out.bind_eq_ok] at h
      obtain ⟨z, hz, h⟩ := h
      rw [Out.bind_eq_ok] at h
      obtain ⟨tr1, -, h⟩ := h
      intro q hq
      rw [List.take_succ_cons, List.mem_cons] at hq
      rcases hq with rfl | hq
      · exact known_of hz
      · exact known_addSteps k _ _ _ _ h (by simp only [List.length_cons] at hk ⊢; omega) q hq
  | k + 1, [], _, _, _, _, hk => by simp at hk
  | k + 1, [_], _, _, _, _, hk => by simp at hk
  | k + 1, [_, _], _, _, _, _, hk => by simp only [List.length_cons, List.length_nil] at hk; omega

/-- Every step but the first one has a known name. -/
private theorem known_pieces {d : Dcm K} {steps : List (Step K)} {lp : List Phase} {init : Vec2 K × Vec2 K} {shifts : List Nat}
    {tr : List (Piece K)} (h : d.pieces steps lp init shifts = .ok tr) (hl : shifts.length = 2 * (steps.drop 2).length + 2) :
    ∀ s ∈ steps.drop 1, Known s := by
  unfold Dcm.pieces at h
  split at h
  · unfold Dcm.standPieces at h
    simp only [Out.bind_eq_ok] at h
    obtain ⟨z1, h1, z2, h2, -⟩ := h
    intro s hs
    simp only [List.drop_succ_cons, List.drop_zero, List.mem_cons, List.not_mem_nil, or_false] at hs
    exact hs ▸ known_of h2
  · rename_i a b c rest _ _ _ _
    unfold Dcm.walkPieces at h
    split at h
    · rename_i dsEnd ssEnd ssStart x sh last other st a' b' o' e1 e2 e3
      simp only [Out.bind_eq_ok] at h
      obtain ⟨zl, hzl, zo, hzo, tr1, -, tr2, h2, -⟩ := h
      have l1 := congrArg List.length e1
      have l2 := congrArg List.length e2
      simp only [List.length_reverse, List.length_cons, List.drop_succ_cons, List.drop_zero] at l1 l2 hl
      have hst := known_addSteps (st.length - 1) _ _ _ _ h2 (by simp only [List.length_cons]; omega)
      have e4 : (b :: c :: rest).reverse = last :: other :: st.take (st.length - 1) := by
        have := congrArg (List.take (rest.length + 2)) e2
        rw [show (a :: b :: c :: rest).reverse = (b :: c :: rest).reverse ++ [a] by simp,
          List.take_left' (by simp)] at this
        rw [this, show rest.length + 2 = (st.length - 1) + 1 + 1 by omega, List.take_succ_cons, List.take_succ_cons]
      intro s hs
      rw [List.drop_succ_cons, List.drop_zero, ← List.mem_reverse, e4, List.mem_cons, List.mem_cons] at hs
      rcases hs with rfl | rfl | hs
      · exact known_of hzl
      · exact known_of hzo
      · exact hst s hs
    · cases h
  · cases h
  · cases h

/-- C107.  The DCM generator knows two names only: with this generator a request succeeds only if every step that the robot
still has to make is called "left" or "right", whatever the names of the footprints are. -/
theorem C107_dcm {w w' : Walker K} {left right : FootPrint K} {initTime dT : K} {sorted : List (Ptr K)}
    (hs : SortedPtrs left right sorted) (hd : w.dcm ≠ none)
    (h : w.generateFromFootPrints left right initTime dT sorted = .ok (true, w')) :
    ∀ s ∈ left.steps.tail ++ right.steps.tail, s.footName = "left" ∨ s.footName = "right" := by
  obtain ⟨ordered, t, h1, h2⟩ := Walker.fromFootPrints_true h
  obtain ⟨c, m, z, d, g, -, -, -, h4, -, -⟩ := Walker.trajectories_true.mp h2
  obtain ⟨p, hp⟩ := Option.ne_none_iff_exists'.mp hd
  change Plugin.run w.dcm _ = _ at h4
  rw [hp] at h4
  have key : ∀ s ∈ (ordered.map Ptr.step).drop 1, Known s := by
    rcases Plugin.run_true.mp h4 with ⟨h, -⟩ | ⟨q, s, r, e, h5, -⟩
    · cases h
    · cases e
      unfold Walker.runDcm at h5
      cases r with
      | none => exact absurd h5 Dcm.compute_some
      | some o =>
        obtain ⟨_, _, init, -, -, -, h6, -⟩ := Dcm.compute_inv h5
        refine known_pieces (Dcm.generate_inv h6).1 ?_
        rw [(Gen.C37_all_steps hs h1).2.2.2, List.length_drop, List.length_drop, List.length_map]
  obtain ⟨l, r, tt, hr⟩ := Gen.timeline_ok h1
  obtain ⟨hperm, -, -⟩ := Gen.orderSteps_ok hr.order hs.2
  have hperm := hperm.trans hs.1
  have later : ∀ q : Ptr K, q ∈ Ptr.ofFeet left right → q.index ≠ 0 → Known q.step := by
    intro q hq hi
    have hq' := hperm.mem_iff.mpr hq
    rw [← List.take_append_drop 2 ordered, List.mem_append] at hq'
    rcases hq' with hq' | hq'
    · exfalso
      rcases hr.front hs with e | e <;> rw [e] at hq' <;>
        simp only [List.mem_cons, List.not_mem_nil, or_false] at hq' <;> rcases hq' with rfl | rfl <;> exact hi rfl
    · refine key _ ?_
      rw [← List.map_drop]
      refine List.mem_map_of_mem ?_
      rw [show (2 : Nat) = 1 + 1 from rfl, ← List.drop_drop] at hq'
      exact List.mem_of_mem_drop hq'
  intro s hs'
  rw [List.mem_append] at hs'
  rcases hs' with hs' | hs' <;> obtain ⟨i, hi⟩ := List.getElem?_of_mem hs' <;> rw [List.getElem?_tail] at hi
  · exact later ⟨true, i + 1, s⟩ (Gen.mem_ofFeet.mpr (by simpa using hi)) (by simp)
  · exact later ⟨false, i + 1, s⟩ (Gen.mem_ofFeet.mpr (by simpa using hi)) (by simp)

private theorem backTo_mem {steps : List (Step K)} {good : Step K → Bool} : ∀ {i k : Nat}, Zmp.backTo steps good i = .ok k →
    ∃ s ∈ steps, good s = true
  | 0, k, h => by
    unfold Zmp.backTo at h
    split at h
    · cases h
    · rename_i s hs
      split_ifs at h with hg
      exact ⟨s, List.mem_of_getElem? hs, hg⟩
  | i + 1, k, h => by
    unfold Zmp.backTo at h
    split at h
    · cases h
    · rename_i s hs
      split_ifs at h with hg
      · exact ⟨s, List.mem_of_getElem? hs, hg⟩
      · exact backTo_mem h

/-- C107.  The ZMP generator finds the steps of a foot by the name of the footprint: a request succeeds only if some step
carries this name.  So `setFootName` has to be called before steps are added; afterwards the steps keep the old name. -/
theorem C107_zmp {w w' : Walker K} {left right : FootPrint K} {initTime dT : K} {sorted : List (Ptr K)}
    (hs : SortedPtrs left right sorted) (hz : w.zmp ≠ none)
    (h : w.generateFromFootPrints left right initTime dT sorted = .ok (true, w')) :
    (∃ s ∈ left.steps ++ right.steps, s.footName = left.footName) ∧
      ∃ s ∈ left.steps ++ right.steps, s.footName = right.footName := by
  obtain ⟨ordered, t, h1, h2⟩ := Walker.fromFootPrints_true h
  obtain ⟨c, m, z, d, g, -, -, h4, -, -, -⟩ := Walker.trajectories_true.mp h2
  obtain ⟨p, hp⟩ := Option.ne_none_iff_exists'.mp hz
  change Plugin.run w.zmp _ = _ at h4
  rw [hp] at h4
  obtain ⟨l, r, tt, hr⟩ := Gen.timeline_ok h1
  obtain ⟨hperm, -, -⟩ := Gen.orderSteps_ok hr.order hs.2
  have hperm := hperm.trans hs.1
  have mem : ∀ s ∈ ordered.map Ptr.step, s ∈ left.steps ++ right.steps := by
    intro s hs
    obtain ⟨q, hq, rfl⟩ := List.mem_map.mp hs
    have := Gen.mem_ofFeet.mp (hperm.mem_iff.mp hq)
    rw [List.mem_append]
    split_ifs at this
    · exact Or.inl (List.mem_of_getElem? this)
    · exact Or.inr (List.mem_of_getElem? this)
  rcases Plugin.run_true.mp h4 with ⟨h, -⟩ | ⟨q, s, r, e, h5, -⟩
  · cases h
  · cases e
    unfold Walker.runZmp at h5
    rw [Out.bind_eq_ok] at h5
    obtain ⟨x, h5, -⟩ := h5
    unfold Zmp.computeNewTrajectories at h5
    simp only [Out.bind_eq_ok] at h5
    obtain ⟨_, -, _, -, _, -, _, -, _, -, _, h5, -⟩ := h5
    unfold Zmp.world at h5
    split at h5
    · cases h5
    · split_ifs at h5
      simp only [Out.bind_eq_ok] at h5
      obtain ⟨_, a1, _, a2, -⟩ := h5
      obtain ⟨s1, b1, c1⟩ := backTo_mem a1
      obtain ⟨s2, b2, c2⟩ := backTo_mem a2
      exact ⟨⟨s1, mem _ b1, of_decide_eq_true c1⟩, s2, mem _ b2, of_decide_eq_true c2⟩

/-! ## Examples and witnesses -/

private local instance namesTrig : Trig ℚ :=
  ⟨fun _ => 1, fun _ => 0, fun q => Nat.sqrt (⌊q * 10 ^ 8⌋₊) / 10 ^ 4, fun x => 1 + x, fun _ => 0, fun _ _ => 0, 22 / 7⟩

private def st (x y t : ℚ) (n : String) : Step ℚ := ⟨⟨x, y⟩, 0, t, n⟩
private def lf (f n : String) : FootPrint ℚ := ⟨[st 0 1 0 n, st 1 1 4 n], f⟩
private def rf (f n : String) : FootPrint ℚ := ⟨[st 0 0 0 n, st 2 0 8 n], f⟩
private def straight : Integrator ℚ := fun p u t0 _ =>
  (p.ctrl, some fun t => ⟨⟨u.position.x + (t - t0) / 40, u.position.y⟩, u.angle⟩)

/-- All the generators but the DCM. -/
private def plain : Walker ℚ := (Walker.new 0).runAll [.planner (.setPlannerPeriod (1 / 2)), .planner (.setUnicycleController .direct),
  .addCubic, .cubic (.setStepHeight (1 / 10)), .addMinJerk, .minJerk (.setStepHeight (1 / 10)),
  .addZmp ⟨0, 0, 0, 0, ⟨0, 0, 0⟩, true, ⟨0, 0, 0, ""⟩, ⟨0, 0, 0, ""⟩, true, []⟩, .addHeight, .height 1 0]

/-- The DCM generator alone, with the ZMP beside the origins of the feet. -/
private def withDcm : Walker ℚ := (Walker.new 0).runAll [.addDcm, .dcm (.setOmega 2), .dcm (.setFootOriginOffset ⟨0, 1⟩ ⟨0, 2⟩)]

private def outcome {α : Type} (f : Walker ℚ → α) (w : Walker ℚ) (l r : FootPrint ℚ) : Out (Bool × α) :=
  match w.generateFromFootPrints l r 0 1 (Walker.insertion l r) with
  | .ok (b, w) => .ok (b, f w)
  | .fail => .fail
  | .ub why => .ub why

/-- The names that other software uses for the feet. -/
private def other (n : String) : String := n ++ "_sole"

private theorem other_inj : Function.Injective other := by
  intro a b h
  have := congrArg String.toList h
  exact String.toList_inj.mp (by simpa [other] using this)

/-- Non-vacuity of C107_call: the planner and all the generators but the DCM. -/
example : Function.Injective other ∧ Blind other (Walker.insertion (K := ℚ)) Walker.insertion ∧ plain.dcm = none ∧
    (match plain.call straight 1000 Walker.insertion (.generate 0 (1 / 2) 10) with
      | .done b w => b && decide (2 < w.left.steps.length)
      | _ => false) = true :=
  ⟨other_inj, insertion_blind other, rfl, by decide +kernel⟩

/-- Non-vacuity of C107_equal_names, and of C107_zmp with other names. -/
example : outcome (fun _ => ()) plain (lf "left" "left") (rf "left" "left") = .ok (false, ()) ∧
    outcome (fun _ => ()) plain (lf "l_sole" "l_sole") (rf "r_sole" "r_sole") = .ok (true, ()) := by decide +kernel

/-- Non-vacuity of C107_dcm; with other names the DCM generator refuses a walk that the other generators accept. -/
example : outcome (fun _ => ()) withDcm (lf "left" "left") (rf "right" "right") = .ok (true, ()) ∧
    outcome (fun _ => ()) withDcm (lf "l_sole" "l_sole") (rf "r_sole" "r_sole") = .ok (false, ()) := by decide +kernel

/-- C107 (negative): C107_call does not hold with a DCM generator.  Feet called by each other's name are accepted, but the
ZMP of each foot is then placed at the offset of the other one. -/
theorem C107_swapped : ∃ (w : Walker ℚ) (l r l' r' : FootPrint ℚ) (ρ : String → String), Function.Injective ρ ∧
    l' = footPrint ρ l ∧ r' = footPrint ρ r ∧ ∃ a b : Walker ℚ,
      w.generateFromFootPrints l r 0 1 (Walker.insertion l r) = .ok (true, a) ∧
      w.generateFromFootPrints l' r' 0 1 (Walker.insertion l' r') = .ok (true, b) ∧
      a.dcm.map Plugin.result ≠ b.dcm.map Plugin.result := by
  refine ⟨withDcm, lf "left" "left", rf "right" "right", lf "right" "right", rf "left" "left", Equiv.swap "left" "right",
    (Equiv.swap _ _).injective, by decide +kernel, by decide +kernel, ?_⟩
  have h : (match withDcm.generateFromFootPrints (lf "left" "left") (rf "right" "right") 0 1
        (Walker.insertion (lf "left" "left") (rf "right" "right")),
      withDcm.generateFromFootPrints (lf "right" "right") (rf "left" "left") 0 1
        (Walker.insertion (lf "right" "right") (rf "left" "left")) with
      | .ok (true, a), .ok (true, b) => decide (a.dcm.map Plugin.result ≠ b.dcm.map Plugin.result)
      | _, _ => false) = true := by decide +kernel
  split at h
  · rename_i a b ha hb
    exact ⟨a, b, ha, hb, of_decide_eq_true h⟩
  · cases h

/-- C107 (negative): a footprint that is renamed after its steps were added makes the ZMP generator read before the first
step. -/
theorem C107_renamed : ∃ (w : Walker ℚ) (l r : FootPrint ℚ) (name : String), w.zmp ≠ none ∧
    (∃ w', w.generateFromFootPrints l r 0 1 (Walker.insertion l r) = .ok (true, w')) ∧
    w.generateFromFootPrints (l.setFootName name) r 0 1 (Walker.insertion (l.setFootName name) r) = .ub .outOfRange := by
  refine ⟨plain, lf "left" "left", rf "right" "right", "l_sole", by decide +kernel, ?_, ?_⟩
  · have h : (match plain.generateFromFootPrints (lf "left" "left") (rf "right" "right") 0 1
        (Walker.insertion (lf "left" "left") (rf "right" "right")) with
      | .ok (b, _) => b
      | _ => false) = true := by decide +kernel
    split at h
    · rename_i b a ha
      exact ⟨a, by rw [ha, h]⟩
    · cases h
  · have h : (match plain.generateFromFootPrints ((lf "left" "left").setFootName "l_sole") (rf "right" "right") 0 1
        (Walker.insertion ((lf "left" "left").setFootName "l_sole") (rf "right" "right")) with
      | .ub why => decide (why = .outOfRange)
      | _ => false) = true := by decide +kernel
    split at h
    · rename_i why ha
      rw [ha, of_decide_eq_true h]
    · cases h

end Uni
