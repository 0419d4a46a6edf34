import Verif.Lemmas.Names

/-! # Other names for the feet: the trajectories -/

set_option autoImplicit false
set_option linter.unusedSectionVars false

namespace Uni.Spec.Names
variable {K : Type} [Field K] [LinearOrder K] [FloorRing K] [Trig K] {ρ : String → String}

theorem adjacentDup (l : List (Ptr K)) : Gen.adjacentDup (l.map (ptr ρ)) = Gen.adjacentDup l := by
  induction l with
  | nil => rfl
  | cons a l ih =>
    cases l with
    | nil => rfl
    | cons b l =>
      simp only [List.map_cons, Gen.adjacentDup] at ih ⊢
      rw [ih]; rfl

theorem orderSteps (hρ : Function.Injective ρ) (l : List (Ptr K)) :
    Gen.orderSteps (l.map (ptr ρ)) = (Gen.orderSteps l).map (List.map (ptr ρ)) := by
  rcases l with _ | ⟨a, _ | ⟨b, rest⟩⟩
  · rfl
  · rfl
  · simp only [List.map_cons, Gen.orderSteps]
    rw [adjacentDup]
    split
    · rfl
    · rcases rest with _ | ⟨c, rest⟩
      · rfl
      · simp only [List.map_cons, ptr_step, step_impactTime, step_footName, hρ.eq_iff]
        split <;> rfl

theorem addStep_timing (cfg : GenSettings K) (dT : K) (nl nr : Nat) (first half : Bool) (q : Ptr K) (s : Timing K) :
    Gen.addStep cfg dT nl nr first half (ptr ρ q) s = Gen.addStep cfg dT nl nr first half q s := rfl

theorem addSteps_timing (cfg : GenSettings K) (dT : K) (nl nr : Nat) (half : Bool) (l : List (Ptr K)) :
    ∀ (first : Bool) (s : Timing K), Gen.addSteps cfg dT nl nr first half (l.map (ptr ρ)) s =
      Gen.addSteps cfg dT nl nr first half l s := by
  induction l with
  | nil => intro first s; rfl
  | cons q l ih =>
    intro first s
    simp only [List.map_cons, Gen.addSteps, addStep_timing, ih]

theorem lastTiming_timing (cfg : GenSettings K) (dT : K) (nl nr : Nat) (half : Bool) (l : List (Ptr K)) :
    ∀ (first : Bool) (s : Timing K), Gen.lastTiming cfg dT nl nr first half (l.map (ptr ρ)) s =
      Gen.lastTiming cfg dT nl nr first half l s := by
  induction l with
  | nil => intro first s; rfl
  | cons q l ih =>
    intro first s
    simp only [List.map_cons, Gen.lastTiming, addStep_timing, ih]

theorem createPhasesTimings (cfg : GenSettings K) (initTime dT : K) (left right : List (Step K)) (ordered : List (Ptr K)) :
    Gen.createPhasesTimings cfg initTime dT (left.map (step ρ)) (right.map (step ρ)) (ordered.map (ptr ρ)) =
      Gen.createPhasesTimings cfg initTime dT left right ordered := by
  unfold Gen.createPhasesTimings
  rcases left with _ | ⟨l, left⟩
  · rfl
  rcases right with _ | ⟨r, right⟩
  · rfl
  rw [List.getLast?_map]
  cases h : ordered.getLast? with
  | none => rfl
  | some last =>
    simp only [List.map_cons, Option.map_some, List.length_map, List.length_cons, ← List.map_drop, addSteps_timing]
    rfl

theorem timeline (hρ : Function.Injective ρ) (cfg : GenSettings K) (left right : FootPrint K) (initTime dT : K)
    (sorted : List (Ptr K)) :
    Gen.timeline cfg (footPrint ρ left) (footPrint ρ right) initTime dT (sorted.map (ptr ρ)) =
      (Gen.timeline cfg left right initTime dT sorted).map fun o => (o.1.map (ptr ρ), o.2) := by
  unfold Gen.timeline
  simp only [footPrint_steps, footPrint_footName, hρ.eq_iff]
  rcases hl : left.steps with _ | ⟨l, ls⟩
  · rfl
  rcases hr : right.steps with _ | ⟨r, rs⟩
  · rfl
  simp only [List.map_cons, step_impactTime]
  split
  · rfl
  split
  · rfl
  split
  · rfl
  rw [orderSteps hρ, Out.bind_map, Out.map_bind]
  refine Out.bind_congr fun o => ?_
  rw [← List.map_cons, ← List.map_cons, createPhasesTimings, Out.map_bind]
  rfl

theorem outputsAfter (hρ : Function.Injective ρ) (cfg : GenSettings K) (left right : FootPrint K) (initTime dT : K)
    (sorted : List (Ptr K)) (o : GenOutputs) :
    Gen.outputsAfter cfg (footPrint ρ left) (footPrint ρ right) initTime dT (sorted.map (ptr ρ)) o =
      Gen.outputsAfter cfg left right initTime dT sorted o := by
  unfold Gen.outputsAfter
  rw [timeline hρ]
  cases h : Gen.timeline cfg left right initTime dT sorted with
  | ok t => rfl
  | ub w => rfl
  | fail =>
    simp only [Out.map_fail, footPrint_steps, footPrint_footName, hρ.eq_iff]
    rcases hl : left.steps with _ | ⟨l, ls⟩
    · rfl
    rcases hr : right.steps with _ | ⟨r, rs⟩
    · rfl
    simp only [List.map_cons, step_impactTime, orderSteps hρ]
    split
    · rfl
    split
    · rfl
    split
    · rfl
    cases ho : Gen.orderSteps sorted with
    | fail => rfl
    | ub w => rfl
    | ok o =>
      simp only [Out.map_ok, ← List.map_drop, List.length_cons, List.length_map, lastTiming_timing]
      rfl

/-! ## Feet -/

theorem footBody_map (swing : Step K → Step K → Nat → Out (List (FootSample K)))
    (h : ∀ s s' n, swing (step ρ s) (step ρ s') n = swing s s' n) (a : Nat) (b : Bool) (p : Phase)
    (start stop : Nat) (steps : List (Step K)) :
    footBody swing a b p start stop (steps.map (step ρ)) =
      (footBody swing a b p start stop steps).map fun r => (r.1.map (step ρ), r.2.map id) := by
  rcases steps with _ | ⟨s, rest⟩
  · rfl
  simp only [List.map_cons, footBody]
  split
  · rcases rest with _ | ⟨s', rest⟩
    · rfl
    simp only [List.map_cons]
    rw [h, Out.map_bind]
    simp
  · simp only [Out.map_ok, List.map_cons, List.map_id]
    rfl

theorem cubic_foot (c : FeetSettings K) (z0 dT : K) (shifts : List Nat) (phases : List Phase) (steps : List (Step K)) :
    CubicFeet.interpolateFoot c z0 dT shifts phases (steps.map (step ρ)) =
      CubicFeet.interpolateFoot c z0 dT shifts phases steps := by
  unfold CubicFeet.interpolateFoot overPhases
  split
  · rfl
  rw [Move.phaseLoop_map (List.map (step ρ)) id _ _ phases (footBody_map _ fun _ _ _ => rfl), Out.bind_map]
  simp

theorem minJerk_foot (c : FeetSettings K) (dT : K) (shifts : List Nat) (phases : List Phase) (steps : List (Step K)) :
    MinJerk.interpolateFoot c dT shifts phases (steps.map (step ρ)) =
      MinJerk.interpolateFoot c dT shifts phases steps := by
  unfold MinJerk.interpolateFoot overPhases
  split
  · rfl
  rw [Move.phaseLoop_map (List.map (step ρ)) id _ _ phases (footBody_map _ fun _ _ _ => rfl), Out.bind_map]
  simp

theorem cubic_feet (c : FeetSettings K) (z0 dT : K) (left right : FootPrint K) (lp rp : List Phase) (shifts : List Nat) :
    CubicFeet.computeNewTrajectories c z0 dT (footPrint ρ left) (footPrint ρ right) lp rp shifts =
      CubicFeet.computeNewTrajectories c z0 dT left right lp rp shifts := by
  unfold CubicFeet.computeNewTrajectories
  simp only [footPrint_steps, cubic_foot]

theorem minJerk_feet (c : FeetSettings K) (dT : K) (left right : FootPrint K) (lp rp : List Phase) (shifts : List Nat) :
    MinJerk.computeNewTrajectories c dT (footPrint ρ left) (footPrint ρ right) lp rp shifts =
      MinJerk.computeNewTrajectories c dT left right lp rp shifts := by
  unfold MinJerk.computeNewTrajectories
  simp only [footPrint_steps, minJerk_foot]

/-! ## ZMP -/

theorem backTo (steps : List (Step K)) (good good' : Step K → Bool) (h : ∀ s, good' (step ρ s) = good s) (i : Nat) :
    Zmp.backTo (steps.map (step ρ)) good' i = Zmp.backTo steps good i := by
  induction i with
  | zero =>
    simp only [Zmp.backTo, List.getElem?_map]
    cases steps[0]? with
    | none => rfl
    | some s => simp only [Option.map_some, h]
  | succ i ih =>
    simp only [Zmp.backTo, List.getElem?_map, ih]
    cases steps[i + 1]? with
    | none => rfl
    | some s => simp only [Option.map_some, h]

theorem stepAt (hρ : Function.Injective ρ) (steps : List (Step K)) (name : String) (t : K) (i : Nat) (s : Step K) :
    Zmp.stepAt (steps.map (step ρ)) (ρ name) t i (step ρ s) = Zmp.stepAt steps name t i s := by
  unfold Zmp.stepAt
  rw [backTo steps (fun s => decide (s.footName = name ∧ ¬ t < s.impactTime))]
  · rfl
  · intro s; simp only [step_impactTime, step_footName, hρ.eq_iff]

theorem stepsUsed (hρ : Function.Injective ρ) (steps : List (Step K)) (name : String) (time : Nat → K) : ∀ (n i : Nat),
    Zmp.stepsUsed (steps.map (step ρ)) (ρ name) time n i = (Zmp.stepsUsed steps name time n i).map (List.map (step ρ))
  | 0, _ => by simp only [Zmp.stepsUsed, Out.map_ok, List.map_nil]
  | n + 1, i => by
    simp only [Zmp.stepsUsed, List.getElem?_map]
    cases steps[i]? with
    | none => rfl
    | some s =>
      simp only [Option.map_some, stepAt hρ, Out.map_bind]
      refine Out.bind_congr fun j => ?_
      cases steps[j]? with
      | none => rfl
      | some s =>
        simp only [Option.map_some, stepsUsed hρ, Out.bind_map, Out.map_bind]
        exact Out.bind_congr fun l => by simp

theorem worldFrom (ol or : Step K) (dT : K) (first : Nat) : ∀ (n : Nat) (zl zr : List (Motion2 K)) (wl wr : List (Motion K))
    (sl sr : List (Step K)), Zmp.worldFrom (step ρ ol) (step ρ or) dT first n zl zr wl wr (sl.map (step ρ)) (sr.map (step ρ)) =
      Zmp.worldFrom ol or dT first n zl zr wl wr sl sr
  | _, [], _, _, _, _, _ => rfl
  | _, _ :: _, [], _, _, _, _ => rfl
  | _, _ :: _, _ :: _, [], _, _, _ => rfl
  | _, _ :: _, _ :: _, _ :: _, [], _, _ => rfl
  | _, _ :: _, _ :: _, _ :: _, _ :: _, [], _ => rfl
  | _, _ :: _, _ :: _, _ :: _, _ :: _, _ :: _, [] => rfl
  | n, z :: zl, z' :: zr, w :: wl, w' :: wr, s :: sl, s' :: sr => by
    simp only [List.map_cons, Zmp.worldFrom]
    rw [worldFrom ol or dT first (n + 1) zl zr wl wr sl sr]
    rfl

theorem world (hρ : Function.Injective ρ) (ol or : Step K) (initTime dT : K) (shifts : List Nat) (steps : List (Step K))
    (ln rn : String) (zl zr : List (Motion2 K)) (wl wr : List (Motion K)) :
    Zmp.world (step ρ ol) (step ρ or) initTime dT shifts (steps.map (step ρ)) (ρ ln) (ρ rn) zl zr wl wr =
      Zmp.world ol or initTime dT shifts steps ln rn zl zr wl wr := by
  unfold Zmp.world
  cases shifts[1]? with
  | none => rfl
  | some first =>
    simp only [List.map_eq_nil_iff, List.length_map]
    split_ifs
    · rfl
    · have e : ∀ name, Zmp.backTo (steps.map (step ρ)) (fun s => decide (s.footName = ρ name)) =
          Zmp.backTo steps (fun s => decide (s.footName = name)) := fun name =>
        funext fun i => backTo steps _ _ (fun s => by simp only [step_footName, hρ.eq_iff]) i
      simp only [e, stepsUsed hρ, Out.bind_map, worldFrom]

theorem zmp_new (hρ : Function.Injective ρ) (z : Zmp K) (cfg : GenSettings K) (initTime dT : K)
    (merges : List Nat) (left right : FootPrint K) (ordered : List (Step K)) (lp rp : List Phase) (shifts : List Nat) :
    (zmp ρ z).computeNewTrajectories cfg initTime dT merges (footPrint ρ left) (footPrint ρ right)
        (ordered.map (step ρ)) lp rp shifts =
      (z.computeNewTrajectories cfg initTime dT merges left right ordered lp rp shifts).map fun r => (zmp ρ r.1, r.2) := by
  unfold Zmp.computeNewTrajectories
  have hp : (zmp ρ z).previousSteps (footPrint ρ left) (footPrint ρ right) =
      (z.previousSteps left right).map fun q => (step ρ q.1, step ρ q.2) := by
    unfold Zmp.previousSteps
    have e : (zmp ρ z).previousSpecified = z.previousSpecified := rfl
    rw [e]
    split_ifs with hi
    · rfl
    · simp only [footPrint_steps]
      rcases left.steps with _ | ⟨l, ls⟩ <;> rcases right.steps with _ | ⟨r, rs⟩ <;> rfl
  have e1 : (zmp ρ z).start = z.start := rfl
  have e2 : (zmp ρ z).leftStance = z.leftStance := rfl
  have e3 : (zmp ρ z).leftSwitch = z.leftSwitch := rfl
  have e4 : (zmp ρ z).rightStance = z.rightStance := rfl
  have e5 : (zmp ρ z).rightSwitch = z.rightSwitch := rfl
  have e6 : (zmp ρ z).initStates = z.initStates := rfl
  simp only [hp, e1, e2, e3, e4, e5, e6, Out.bind_map, Out.map_bind, footPrint_footName, world hρ]
  rfl

/-! ## The generator -/

theorem runCubic (z0 dT : K) (left right : FootPrint K) (t : Timing K) (c : FeetSettings K) :
    Walker.runCubic z0 dT (footPrint ρ left) (footPrint ρ right) t c = Walker.runCubic z0 dT left right t c := by
  unfold Walker.runCubic; rw [cubic_feet]

theorem runMinJerk (dT : K) (left right : FootPrint K) (t : Timing K) (c : FeetSettings K) :
    Walker.runMinJerk dT (footPrint ρ left) (footPrint ρ right) t c = Walker.runMinJerk dT left right t c := by
  unfold Walker.runMinJerk; rw [minJerk_feet]

theorem runZmp (hρ : Function.Injective ρ) (cfg : GenSettings K) (initTime dT : K) (left right : FootPrint K)
    (ordered : List (Ptr K)) (t : Timing K) (p : Option (Plugin (Zmp K) (ZmpOut K))) :
    Plugin.run (p.map fun p => ⟨zmp ρ p.state, p.result⟩)
        (Walker.runZmp cfg initTime dT (footPrint ρ left) (footPrint ρ right) (ordered.map (ptr ρ)) t) =
      (Plugin.run p (Walker.runZmp cfg initTime dT left right ordered t)).map fun r =>
        (r.1, r.2.map fun p => ⟨zmp ρ p.state, p.result⟩) := by
  cases p with
  | none => rfl
  | some p =>
    simp only [Option.map_some, Plugin.run, Walker.runZmp, List.map_map]
    have e : (Ptr.step ∘ ptr ρ : Ptr K → Step K) = step ρ ∘ Ptr.step := rfl
    rw [e, ← List.map_map, zmp_new hρ, Out.bind_map]
    cases p.state.computeNewTrajectories cfg initTime dT t.merges left right (ordered.map Ptr.step) t.left t.right t.shifts with
    | ok r => rfl
    | fail => rfl
    | ub w => rfl

theorem trajectories (hρ : Function.Injective ρ) (w : Walker K) (hd : w.dcm = none) (initTime dT : K) (ordered : List (Ptr K))
    (t : Timing K) : (walker ρ w).trajectories initTime dT (ordered.map (ptr ρ)) t =
      (w.trajectories initTime dT ordered t).map fun r => (r.1, walker ρ r.2) := by
  unfold Walker.trajectories
  have e1 : (walker ρ w).cubic = w.cubic := rfl
  have e2 : (walker ρ w).minJerk = w.minJerk := rfl
  have e3 : (walker ρ w).zmp = w.zmp.map fun p => ⟨zmp ρ p.state, p.result⟩ := rfl
  have e4 : (walker ρ w).dcm = none := hd
  have e5 : (walker ρ w).height = w.height := rfl
  have e6 : (walker ρ w).left = footPrint ρ w.left := rfl
  have e7 : (walker ρ w).right = footPrint ρ w.right := rfl
  have e8 : (walker ρ w).garbage = w.garbage := rfl
  have e9 : (walker ρ w).cfg = w.cfg := rfl
  have c1 : Walker.runCubic w.garbage dT (footPrint ρ w.left) (footPrint ρ w.right) t =
    Walker.runCubic w.garbage dT w.left w.right t := funext fun c => runCubic ..
  have c2 : Walker.runMinJerk dT (footPrint ρ w.left) (footPrint ρ w.right) t =
    Walker.runMinJerk dT w.left w.right t := funext fun c => runMinJerk ..
  simp only [e1, e2, e3, e4, e5, e6, e7, e8, e9, c1, c2, hd, runZmp hρ]
  rw [Out.map_bind]
  refine Out.bind_congr fun a => ?_
  rcases a with ⟨_ | _, p1⟩
  · rfl
  simp only [Bool.true_eq_false, if_false]
  rw [Out.map_bind]
  refine Out.bind_congr fun a => ?_
  rcases a with ⟨_ | _, p2⟩
  · rfl
  simp only [Bool.true_eq_false, if_false]
  rw [Out.map_bind, Out.bind_map]
  refine Out.bind_congr fun a => ?_
  rcases a with ⟨_ | _, p3⟩
  · rfl
  simp only [Bool.true_eq_false, if_false]
  rw [Out.map_bind]
  refine Out.bind_congr fun a => ?_
  rcases a with ⟨_ | _, p4⟩
  · rfl
  simp only [Bool.true_eq_false, if_false]
  rw [Out.map_bind]
  rfl

theorem fromFootPrints (hρ : Function.Injective ρ) (w : Walker K) (hd : w.dcm = none) (left right : FootPrint K)
    (initTime dT : K) (sorted : List (Ptr K)) :
    (walker ρ w).generateFromFootPrints (footPrint ρ left) (footPrint ρ right) initTime dT (sorted.map (ptr ρ)) =
      (w.generateFromFootPrints left right initTime dT sorted).map fun r => (r.1, walker ρ r.2) := by
  unfold Walker.generateFromFootPrints
  have e9 : (walker ρ w).cfg = w.cfg := rfl
  have e8 : (walker ρ w).outputs = w.outputs := rfl
  simp only [e9, e8, outputsAfter hρ, timeline hρ]
  cases Gen.timeline w.cfg left right initTime dT sorted with
  | ub w => rfl
  | fail => rfl
  | ok o =>
    exact trajectories hρ { w with
      left := left, right := right, outputs := Gen.outputsAfter w.cfg left right initTime dT sorted w.outputs } hd _ _ _ _

theorem fromMembers (hρ : Function.Injective ρ) {sort sort' : Walker.Sorter K} (hs : Blind ρ sort sort') (w : Walker K)
    (hd : w.dcm = none) (initTime dT : K) :
    (walker ρ w).fromMembers initTime dT sort' = result ρ (w.fromMembers initTime dT sort) := by
  unfold Walker.fromMembers
  have e1 : (walker ρ w).left = footPrint ρ w.left := rfl
  have e2 : (walker ρ w).right = footPrint ρ w.right := rfl
  rw [e1, e2, hs, fromFootPrints hρ w hd]
  cases w.generateFromFootPrints w.left w.right initTime dT (sort w.left w.right) with
  | ok r => rfl
  | fail => rfl
  | ub w => rfl

theorem walker_plan (ρ : String → String) (w : Walker K) (integ : Integrator K) (fuel : Nat) (t e : K) :
    (walker ρ w).plan integ fuel t e = result ρ (w.plan integ fuel t e) := by
  unfold Walker.plan
  have e1 : (walker ρ w).left = footPrint ρ w.left := rfl
  have e2 : (walker ρ w).right = footPrint ρ w.right := rfl
  have e3 : (walker ρ w).planner = w.planner := rfl
  rw [e1, e2, e3, computeNewSteps]
  cases w.planner.computeNewSteps integ fuel w.left w.right t e <;> rfl

theorem walker_replan (ρ : String → String) (w : Walker K) (integ : Integrator K) (fuel : Nat) (t e : K) {q q' : Gen.Request K}
    (h : SameContacts q q') : (walker ρ w).replan integ fuel t e q' = result ρ (w.replan integ fuel t e q) := by
  unfold Walker.replan
  have e1 : (walker ρ w).left = footPrint ρ w.left := rfl
  have e2 : (walker ρ w).right = footPrint ρ w.right := rfl
  have e3 : (walker ρ w).planner = w.planner := rfl
  have e4 : (walker ρ w).dcmVelocity = w.dcmVelocity := rfl
  rw [e1, e2, e3, e4, replan ρ w.planner integ fuel w.dcmVelocity w.left w.right t e h]
  cases Gen.replan w.planner integ fuel w.dcmVelocity w.left w.right t e q with
  | ub w => rfl
  | outOfFuel => rfl
  | done b p l r prev =>
    cases prev with
    | none => rfl
    | some s =>
      simp only [replanResult, Option.map_some, result, walker, Plugin.set]
      cases w.zmp <;> rfl

theorem plan_dcm {w w' : Walker K} {integ : Integrator K} {fuel : Nat} {t e : K} {b : Bool}
    (h : w.plan integ fuel t e = .done b w') : w'.dcm = w.dcm := by
  unfold Walker.plan at h
  cases hp : w.planner.computeNewSteps integ fuel w.left w.right t e <;> rw [hp] at h <;> cases h
  rfl

theorem replan_dcm {w w' : Walker K} {integ : Integrator K} {fuel : Nat} {t e : K} {b : Bool} {q : Gen.Request K}
    (h : w.replan integ fuel t e q = .done b w') : w'.dcm = w.dcm := by
  unfold Walker.replan at h
  cases hp : Gen.replan w.planner integ fuel w.dcmVelocity w.left w.right t e q <;> rw [hp] at h <;> cases h
  rfl

end Uni.Spec.Names
