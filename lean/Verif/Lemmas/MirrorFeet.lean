import Verif.Lemmas.Mirror

/-! # Mirrored walks: feet, height of the centre of mass -/

set_option autoImplicit false
set_option linter.unusedSectionVars false

namespace Uni

theorem phaseLoop_both {S O : Type} (fs : S → S) (fo : O → O) (fp : Phase → Phase)
    (body body' : Nat → Bool → Phase → Nat → Nat → S → Out (S × List O)) (phases : List Phase)
    (h : ∀ a b p d e s, body' a b (fp p) d e (fs s) = (body a b p d e s).map fun r => (fs r.1, r.2.map fo)) (shifts : List Nat) :
    ∀ (phase start : Nat) (s : S), phaseLoop body' (phases.map fp) shifts phase start (fs s) =
      (phaseLoop body phases shifts phase start s).map fun r => (fs r.1, r.2.map fo) := by
  induction shifts with
  | nil => intro phase start s; rfl
  | cons stop rest ih =>
    intro phase start s
    simp only [phaseLoop, List.getElem?_map, List.length_map]
    cases phases[start]? with
    | none => rfl
    | some p =>
      simp only [Option.map_some]
      split
      · rfl
      split
      · rfl
      rw [h, Out.bind_map, Out.map_bind]
      refine Out.bind_congr fun a => ?_
      simp only [ih, Out.bind_map, Out.map_bind]
      refine Out.bind_congr fun b => ?_
      simp

namespace Spec

theorem Timetable.phases_false (tt : Timetable) : tt.phases false = (tt.phases true).map Mirror.phase := by
  have he : ∀ l : List Seg, (expand l).map Mirror.phase = expand (l.map fun s => (Mirror.phase s.1, s.2)) := by
    intro l
    induction l with
    | nil => rfl
    | cons s l ih => simp [ih]
  unfold Timetable.phases
  rw [he]
  congr 1
  simp only [Timetable.segs, List.map_append, List.map_flatMap]
  congr 1
  · congr 1
    funext s
    unfold Slot.segs
    cases s.left <;> rfl
  · cases tt.lastLeft <;> rfl

namespace Mirror
variable {K : Type} [Field K] [LinearOrder K] [IsStrictOrderedRing K] [FloorRing K] [Trig K]

/-- The two double supports exchanged. -/
def switch : Phase → Phase
  | .switchIn => .switchOut
  | .switchOut => .switchIn
  | p => p

theorem footBody (swing : Step K → Step K → Nat → Out (List (FootSample K)))
    (h : ∀ s s' n, swing (step s) (step s') n = (swing s s' n).map (List.map foot)) (fp : Phase → Phase)
    (hfp : ∀ p, fp p = .swing ↔ p = .swing) (a : Nat) (b : Bool) (p : Phase)
    (start stop : Nat) (steps : List (Step K)) :
    Uni.footBody swing a b (fp p) start stop (steps.map step) =
      (Uni.footBody swing a b p start stop steps).map fun r => (r.1.map step, r.2.map foot) := by
  rcases steps with _ | ⟨s, rest⟩
  · rfl
  simp only [List.map_cons, Uni.footBody, hfp]
  split
  · rcases rest with _ | ⟨s', rest⟩
    · rfl
    simp only [List.map_cons]
    rw [h, Out.bind_map, Out.map_bind]
    rfl
  · simp only [Out.map_ok, List.map_cons, List.map_replicate, Out.ok.injEq, Prod.mk.injEq, true_and]
    congr 1
    ext <;> simp [restAt, foot, vector]

theorem sampleOf_mirror (hp : TrigParity K) {x y z pitch yaw y' yaw' : Motion K} (hy : y' = motion y) (hyaw : yaw' = motion yaw) :
    sampleOf x y' z pitch yaw' = foot (sampleOf x y z pitch yaw) := by
  subst hy hyaw
  ext <;> simp only [sampleOf, foot, motion, rightTrivialized, rightTrivializedRate, hp.cos, hp.sin] <;> ring

theorem hermite_neg (a b T t : K) : hermite (-a) 0 (-b) 0 T t = motion (hermite a 0 b 0 T t) := by
  simp only [hermite, motion, Motion.mk.injEq]
  refine ⟨?_, ?_, ?_⟩ <;> ring

theorem cubic_swing (hp : TrigParity K) (c : FeetSettings K) (z0 dT : K) (s s' : Step K) (n : Nat) :
    CubicFeet.swing c z0 dT (step s) (step s') n = (CubicFeet.swing c z0 dT s s' n).map (List.map foot) := by
  unfold CubicFeet.swing spline2
  by_cases hT : (n : K) * dT ≤ 0
  · simp only [if_pos hT, Out.bind_fail, Out.map_fail]
  simp only [if_neg hT, Out.bind_ok]
  rw [Out.map_bind]
  refine Out.bind_congr fun z => ?_
  rw [Out.map_bind]
  refine Out.bind_congr fun p => ?_
  simp only [Out.map_ok, List.map_map, Out.ok.injEq]
  refine List.map_congr_left fun j _ => ?_
  simp only [Function.comp]
  exact sampleOf_mirror hp (hermite_neg _ _ _ _) (hermite_neg _ _ _ _)

theorem minimumJerk_neg (a b t T : K) : minimumJerk (-a) (-b) t T = (minimumJerk a b t T).map motion := by
  unfold minimumJerk
  split
  · rfl
  · simp only
    split
    · rfl
    · simp only [Out.map_ok, motion, Out.ok.injEq, Motion.mk.injEq]
      refine ⟨?_, ?_, ?_⟩ <;> ring

theorem minJerk_sample (hp : TrigParity K) (dT : K) (s s' : Step K) (n : Nat) (z0 z1 p0 p1 half : K) (j0 j : Nat) :
    MinJerk.swingSample dT (step s) (step s') n z0 z1 p0 p1 half j0 j =
      (MinJerk.swingSample dT s s' n z0 z1 p0 p1 half j0 j).map foot := by
  unfold MinJerk.swingSample
  simp only [step_position, step_angle, vector, minimumJerk_neg, Out.bind_map, Out.map_bind]
  refine Out.bind_congr fun x => Out.bind_congr fun y => Out.bind_congr fun z => Out.bind_congr fun p => Out.bind_congr fun w => ?_
  rw [sampleOf_mirror hp rfl rfl]
  rfl

theorem minJerk_swing (hp : TrigParity K) (c : FeetSettings K) (dT : K) (s s' : Step K) (n : Nat) :
    MinJerk.swing c dT (step s) (step s') n = (MinJerk.swing c dT s s' n).map (List.map foot) := by
  unfold MinJerk.swing
  simp only [Move.collect_map _ _ foot (minJerk_sample hp dT s s' n _ _ _ _ _ _), Out.bind_map, Out.map_bind, Out.map_ok,
    List.map_append]

theorem cubic_foot (hp : TrigParity K) (c : FeetSettings K) (z0 dT : K) (shifts : List Nat) (phases : List Phase)
    (fp : Phase → Phase) (hfp : ∀ p, fp p = .swing ↔ p = .swing) (steps : List (Step K)) :
    CubicFeet.interpolateFoot c z0 dT shifts (phases.map fp) (steps.map step) =
      (CubicFeet.interpolateFoot c z0 dT shifts phases steps).map (List.map foot) := by
  unfold CubicFeet.interpolateFoot overPhases
  split
  · rfl
  rw [phaseLoop_both (List.map step) foot fp _ _ phases (footBody _ (cubic_swing hp c z0 dT) fp hfp), Out.bind_map, Out.map_bind]
  rfl

theorem minJerk_foot (hp : TrigParity K) (c : FeetSettings K) (dT : K) (shifts : List Nat) (phases : List Phase)
    (fp : Phase → Phase) (hfp : ∀ p, fp p = .swing ↔ p = .swing) (steps : List (Step K)) :
    MinJerk.interpolateFoot c dT shifts (phases.map fp) (steps.map step) =
      (MinJerk.interpolateFoot c dT shifts phases steps).map (List.map foot) := by
  unfold MinJerk.interpolateFoot overPhases
  split
  · rfl
  rw [phaseLoop_both (List.map step) foot fp _ _ phases (footBody _ (minJerk_swing hp c dT) fp hfp), Out.bind_map, Out.map_bind]
  rfl

/-- As far as a foot is concerned the phases in the mirror are those of the other foot, up to the kind of double support. -/
theorem Timings.feet {t t' : Timing K} (h : Timings t t') :
    ∃ fp : Phase → Phase, (∀ p, fp p = .swing ↔ p = .swing) ∧ t'.left = t.right.map fp ∧ t'.right = t.left.map fp := by
  rcases h.phases with ⟨h1, h2⟩ | ⟨n, h1, h2, h3, h4, -⟩
  · exact ⟨id, fun p => Iff.rfl, by simp [h1], by simp [h2]⟩
  · exact ⟨switch, fun p => by cases p <;> simp [switch], by rw [h3, h1, h2]; simp [switch], by rw [h4, h1, h2]; simp [switch]⟩

theorem bind_swap {α β : Type} {x : Out α} {y : Out β} {a : α × β} (h : (do let l ← x; let r ← y; .ok (l, r)) = Out.ok a) :
    x = .ok a.1 ∧ y = .ok a.2 := by
  obtain ⟨l, hl, h⟩ := Out.bind_eq_ok.mp h
  obtain ⟨r, hr, h⟩ := Out.bind_eq_ok.mp h
  cases h
  exact ⟨hl, hr⟩

theorem cubic_feet (hp : TrigParity K) (c : FeetSettings K) (z0 dT : K) (left right : FootPrint K) {t t' : Timing K}
    (h : Timings t t') : Out.Follows (fun o o' => o' = Mirror.feet o)
      (CubicFeet.computeNewTrajectories c z0 dT left right t.left t.right t.shifts)
      (CubicFeet.computeNewTrajectories c z0 dT (footPrint right) (footPrint left) t'.left t'.right t'.shifts) := by
  intro o ho
  obtain ⟨h1, h2⟩ := bind_swap ho
  obtain ⟨fp, hfp, e1, e2⟩ := h.feet
  unfold CubicFeet.computeNewTrajectories
  rw [e1, e2, h.shifts, footPrint_steps, footPrint_steps, cubic_foot hp _ _ _ _ _ _ hfp, cubic_foot hp _ _ _ _ _ _ hfp, h1, h2]
  exact ⟨_, rfl, rfl⟩

theorem minJerk_feet (hp : TrigParity K) (c : FeetSettings K) (dT : K) (left right : FootPrint K) {t t' : Timing K}
    (h : Timings t t') : Out.Follows (fun o o' => o' = Mirror.feet o)
      (MinJerk.computeNewTrajectories c dT left right t.left t.right t.shifts)
      (MinJerk.computeNewTrajectories c dT (footPrint right) (footPrint left) t'.left t'.right t'.shifts) := by
  intro o ho
  obtain ⟨h1, h2⟩ := bind_swap ho
  obtain ⟨fp, hfp, e1, e2⟩ := h.feet
  unfold MinJerk.computeNewTrajectories
  rw [e1, e2, h.shifts, footPrint_steps, footPrint_steps, minJerk_foot hp _ _ _ _ _ hfp, minJerk_foot hp _ _ _ _ _ hfp, h1, h2]
  exact ⟨_, rfl, rfl⟩

theorem height (c : HeightSettings K) (dT : K) (phases : List Phase) (shifts : List Nat) :
    CoMHeight.computeNewTrajectories c dT (phases.map phase) shifts = CoMHeight.computeNewTrajectories c dT phases shifts := by
  unfold CoMHeight.computeNewTrajectories overPhases
  have := phaseLoop_both (id : Unit → Unit) (id : Motion K → Motion K) phase (CoMHeight.body c dT) (CoMHeight.body c dT) phases
    (fun a b p d e s => by
      have e0 : ∀ x : Out (Unit × List (Motion K)), (x.map fun r => (id r.1, r.2.map id)) = x := by
        intro x; cases x <;> simp [Out.map]
      rw [e0]
      cases p <;> rfl) shifts.tail 1 0 ()
  have e0 : ∀ x : Out (Unit × List (Motion K)), (x.map fun r => (id r.1, r.2.map id)) = x := by
    intro x; cases x <;> simp [Out.map]
  rw [e0] at this
  simp only [id] at this
  rw [this]

end Mirror
end Spec
end Uni
