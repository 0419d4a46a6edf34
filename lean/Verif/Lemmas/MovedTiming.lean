import Verif.Lemmas.Moved

/-! # Displacements: timings and feet -/

set_option autoImplicit false
set_option linter.unusedSectionVars false

namespace Uni.Spec.Move
variable (g : Move)

/-- The timings later. -/
noncomputable def timing (t : Timing ℝ) : Timing ℝ := { t with prevTime := t.prevTime + g.delay }

theorem adjacentDup (l : List (Ptr ℝ)) : Gen.adjacentDup (l.map g.ptr) = Gen.adjacentDup l := by
  induction l with
  | nil => rfl
  | cons a l ih =>
    cases l with
    | nil => rfl
    | cons b l =>
      simp only [List.map_cons, Gen.adjacentDup] at ih ⊢
      rw [ih]; simp

theorem orderSteps (l : List (Ptr ℝ)) : Gen.orderSteps (l.map g.ptr) = (Gen.orderSteps l).map (List.map g.ptr) := by
  rcases l with _ | ⟨a, _ | ⟨b, rest⟩⟩
  · rfl
  · rfl
  · simp only [List.map_cons, Gen.orderSteps]
    rw [adjacentDup]
    split
    · rfl
    · rcases rest with _ | ⟨c, rest⟩
      · rfl
      · simp only [List.map_cons, ptr_step, step_impactTime, step_footName, add_left_inj]
        split <;> rfl

theorem addStep_timing (cfg : GenSettings ℝ) (dT : ℝ) (nl nr : Nat) (first half : Bool) (q : Ptr ℝ) (s : Timing ℝ) :
    Gen.addStep cfg dT nl nr first half (g.ptr q) (g.timing s) = (Gen.addStep cfg dT nl nr first half q s).map g.timing := by
  unfold Gen.addStep
  have e : (g.ptr q).step.impactTime - (g.timing s).prevTime = q.step.impactTime - s.prevTime := by
    simp only [ptr_step, step_impactTime, timing]; ring
  rw [e]
  have hw : Gen.whichSwings (g.ptr q) (g.timing s).leftIndex (g.timing s).rightIndex =
      Gen.whichSwings q s.leftIndex s.rightIndex := rfl
  rw [hw]
  by_cases h : q.step.impactTime - s.prevTime < 0
  · simp only [if_pos h, Out.map_fail]
  · simp only [if_neg h, Out.map_bind]
    refine Out.bind_congr fun a => Out.bind_congr fun b => Out.bind_congr fun c => Out.bind_congr fun d =>
      Out.bind_congr fun m => ?_
    simp only [Out.map_ok, timing, ptr_left, ptr_index, Out.ok.injEq, Timing.mk.injEq, true_and, and_true]
    exact ⟨by ring, rfl⟩

theorem addSteps_timing (cfg : GenSettings ℝ) (dT : ℝ) (nl nr : Nat) (half : Bool) (l : List (Ptr ℝ)) :
    ∀ (first : Bool) (s : Timing ℝ), Gen.addSteps cfg dT nl nr first half (l.map g.ptr) (g.timing s) =
      (Gen.addSteps cfg dT nl nr first half l s).map g.timing := by
  induction l with
  | nil => intro first s; rfl
  | cons q l ih =>
    intro first s
    simp only [List.map_cons, Gen.addSteps]
    rw [addStep_timing, Out.bind_map, Out.map_bind]
    exact Out.bind_congr fun s => ih false s

theorem lastTiming_timing (cfg : GenSettings ℝ) (dT : ℝ) (nl nr : Nat) (half : Bool) (l : List (Ptr ℝ)) :
    ∀ (first : Bool) (s : Timing ℝ), Gen.lastTiming cfg dT nl nr first half (l.map g.ptr) (g.timing s) =
      g.timing (Gen.lastTiming cfg dT nl nr first half l s) := by
  induction l with
  | nil => intro first s; rfl
  | cons q l ih =>
    intro first s
    simp only [List.map_cons, Gen.lastTiming]
    rw [addStep_timing]
    cases Gen.addStep cfg dT nl nr first (first && half) q s with
    | ok s => exact ih false s
    | fail => rfl
    | ub w => rfl

theorem addLast_timing (cfg : GenSettings ℝ) (dT : ℝ) (s : Timing ℝ) :
    Gen.addLast cfg dT (g.timing s) = (Gen.addLast cfg dT s).map g.timing := by
  unfold Gen.addLast
  simp only [Out.map_bind]
  rfl

theorem createPhasesTimings (cfg : GenSettings ℝ) (initTime dT : ℝ) (left right : List (Step ℝ)) (ordered : List (Ptr ℝ)) :
    Gen.createPhasesTimings cfg (initTime + g.delay) dT (left.map g.step) (right.map g.step) (ordered.map g.ptr) =
      (Gen.createPhasesTimings cfg initTime dT left right ordered).map g.timing := by
  unfold Gen.createPhasesTimings
  rcases left with _ | ⟨l, left⟩
  · rfl
  rcases right with _ | ⟨r, right⟩
  · rfl
  rw [List.getLast?_map]
  cases h : ordered.getLast? with
  | none => rfl
  | some last =>
    simp only [List.map_cons, Option.map_some, List.length_map]
    split
    · simp only [Out.map_bind]
      refine Out.bind_congr fun n => ?_
      simp [timing]
    · have e : (g.ptr last).step.impactTime - (initTime + g.delay) + cfg.endSwitch =
          last.step.impactTime - initTime + cfg.endSwitch := by
        simp only [ptr_step, step_impactTime]; ring
      rw [e]
      split
      · rfl
      · simp only [Out.map_bind, step_impactTime, ne_eq, add_left_inj, ← List.map_drop, List.length_cons, List.length_map]
        have := g.addSteps_timing cfg dT (left.length + 1) (right.length + 1) (decide (¬l.impactTime = r.impactTime))
          (ordered.drop 2) true ⟨[], [], [0], [0], 1, 1, initTime, false, false⟩
        have e2 : g.timing ⟨[], [], [0], [0], 1, 1, initTime, false, false⟩ =
          ⟨[], [], [0], [0], 1, 1, initTime + g.delay, false, false⟩ := rfl
        rw [e2] at this
        rw [this, Out.bind_map]
        exact Out.bind_congr fun s => g.addLast_timing cfg dT s

theorem timeline (cfg : GenSettings ℝ) (left right : FootPrint ℝ) (initTime dT : ℝ) (sorted : List (Ptr ℝ)) :
    Gen.timeline cfg (g.footPrint left) (g.footPrint right) (initTime + g.delay) dT (sorted.map g.ptr) =
      (Gen.timeline cfg left right initTime dT sorted).map fun o => (o.1.map g.ptr, g.timing o.2) := by
  unfold Gen.timeline
  simp only [footPrint_steps, footPrint_footName]
  rcases hl : left.steps with _ | ⟨l, ls⟩
  · rfl
  rcases hr : right.steps with _ | ⟨r, rs⟩
  · rfl
  simp only [List.map_cons, step_impactTime]
  have e : (initTime + g.delay < max (l.impactTime + g.delay) (r.impactTime + g.delay)) ↔
      initTime < max l.impactTime r.impactTime := by
    rw [max_add_add_right]; exact add_lt_add_iff_right _
  simp only [e]
  split
  · rfl
  split
  · rfl
  split
  · rfl
  rw [orderSteps, Out.bind_map, Out.map_bind]
  refine Out.bind_congr fun o => ?_
  have := g.createPhasesTimings { cfg with nominalSwitchTime := cfg.switchPercentage * cfg.nominalStepTime } initTime dT
    (l :: ls) (r :: rs) o
  rw [← List.map_cons, ← List.map_cons, this, Out.bind_map, Out.map_bind]
  rfl

theorem outputsAfter (cfg : GenSettings ℝ) (left right : FootPrint ℝ) (initTime dT : ℝ) (sorted : List (Ptr ℝ))
    (o : GenOutputs) :
    Gen.outputsAfter cfg (g.footPrint left) (g.footPrint right) (initTime + g.delay) dT (sorted.map g.ptr) o =
      Gen.outputsAfter cfg left right initTime dT sorted o := by
  unfold Gen.outputsAfter
  rw [timeline]
  cases h : Gen.timeline cfg left right initTime dT sorted with
  | ok t => rfl
  | ub w => rfl
  | fail =>
    simp only [Out.map_fail, footPrint_steps, footPrint_footName]
    rcases hl : left.steps with _ | ⟨l, ls⟩
    · rfl
    rcases hr : right.steps with _ | ⟨r, rs⟩
    · rfl
    simp only [List.map_cons, step_impactTime]
    have e : (initTime + g.delay < max (l.impactTime + g.delay) (r.impactTime + g.delay)) ↔
        initTime < max l.impactTime r.impactTime := by
      rw [max_add_add_right]; exact add_lt_add_iff_right _
    simp only [e, orderSteps]
    split
    · rfl
    split
    · rfl
    split
    · rfl
    cases ho : Gen.orderSteps sorted with
    | fail => rfl
    | ub w => rfl
    | ok o =>
      simp only [Out.map_ok, ne_eq, add_left_inj, ← List.map_drop, List.length_cons, List.length_map]
      have := g.lastTiming_timing { cfg with nominalSwitchTime := cfg.switchPercentage * cfg.nominalStepTime } dT
        (ls.length + 1) (rs.length + 1) (decide (¬l.impactTime = r.impactTime))
        (o.drop 2) true ⟨[], [], [0], [0], 1, 1, initTime, false, false⟩
      have e2 : g.timing ⟨[], [], [0], [0], 1, 1, initTime, false, false⟩ =
        ⟨[], [], [0], [0], 1, 1, initTime + g.delay, false, false⟩ := rfl
      rw [e2] at this
      rw [this]
      rfl

/-! ## Feet -/

theorem phaseLoop_map {S O : Type} (fs : S → S) (fo : O → O)
    (body body' : Nat → Bool → Phase → Nat → Nat → S → Out (S × List O)) (phases : List Phase)
    (h : ∀ a b c d e s, body' a b c d e (fs s) = (body a b c d e s).map fun r => (fs r.1, r.2.map fo)) (shifts : List Nat) :
    ∀ (phase start : Nat) (s : S), phaseLoop body' phases shifts phase start (fs s) =
      (phaseLoop body phases shifts phase start s).map fun r => (fs r.1, r.2.map fo) := by
  induction shifts with
  | nil => intro phase start s; rfl
  | cons stop rest ih =>
    intro phase start s
    simp only [phaseLoop]
    cases phases[start]? with
    | none => rfl
    | some p =>
      simp only
      split
      · rfl
      split
      · rfl
      rw [h, Out.bind_map, Out.map_bind]
      refine Out.bind_congr fun a => ?_
      simp only [ih, Out.bind_map, Out.map_bind]
      refine Out.bind_congr fun b => ?_
      simp

theorem footBody_map (swing : Step ℝ → Step ℝ → Nat → Out (List (FootSample ℝ)))
    (h : ∀ s s' n, swing (g.step s) (g.step s') n = (swing s s' n).map (List.map g.foot)) (a : Nat) (b : Bool) (p : Phase)
    (start stop : Nat) (steps : List (Step ℝ)) :
    footBody swing a b p start stop (steps.map g.step) =
      (footBody swing a b p start stop steps).map fun r => (r.1.map g.step, r.2.map g.foot) := by
  rcases steps with _ | ⟨s, rest⟩
  · rfl
  simp only [List.map_cons, footBody]
  split
  · rcases rest with _ | ⟨s', rest⟩
    · rfl
    simp only [List.map_cons]
    rw [h, Out.bind_map, Out.map_bind]
    rfl
  · simp only [Out.map_ok, List.map_cons, List.map_replicate, Out.ok.injEq, Prod.mk.injEq, true_and]
    congr 1
    ext <;> simp [restAt, foot, vector3, vector, point]

/-- A swing: the horizontal part of the motion is a combination of the two contacts. -/
theorem sampleOf_map {x y z pitch yaw x' y' yaw' : Motion ℝ}
    (hx : x'.pos = Real.cos g.turn * x.pos - Real.sin g.turn * y.pos + g.shift.x)
    (hy : y'.pos = Real.sin g.turn * x.pos + Real.cos g.turn * y.pos + g.shift.y)
    (hxv : x'.vel = Real.cos g.turn * x.vel - Real.sin g.turn * y.vel)
    (hyv : y'.vel = Real.sin g.turn * x.vel + Real.cos g.turn * y.vel)
    (hxa : x'.acc = Real.cos g.turn * x.acc - Real.sin g.turn * y.acc)
    (hya : y'.acc = Real.sin g.turn * x.acc + Real.cos g.turn * y.acc)
    (hp : yaw'.pos = yaw.pos + g.turn) (hv : yaw'.vel = yaw.vel) (ha : yaw'.acc = yaw.acc) :
    sampleOf x' y' z pitch yaw' = g.foot (sampleOf x y z pitch yaw) := by
  simp only [sampleOf, foot, FootSample.mk.injEq, Vec3.mk.injEq, vector3, vector, point, rightTrivialized,
    rightTrivializedRate, hx, hy, hxv, hyv, hxa, hya, hp, hv, ha, cos_real, sin_real, Real.cos_add, Real.sin_add, true_and,
    and_true]
  refine ⟨⟨?_, ?_⟩, ?_, ?_⟩ <;> ring

theorem hermite_pos (a b T t : ℝ) : (hermite a 0 b 0 T t).pos =
    a + (3 * (b - a) / T) / T * t ^ 2 + (-(2 * (b - a) / T)) / T ^ 2 * t ^ 3 := by
  simp only [hermite]; ring

theorem cubic_swing (c : FeetSettings ℝ) (z0 dT : ℝ) (s s' : Step ℝ) (n : Nat) :
    CubicFeet.swing c z0 dT (g.step s) (g.step s') n = (CubicFeet.swing c z0 dT s s' n).map (List.map g.foot) := by
  unfold CubicFeet.swing spline2
  by_cases hT : (n : ℝ) * dT ≤ 0
  · simp only [if_pos hT, Out.bind_fail, Out.map_fail]
  simp only [if_neg hT, Out.bind_ok]
  rw [Out.map_bind]
  refine Out.bind_congr fun z => ?_
  rw [Out.map_bind]
  refine Out.bind_congr fun p => ?_
  simp only [Out.map_ok, List.map_map, Out.ok.injEq]
  refine List.map_congr_left fun j _ => ?_
  simp only [Function.comp]
  refine g.sampleOf_map ?_ ?_ ?_ ?_ ?_ ?_ ?_ ?_ ?_ <;> simp only [hermite, step_position, step_angle, point] <;> ring

theorem minJerk_sample (dT : ℝ) (s s' : Step ℝ) (n : Nat) (z0 z1 p0 p1 half : ℝ) (j0 j : Nat) :
    MinJerk.swingSample dT (g.step s) (g.step s') n z0 z1 p0 p1 half j0 j =
      (MinJerk.swingSample dT s s' n z0 z1 p0 p1 half j0 j).map g.foot := by
  unfold MinJerk.swingSample
  by_cases hT : (n : ℝ) * dT = 0
  · simp [minimumJerk, hT]
  by_cases h' : (j : ℝ) * dT / (n * dT) < 0 ∨ 1 < (j : ℝ) * dT / (n * dT)
  · have h0 : ∀ a b : ℝ, minimumJerk a b ((j : ℝ) * dT) (n * dT) = .fail := by
      intro a b; unfold minimumJerk; rw [if_neg hT]; simp only [if_pos h']
    simp only [h0, Out.bind_fail, Out.map_fail]
  · obtain ⟨p, dp, ddp, h0⟩ : ∃ p dp ddp : ℝ, ∀ a b : ℝ, minimumJerk a b ((j : ℝ) * dT) (n * dT) =
        .ok ⟨p * (b - a) + a, dp * (b - a), ddp * (b - a)⟩ := by
      let u : ℝ := (j : ℝ) * dT / (n * dT)
      refine ⟨6 * u ^ 5 - 15 * u ^ 4 + 10 * u ^ 3,
        (5 * 6 * u ^ 4 - 4 * 15 * u ^ 3 + 3 * 10 * u ^ 2) / (n * dT),
        (4 * 5 * 6 * u ^ 3 - 3 * 4 * 15 * u ^ 2 + 2 * 3 * 10 * u) / (n * dT) ^ 2, fun a b => ?_⟩
      unfold minimumJerk
      rw [if_neg hT]
      simp only [if_neg h', u]
    simp only [h0, Out.bind_ok]
    rw [Out.map_bind]
    refine Out.bind_congr fun z => ?_
    rw [Out.map_bind]
    refine Out.bind_congr fun p => ?_
    simp only [Out.map_ok, Out.ok.injEq]
    refine g.sampleOf_map ?_ ?_ ?_ ?_ ?_ ?_ ?_ ?_ ?_ <;> simp only [step_position, step_angle, point] <;> ring

theorem collect_map {α β : Type} (f : Nat → Out α) (f' : Nat → Out β) (k : α → β) (h : ∀ j, f' j = (f j).map k)
    (l : List Nat) : MinJerk.collect f' l = (MinJerk.collect f l).map (List.map k) := by
  induction l with
  | nil => rfl
  | cons j l ih =>
    simp only [MinJerk.collect, h, ih, Out.bind_map, Out.map_bind, Out.map_ok, List.map_cons]

theorem minJerk_swing (c : FeetSettings ℝ) (dT : ℝ) (s s' : Step ℝ) (n : Nat) :
    MinJerk.swing c dT (g.step s) (g.step s') n = (MinJerk.swing c dT s s' n).map (List.map g.foot) := by
  unfold MinJerk.swing
  simp only [collect_map _ _ g.foot (g.minJerk_sample dT s s' n _ _ _ _ _ _), Out.bind_map, Out.map_bind, Out.map_ok,
    List.map_append]

theorem cubic_foot (c : FeetSettings ℝ) (z0 dT : ℝ) (shifts : List Nat) (phases : List Phase) (steps : List (Step ℝ)) :
    CubicFeet.interpolateFoot c z0 dT shifts phases (steps.map g.step) =
      (CubicFeet.interpolateFoot c z0 dT shifts phases steps).map (List.map g.foot) := by
  unfold CubicFeet.interpolateFoot overPhases
  split
  · rfl
  rw [phaseLoop_map (List.map g.step) g.foot _ _ phases (g.footBody_map _ (g.cubic_swing c z0 dT)), Out.bind_map, Out.map_bind]
  rfl

theorem minJerk_foot (c : FeetSettings ℝ) (dT : ℝ) (shifts : List Nat) (phases : List Phase) (steps : List (Step ℝ)) :
    MinJerk.interpolateFoot c dT shifts phases (steps.map g.step) =
      (MinJerk.interpolateFoot c dT shifts phases steps).map (List.map g.foot) := by
  unfold MinJerk.interpolateFoot overPhases
  split
  · rfl
  rw [phaseLoop_map (List.map g.step) g.foot _ _ phases (g.footBody_map _ (g.minJerk_swing c dT)), Out.bind_map, Out.map_bind]
  rfl

theorem cubic_feet (c : FeetSettings ℝ) (z0 dT : ℝ) (left right : FootPrint ℝ) (lp rp : List Phase) (shifts : List Nat) :
    CubicFeet.computeNewTrajectories c z0 dT (g.footPrint left) (g.footPrint right) lp rp shifts =
      (CubicFeet.computeNewTrajectories c z0 dT left right lp rp shifts).map g.feet := by
  unfold CubicFeet.computeNewTrajectories
  simp only [footPrint_steps, cubic_foot, Out.bind_map, Out.map_bind]
  rfl

theorem minJerk_feet (c : FeetSettings ℝ) (dT : ℝ) (left right : FootPrint ℝ) (lp rp : List Phase) (shifts : List Nat) :
    MinJerk.computeNewTrajectories c dT (g.footPrint left) (g.footPrint right) lp rp shifts =
      (MinJerk.computeNewTrajectories c dT left right lp rp shifts).map g.feet := by
  unfold MinJerk.computeNewTrajectories
  simp only [footPrint_steps, minJerk_foot, Out.bind_map, Out.map_bind]
  rfl

end Uni.Spec.Move
