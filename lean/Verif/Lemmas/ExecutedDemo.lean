import Verif.Lemmas.Executed

/-! # A walk that is replaced twice, for the examples of `Verif.Props.Executed` and `Verif.Props.Stride` -/

set_option autoImplicit false
set_option linter.unusedSectionVars false

namespace Uni.Walker.Demo
open Spec Gen

/-- Rational stand-ins, good enough for examples that go straight ahead. -/
@[reducible] def flat : Trig ℚ :=
  ⟨fun _ => 1, fun _ => 0, fun q => Nat.sqrt (⌊q * 10 ^ 8⌋₊) / 10 ^ 4, fun x => 1 + x, fun _ => 0, fun _ _ => 0, 22 / 7⟩

attribute [local instance] flat

/-- The unicycle goes straight ahead. -/
def onward : Integrator ℚ := fun p u t0 _ =>
  (p.ctrl, some fun t => ⟨⟨u.position.x + (t - t0) / 40, u.position.y⟩, u.angle⟩)

/-- Every generator attached. -/
def equipped : Walker ℚ := (Walker.new 0).runAll [.planner (.setPlannerPeriod (1 / 2)), .planner (.setUnicycleController .direct),
  .addCubic, .cubic (.setStepHeight (1 / 10)), .addMinJerk, .minJerk (.setStepHeight (1 / 10)),
  .addZmp ⟨0, 0, 0, 0, ⟨0, 0, 0⟩, true, ⟨0, 0, 0, ""⟩, ⟨0, 0, 0, ""⟩, true, []⟩,
  .addDcm, .dcm (.setOmega 1), .addHeight, .height 1 (1 / 10)]

/-- The left foot is measured a bit away from where it is at merge point `k`. -/
def nudge (w : Walker ℚ) (k : Nat) : Request ℚ :=
  match w.outputs.merges[k]?.bind fun m => w.minJerk.bind fun p => p.result.bind fun o => o.1[m]? with
  | some s => .oneFoot true ⟨s.pos.x + 1 / 100, s.pos.y - 1 / 200⟩ s.yaw
  | none => .plain

/-- The walk is replaced at merge point `k`. -/
def replaced (w : Walker ℚ) (start : ℚ) (k : Nat) (endTime : ℚ) (q : Request ℚ) : Option (Walker ℚ × Nat) :=
  match w.outputs.merges[k]?, w.zmp, w.dcm with
  | some m, some z, some d =>
    match z.state.initStates[k]?, d.result.bind (fun o => o.samples[m]?) with
    | some wt, some s =>
      match (w.runAll (([] : List (Planner.Op ℚ)).map .planner ++ [.zmp (.setWeightInitialState wt), .dcm (.setDCMInitialState s.pos s.vel)])).reGenerate
          onward 1000 insertion (m * (1 / 2) + start) (1 / 2) endTime q with
      | .done true n => some (n, m)
      | _ => none
    | _, _ => none
  | _, _, _ => none

theorem replaced_merging {before w n : Walker ℚ} {fuel : Nat} {c : Call ℚ} {k m : Nat} {endTime : ℚ}
    {q : Request ℚ} (hr : Reached onward insertion before) (hc : before.call onward fuel insertion c = .done true w) (hd : (timesOf c).2 = 1 / 2)
    (h : replaced w (timesOf c).1 k endTime q = some (n, m)) : Merging onward insertion before w n c k m q (1 / 2) := by
  unfold replaced at h
  split at h
  case h_2 => cases h
  rename_i m0 z d hm hz hd'
  split at h
  case h_2 => cases h
  rename_i wt s hwt hs
  split at h
  case h_2 => cases h
  rename_i n0 hn
  cases h
  refine ⟨hr, ⟨fuel, hc⟩, hm, 1000, [], wt, s.pos, s.vel, endTime, ?_, ?_, ?_⟩
  · intro p hp
    rw [hz] at hp
    cases hp
    exact hwt
  · intro p o hp ho
    rw [hd'] at hp
    cases hp
    rw [ho, Option.bind_some] at hs
    exact ⟨s, hs, rfl, rfl⟩
  · rw [timeOf, hd]; exact hn

/-- How `replaced` continues. -/
theorem replaced_call {w n : Walker ℚ} {start : ℚ} {k m : Nat} {endTime : ℚ} {q : Request ℚ} (hr : Reached onward insertion w)
    (h : replaced w start k endTime q = some (n, m)) :
    ∃ before, Reached onward insertion before ∧
      before.call onward 1000 insertion (.reGenerate (m * (1 / 2) + start) (1 / 2) endTime q) = .done true n := by
  unfold replaced at h
  split at h
  case h_2 => cases h
  split at h
  case h_2 => cases h
  split at h
  case h_2 => cases h
  rename_i n0 hn
  cases h
  exact ⟨_, Reached.runAll _ hr, hn⟩

/-- Decides `LongPhases` for one sample. -/
def long (w : Walker ℚ) (time : ℚ) : Bool :=
  match timeline w.cfg w.left w.right time (1 / 2) (insertion w.left w.right) with
  | .ok (_, t) => (List.range t.shifts.length).all fun i =>
    match t.shifts[i]?, t.shifts[i + 1]? with
    | some a, some b => decide (a + 2 ≤ b)
    | _, _ => true
  | _ => true

theorem long_iff {w : Walker ℚ} {time : ℚ} (h : long w time = true) : LongPhases insertion (1 / 2) 2 w time := by
  refine ⟨by norm_num, fun o t ht i a b ha hb => ?_⟩
  unfold long at h
  rw [ht] at h
  simp only [List.all_eq_true, List.mem_range] at h
  have := h i (List.getElem?_eq_some_iff.mp ha).1
  rw [ha, hb] at this
  simpa using this

def altFrom (l r : List (Step ℚ)) : Bool := (List.range l.length).all fun i =>
  match l[i + 1]?, l[i + 2]? with
  | some a, some b => r.any fun s => decide (a.impactTime < s.impactTime) && decide (s.impactTime < b.impactTime)
  | _, _ => true

theorem altFrom_iff {l r : List (Step ℚ)} (h : altFrom l r = true) (i : Nat) (a b : Step ℚ) (ha : l[i + 1]? = some a)
    (hb : l[i + 2]? = some b) : ∃ s ∈ r, a.impactTime < s.impactTime ∧ s.impactTime < b.impactTime := by
  simp only [altFrom, List.all_eq_true, List.mem_range] at h
  have := h i (by have := (List.getElem?_eq_some_iff.mp ha).1; omega)
  rw [ha, hb] at this
  simpa using this

/-- The conditions on a walk. -/
def fine (w : Walker ℚ) (time : ℚ) : Bool :=
  w.left.steps.all (fun s => decide (0 ≤ s.impactTime)) && w.right.steps.all (fun s => decide (0 ≤ s.impactTime)) && long w time &&
  w.cubic.any (fun p => decide (0 ≤ p.state.stepHeight)) && w.minJerk.any (fun p => decide (0 ≤ p.state.stepHeight)) &&
  w.height.any (fun p => decide (|p.state.delta| ≤ 1 / 10)) && altFrom w.left.steps w.right.steps && altFrom w.right.steps w.left.steps &&
  decide (w.cfg = equipped.cfg)

/-- The conditions on where it is left. -/
def stands (w : Walker ℚ) (m : Nat) : Bool :=
  decide (w.outputs.leftContact[m]? = some true ∧ w.outputs.rightContact[m]? = some true) &&
  decide (w.outputs.leftContact[m - 1]? = some true ∧ w.outputs.rightContact[m - 1]? = some true) &&
  (List.range m).any fun j => decide (w.outputs.leftContact[j]? = some false ∨ w.outputs.rightContact[j]? = some false)

def execution : Option ((Walker ℚ × Nat) × (Walker ℚ × Nat) × Walker ℚ) :=
  match equipped.call onward 1000 insertion (.generate 0 (1 / 2) 10) with
  | .done true w =>
    match replaced w 0 1 15 .plain with
    | some (w', m) =>
      match replaced w' (m * (1 / 2) + 0) 1 20 (nudge w' 1) with
      | some (w'', m') => some ((w, m), (w', m'), w'')
      | none => none
    | none => none
  | _ => none

/-- Decides `CloseMeasurement` of the left foot. -/
def close {S : Type} (plugin : Walker ℚ → Option (Plugin S (FeetOut ℚ))) (e a : ℚ) (l : Leg ℚ) : Bool :=
  match measuredOf true l.request, (footOf plugin true l.walk)[l.count]? with
  | some (p, angle), some x => decide (|p.x - x.2.pos.x| ≤ e ∧ |p.y - x.2.pos.y| ≤ e ∧ |turnBetween x.2.yaw angle| ≤ a)
  | _, _ => true

theorem close_iff {S : Type} {plugin : Walker ℚ → Option (Plugin S (FeetOut ℚ))} {e a : ℚ} {l : Leg ℚ}
    (h : close plugin e a l = true) : CloseMeasurement plugin true e a l := by
  intro p angle x h1 h2
  unfold close at h
  rw [h1, h2] at h
  simpa using h

def executionCheck : Bool :=
  match execution with
  | some ((w, m), (w', m'), w'') => fine w 0 && fine w' (m * (1 / 2) + 0) && fine w'' (m' * (1 / 2) + (m * (1 / 2) + 0)) && stands w m && stands w' m' &&
    decide (((executed (footOf Walker.minJerk true) [⟨w, 0, m, .plain⟩, ⟨w', m * (1 / 2) + 0, m', nudge w' 1⟩] w'').map (·.2.pos.x)).getLast? = some (37 / 80)) &&
    close Walker.cubic (1 / 100) 0 ⟨w', m * (1 / 2) + 0, m', nudge w' 1⟩ && close Walker.minJerk (1 / 100) 0 ⟨w', m * (1 / 2) + 0, m', nudge w' 1⟩ &&
    decide (measuredOf true (nudge w' 1) ≠ none ∧ measuredOf false (nudge w' 1) = none ∧ 0 < m ∧ 0 < m') &&
    decide ((loadsOf true w)[0]? = some (1 / 2, 0))
  | none => false

theorem execution_checked : executionCheck = true := by decide +kernel

theorem fine_iff {w : Walker ℚ} {time : ℚ} (h : fine w time = true) :
    (NonNeg w.left ∧ NonNeg w.right) ∧ LongPhases insertion (1 / 2) 2 w time ∧ (∀ p, w.cubic = some p → 0 ≤ p.state.stepHeight) ∧
    (∀ p, w.minJerk = some p → 0 ≤ p.state.stepHeight) ∧ (∀ p, w.height = some p → |p.state.delta| ≤ 1 / 10) ∧
    Alternating w.left.steps w.right.steps ∧ w.cfg = equipped.cfg := by
  unfold fine at h
  simp only [Bool.and_eq_true, List.all_eq_true, decide_eq_true_eq] at h
  obtain ⟨⟨⟨⟨⟨⟨⟨⟨h1, h2⟩, h3⟩, h4⟩, h5⟩, h6⟩, h7⟩, h8⟩, h9⟩ := h
  refine ⟨⟨h1, h2⟩, long_iff h3, fun p hp => ?_, fun p hp => ?_, fun p hp => ?_, ⟨altFrom_iff h7, altFrom_iff h8⟩, h9⟩
  · rw [hp] at h4; simpa using h4
  · rw [hp] at h5; simpa using h5
  · rw [hp] at h6; simpa using h6

theorem stands_iff {w : Walker ℚ} {t : ℚ} {m : Nat} {q : Request ℚ} (h : stands w m = true) :
    LeftStanding ⟨w, t, m, q⟩ ∧ LeftWalking ⟨w, t, m, q⟩ := by
  unfold stands at h
  simp only [Bool.and_eq_true, decide_eq_true_eq, List.any_eq_true, List.mem_range] at h
  obtain ⟨⟨h1, h2⟩, j, h3, h4⟩ := h
  refine ⟨⟨h1, fun j hj => ?_⟩, j, h3, fun hd => ?_⟩
  · have : j = m - 1 := by simp only at hj; omega
    rw [this]; exact h2
  · rcases h4 with h4 | h4
    · have := hd.1; rw [h4] at this; cases this
    · have := hd.2; rw [h4] at this; cases this

end Uni.Walker.Demo
