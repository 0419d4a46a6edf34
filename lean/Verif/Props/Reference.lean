import Verif.Props.PersonFollowing
import Verif.Props.Settings

/-! # C13 for the planner: the reference over any history -/

set_option autoImplicit false
set_option linter.unusedSectionVars false

namespace Uni.Planner
open Spec PersonCtrl
variable {K : Type*} [Field K] [LinearOrder K] [IsStrictOrderedRing K] [Trig K]

/-- The reference of a planner. -/
abbrev reference (p : Planner K) : List (TrajPoint K) := p.ctrl.person.traj

theorem setDesiredPoint_ordered {c : PersonCtrl K} (h : InTimeOrder c.traj) (q : TrajPoint K) :
    InTimeOrder (c.setDesiredPoint q).2.traj := by
  unfold PersonCtrl.setDesiredPoint
  split_ifs
  · exact h
  · have htotal : Std.Total fun a b : TrajPoint K => a.initTime ≤ b.initTime := ⟨fun a b => le_total _ _⟩
    have htrans : IsTrans (TrajPoint K) fun a b => a.initTime ≤ b.initTime := ⟨fun a b c => le_trans⟩
    exact List.pairwise_insertionSort _ _

theorem run_ordered {p : Planner K} (h : InTimeOrder p.reference) (o : Op K) : InTimeOrder (p.run o).2.reference := by
  cases o
  case addPoint t y yDot => exact setDesiredPoint_ordered h _
  case clearDesiredTrajectory => exact List.Pairwise.nil
  all_goals
    simp only [run, setPerson, onAllControllers, setSaturationsConservativeFactors, setMaximumIntegratorStepSize,
      setMaxStepLength, setMaxStepLengthBackward, setMaxAngleVariation, setCostWeights, setStepTimings,
      setPlannerPeriod, setMinimumAngleForNewSteps, setMinimumStepLength, setWidthSetting, setFreeSpaceEllipseMethod,
      setFreeSpaceEllipse, PersonCtrl.setPersonDistance, PersonCtrl.setGain, PersonCtrl.setFreeSpaceEllipse,
      PersonCtrl.setConservativeFactor, PersonCtrl.setInnerOffsets]
    (repeat' split) <;> exact h

theorem setSaturations_reference (p : Planner K) : p.setSaturations.2.reference = p.reference := by
  unfold setSaturations
  simp only
  split
  · rfl
  · split
    · rfl
    · split_ifs <;> rfl

theorem chooseSwing_reference (p : Planner K) : p.chooseSwing.reference = p.reference := by
  unfold chooseSwing
  simp only
  split_ifs <;> rfl

theorem initReferences_ordered {p : Planner K} (h : InTimeOrder p.reference) (left right : Foot K) (u : UState K) (tf t0 : K) :
    ∀ q ∈ (p.initReferences left right u tf t0).planner, InTimeOrder q.reference := by
  unfold initReferences
  intro q hq
  split_ifs at hq with h1
  · cases hq; exact h
  simp only at hq
  split at hq
  · cases hq; exact h
  · rename_i e
    have h1 := setDesiredPoint_ordered h ⟨t0, p.ctrl.person.getPersonPosition u.position u.angle, 0⟩
    rw [e] at h1
    split_ifs at hq
    · split at hq
      · cases hq; exact h1
      · rename_i e'
        cases hq
        rw [chooseSwing_reference]
        have h2 := setDesiredPoint_ordered h1 ⟨t0 + p.nominalTime - p.minTime, p.ctrl.person.getPersonPosition u.position u.angle, 0⟩
        rw [e'] at h2
        exact h2
    · cases hq
      rw [chooseSwing_reference]
      exact h1

theorem getInitialState_ordered {p : Planner K} (h : InTimeOrder p.reference) (left right : Foot K) (t0 : K) :
    ∀ q ∈ (p.getInitialStateFromFeet left right t0).planner, InTimeOrder q.reference := by
  unfold getInitialStateFromFeet
  intro q hq
  have key : ∀ (b f : Bool) (u : UState K) (tf : K),
      q ∈ (initReferences { p with swingLeft := b, firstStep := f } left right u tf t0).planner → InTimeOrder q.reference :=
    fun b f u tf hq => initReferences_ordered (p := { p with swingLeft := b, firstStep := f }) h left right u tf t0 q hq
  split at hq
  · split at hq
    · cases hq; exact h
    · cases hq
    · cases hq
      rw [chooseSwing_reference]
      exact h
  · split at hq
    · cases hq; exact h
    · exact key _ _ _ _ hq
  · split at hq
    · cases hq; exact h
    · exact key _ _ _ _ hq
  · split_ifs at hq <;> split at hq <;> first | (cases hq; exact h) | exact key _ _ _ _ hq

/-- The integrator evaluates the control law; it does not touch the reference. -/
def KeepsReference (integ : Integrator K) : Prop :=
  ∀ (p : Planner K) (u : UState K) (t0 t1 : K), (integ p u t0 t1).1.person.traj = p.ctrl.person.traj

theorem initializePlanner_ordered {p : Planner K} {integ : Integrator K} (hi : KeepsReference integ) (h : InTimeOrder p.reference)
    (left right : Foot K) : ∀ q ∈ (p.initializePlanner integ left right).planner, InTimeOrder q.reference := by
  unfold initializePlanner
  intro q hq
  split at hq
  · rename_i l r _ _
    have key := getInitialState_ordered h l r p.initTime
    split at hq
    · rename_i e
      rw [e] at key
      cases hq
      exact key _ rfl
    · cases hq
    · rename_i e
      rw [e] at key
      have := key _ rfl
      rename_i p1 _ _ u
      have hk := hi p1 u p1.initTime p1.endTime
      split_ifs at hq
      · cases hq; exact this
      · split at hq
        · rename_i e'
          rw [e'] at hk
          cases hq
          show InTimeOrder _
          simp only at hk
          rw [reference, hk]; exact this
        · rename_i e'
          rw [e'] at hk
          cases hq
          simp only at hk
          rw [reference, hk]; exact this
  · cases hq; exact h

theorem plan_reference (p : Planner K) (sol : K → UState K) (fuel : Nat) (left right : Foot K) :
    ∀ q ∈ (p.plan sol fuel left right).planner, q.reference = p.reference := by
  unfold plan
  intro q hq
  split at hq
  · cases hq; rfl
  · split at hq
    · cases hq
    · cases hq; rfl
    · rename_i s _
      unfold finish at hq
      simp only at hq
      generalize (if p.addTerminal = true then
        addTerminalStep { p with swingLeft := s.swingLeft, firstStep := s.firstStep } s.swingLeft s.left s.right (sol p.endTime)
        else (true, s.left, s.right)) = r at hq
      obtain ⟨ok, l, r⟩ := r
      cases ok with
      | false => cases hq; rfl
      | true =>
        simp only at hq
        split_ifs at hq
        · unfold alignLastSteps at hq
          split at hq
          · split_ifs at hq <;> (cases hq; rfl)
          · cases hq
        · cases hq; rfl

theorem computeNewSteps_ordered {p : Planner K} {integ : Integrator K} (hi : KeepsReference integ) (h : InTimeOrder p.reference)
    (fuel : Nat) (left right : FootPrint K) (t0 t1 : K) :
    ∀ q ∈ (p.computeNewSteps integ fuel left right t0 t1).planner, InTimeOrder q.reference := by
  unfold computeNewSteps
  intro q hq
  split_ifs at hq
  · cases hq; exact h
  · cases hq; exact h
  · cases hq; exact h
  have hs := setSaturations_reference { p with initTime := t0, endTime := t1 }
  split at hq
  · rename_i e
    rw [e] at hs
    cases hq
    simp only at hs
    rw [hs]; exact h
  · rename_i p1 e
    rw [e] at hs
    have h1 : InTimeOrder p1.reference := by simp only at hs; rw [hs]; exact h
    have key := fun p2 (h2 : InTimeOrder (reference p2)) =>
      initializePlanner_ordered (p := p2) hi h2 (Foot.new left) (Foot.new right)
    split at hq
    · rename_i h'
      cases hq
      refine key _ ?_ _ (by rw [h']; rfl)
      exact h1
    · cases hq
    · rename_i h'
      rw [plan_reference _ _ _ _ _ q hq]
      refine key _ ?_ _ (by rw [h']; rfl)
      exact h1

/-- **C13** through the planner: `clearPersonFollowingDesiredTrajectoryUpTo(t)` changes nothing but the reference.  If it reports
success, the reference is the same from `t` on and starts at `t` or later; otherwise (`t` negative or before the whole reference)
nothing changes. -/
theorem C13_planner (p : Planner K) (hs : InTimeOrder p.ctrl.person.traj) (t : K) :
    (∃ new, p.clearDesiredTrajectoryUpTo t =
        .ok (true, { p with ctrl := { p.ctrl with person := { p.ctrl.person with traj := new } } }) ∧
      InTimeOrder new ∧ (∀ q ∈ new, t ≤ q.initTime) ∧ ∀ t', t ≤ t' → desiredPoint new t' = desiredPoint p.ctrl.person.traj t') ∨
    (p.clearDesiredTrajectoryUpTo t = .ok (false, p) ∧
      (t < 0 ∨ (p.ctrl.person.traj ≠ [] ∧ ∀ q ∈ p.ctrl.person.traj, t < q.initTime))) := by
  rcases C13_clear p.ctrl.person.traj hs t with ⟨new, h1, h2⟩ | ⟨h1, h2⟩
  · exact Or.inl ⟨new, by simp only [clearDesiredTrajectoryUpTo, h1], h2⟩
  · exact Or.inr ⟨by simp only [clearDesiredTrajectoryUpTo, h1], h2⟩

/-- **C13**, the whole reference: after `clearPersonFollowingDesiredTrajectory` there is no reference at any time, and nothing
else has changed; the next point accepted is then the whole reference, from its time on. -/
theorem C13_clear_all (p : Planner K) :
    (p.run .clearDesiredTrajectory).2 = { p with ctrl := { p.ctrl with person := { p.ctrl.person with traj := [] } } } ∧
    (∀ t, desiredPoint (p.run .clearDesiredTrajectory).2.ctrl.person.traj t = .fail) ∧
    ∀ (t0 : K) (y yDot : Vec2 K), 0 ≤ t0 →
      ((p.run .clearDesiredTrajectory).2.run (.addPoint t0 y yDot)).1 = true ∧
      ((p.run .clearDesiredTrajectory).2.run (.addPoint t0 y yDot)).2.ctrl.person.traj = [⟨t0, y, yDot⟩] := by
  refine ⟨rfl, fun t => ?_, fun t0 y yDot h => ?_⟩
  · show desiredPoint [] t = _
    simp [desiredPoint]
  · simp [run, setPerson, PersonCtrl.setDesiredPoint, PersonCtrl.clearDesiredTrajectory, not_lt.mpr h]

/-- **C13** after any history of configuration calls, plans and removals: the reference is in time order (so that
`C13_planner` applies, and C11 for its values). -/
theorem C13_history (evs : List (Event K))
    (hi : ∀ integ fuel left right t0 t1, Event.plan integ fuel left right t0 t1 ∈ evs → KeepsReference integ) :
    InTimeOrder (evs.foldl Event.apply (Planner.new : Planner K)).ctrl.person.traj := by
  have key : ∀ (evs : List (Event K)) (p : Planner K), InTimeOrder p.reference →
      (∀ integ fuel left right t0 t1, Event.plan integ fuel left right t0 t1 ∈ evs → KeepsReference integ) →
      InTimeOrder (evs.foldl Event.apply p).reference := by
    intro evs
    induction evs with
    | nil => exact fun p h _ => h
    | cons e es ih =>
      intro p h hi
      refine ih _ ?_ (fun a b c d e f g => hi a b c d e f (List.mem_cons_of_mem _ g))
      cases e with
      | configure o => exact run_ordered h o
      | plan integ fuel left right t0 t1 =>
        have hk := computeNewSteps_ordered (hi _ _ _ _ _ _ (List.mem_cons_self ..)) h fuel left right t0 t1
        simp only [Event.apply]
        split
        · rename_i e
          rw [e] at hk
          exact hk _ rfl
        · exact h
      | clear t =>
        simp only [Event.apply]
        rcases C13_planner p h t with ⟨new, h1, h2, -⟩ | ⟨h1, -⟩
        · rw [h1]; exact h2
        · rw [h1]; exact h
  exact key evs _ (List.pairwise_singleton _ _) hi

section
private local instance referenceTrig : Trig ℚ := ⟨fun _ => 1, fun _ => 0, fun x => x, fun x => 1 + x, fun x => x, fun _ _ => 0, 22 / 7⟩

/-- Non-vacuity of C13 through the planner: points given out of order, then the past removed. -/
example : (match ((Planner.new : Planner ℚ).runAll [.addPoint 3 ⟨3, 0⟩ 0, .addPoint 1 ⟨1, 0⟩ 0]).clearDesiredTrajectoryUpTo 2 with
    | .ok (true, q) => decide (q.ctrl.person.traj = [⟨2, ⟨2, 0⟩, 0⟩, ⟨3, ⟨3, 0⟩, 0⟩])
    | _ => false) = true ∧
    (match (Planner.new : Planner ℚ).clearDesiredTrajectoryUpTo (-1) with
    | .ok (false, q) => decide (q.ctrl.person.traj = [⟨0, 0, 0⟩])
    | _ => false) = true := by decide +kernel

end

end Uni.Planner
