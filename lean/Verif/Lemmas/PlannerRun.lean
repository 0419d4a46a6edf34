import Verif.Lemmas.PlannerLoop
import Verif.Spec.Plan
import Mathlib.Tactic.Positivity
import Mathlib.Algebra.Order.Floor.Semiring

/-! # Helper lemmas: executions of the main loop of the planner -/

set_option autoImplicit false
set_option linter.unusedSectionVars false

namespace Uni.Planner
open Spec
variable {K : Type*} [Field K] [LinearOrder K] [Trig K]

@[simp] theorem advance_t (p : Planner K) (s : Loop K) : (p.advance s).t = p.nextTime s.t := rfl
@[simp] theorem advance_tOptim (p : Planner K) (s : Loop K) : (p.advance s).tOptim = s.tOptim := rfl
@[simp] theorem advance_minCost (p : Planner K) (s : Loop K) : (p.advance s).minCost = s.minCost := rfl
@[simp] theorem advance_pauseTime (p : Planner K) (s : Loop K) : (p.advance s).pauseTime = s.pauseTime := rfl
@[simp] theorem advance_timeOffset (p : Planner K) (s : Loop K) : (p.advance s).timeOffset = s.timeOffset := rfl
@[simp] theorem advance_prevStep (p : Planner K) (s : Loop K) : (p.advance s).prevStep = s.prevStep := rfl
@[simp] theorem advance_swingLeft (p : Planner K) (s : Loop K) : (p.advance s).swingLeft = s.swingLeft := rfl
@[simp] theorem advance_firstStep (p : Planner K) (s : Loop K) : (p.advance s).firstStep = s.firstStep := rfl
@[simp] theorem advance_left (p : Planner K) (s : Loop K) : (p.advance s).left = s.left := rfl
@[simp] theorem advance_right (p : Planner K) (s : Loop K) : (p.advance s).right = s.right := rfl
@[simp] theorem advance_stance (p : Planner K) (s : Loop K) : (p.advance s).stance = s.stance := rfl
@[simp] theorem advance_swing (p : Planner K) (s : Loop K) : (p.advance s).swing = s.swing := rfl

section landed
variable (p : Planner K) (s : Loop K) (st : Step K) (t' o : K)
@[simp] theorem landed_t : (p.landed s st t' o).t = p.nextTime t' := rfl
@[simp] theorem landed_tOptim : (p.landed s st t' o).tOptim = o := rfl
@[simp] theorem landed_pauseTime : (p.landed s st t' o).pauseTime = 0 := rfl
@[simp] theorem landed_timeOffset : (p.landed s st t' o).timeOffset = 0 := rfl
@[simp] theorem landed_prevStep : (p.landed s st t' o).prevStep = st := rfl
@[simp] theorem landed_swingLeft : (p.landed s st t' o).swingLeft = !s.swingLeft := rfl
@[simp] theorem landed_firstStep : (p.landed s st t' o).firstStep = false := rfl
@[simp] theorem landed_left : (p.landed s st t' o).left = if s.swingLeft then s.left.push st else s.left := by
  simp only [landed, advance_left, Loop.setSwing, Loop.swing]
  split_ifs <;> rfl
@[simp] theorem landed_right : (p.landed s st t' o).right = if s.swingLeft then s.right else s.right.push st := by
  simp only [landed, advance_right, Loop.setSwing, Loop.swing]
  split_ifs <;> rfl
@[simp] theorem landed_stance : (p.landed s st t' o).stance = s.swing.push st := by
  simp only [Loop.stance, landed_swingLeft, landed_left, landed_right, Loop.swing]
  cases s.swingLeft <;> simp
@[simp] theorem landed_swing : (p.landed s st t' o).swing = s.stance := by
  simp only [Loop.swing, landed_swingLeft, landed_left, landed_right, Loop.stance]
  cases s.swingLeft <;> simp
end landed

section
variable [IsStrictOrderedRing K]

theorem le_nextTime {p : Planner K} (hd : 0 ≤ p.dT) (t : K) : t ≤ p.nextTime t := by
  unfold nextTime; split_ifs with h
  · exact h.2.le
  · linarith

/-- The time cursor moves: to the end, or one period further. -/
theorem nextTime_cases (p : Planner K) (t : K) :
    (p.nextTime t = p.endTime ∧ t < p.endTime ∧ p.endTime < t + p.dT) ∨ p.nextTime t = t + p.dT := by
  unfold nextTime; split_ifs with h
  · exact .inl ⟨rfl, h.2, h.1⟩
  · exact .inr rfl

/-- Invariant of the loop: the feet are configured, the stance step is known and the recorded time (if
any) comes from a feasible sample of the current step. -/
structure Inv (p : Planner K) (sol : K → UState K) (s : Loop K) : Prop extends Ok p s where
  start : p.initTime ≤ s.t
  recorded : s.tOptim = -1 ∨ (0 < s.tOptim ∧ p.minTime ≤ s.tOptim - s.prevStep.impactTime ∧
    p.initTime + s.timeOffset < s.tOptim ∧ s.tOptim < p.endTime ∧
    s.swing.isTinyStep (sol s.tOptim) = false ∧
    ∃ pause, 0 < s.tOptim - s.prevStep.impactTime - pause ∧ s.tOptim - s.prevStep.impactTime - pause ≤ p.maxTime ∧
      p.problem.areConstraintsSatisfied
        (data s (sol s.tOptim) (s.tOptim - s.prevStep.impactTime - pause)) = true)

theorem Inv.trans {p : Planner K} {sol : K → UState K} {s s' : Loop K} (hi : Inv p sol s) (hd : 0 ≤ p.dT)
    (h0 : 0 ≤ p.initTime) (hoff : 0 ≤ s.timeOffset) (hle : s.t ≤ p.endTime) (ht : Trans p sol s s') :
    Inv p sol s' := by
  have hn := le_nextTime hd s.t
  have ok : ∀ a b c, Ok p (p.advance { s with pauseTime := a, tOptim := b, minCost := c }) := fun a b c =>
    ⟨hi.left, hi.right, hi.prev, hi.nonneg.trans hn⟩
  have okL : ∀ st (t' o : K), 0 ≤ t' → Ok p (p.landed s st t' o) := fun st t' o h => by
    refine ⟨?_, ?_, by simp, h.trans (le_nextTime hd _)⟩
    · rw [landed_left]; split_ifs; exacts [hi.left, hi.left]
    · rw [landed_right]; split_ifs; exacts [hi.right, hi.right]
  have hs := hi.start
  cases ht with
  | wait hg => exact ⟨ok s.pauseTime s.tOptim s.minCost, hs.trans hn, hi.recorded⟩
  | tiny hg h => exact ⟨ok (s.pauseTime + p.dT) s.tOptim s.minCost, hs.trans hn, hi.recorded⟩
  | optimised hg h1 h2 h3 =>
    refine ⟨okL _ _ _ h3.le, ?_, .inl rfl⟩
    refine le_trans ?_ (le_nextTime hd _)
    rcases hi.recorded with h | ⟨-, -, h, -⟩
    · rw [h] at h3; linarith
    · linarith
  | timeout hg h1 h2 h3 h4 =>
    exact ⟨ok (s.t - s.prevStep.impactTime) s.tOptim s.minCost, hs.trans hn, hi.recorded⟩
  | parallel hg h1 h2 h3 h4 =>
    refine ⟨okL _ _ _ hi.nonneg, hs.trans hn, .inl ?_⟩
    rcases hi.recorded with h | ⟨h, -⟩
    · exact h
    · exact absurd h h3
  | record hg h1 h2 h3 h4 =>
    refine ⟨ok s.pauseTime s.t _, hs.trans hn, .inr ?_⟩
    have hpos : 0 < s.t := by have := hg.2; linarith
    unfold Due at h2
    push Not at h2
    exact ⟨hpos, hg.1, hg.2, lt_of_le_of_ne hle h2.2, h1, s.pauseTime, h3.1, h2.1, h3.2⟩
  | worse hg h1 h2 h3 h4 => exact ⟨ok s.pauseTime s.tOptim s.minCost, hs.trans hn, hi.recorded⟩
  | infeasible hg h1 h2 h3 => exact ⟨ok s.pauseTime s.tOptim s.minCost, hs.trans hn, hi.recorded⟩

theorem Trans.timeOffset {p : Planner K} {sol : K → UState K} {s s' : Loop K} (h : Trans p sol s s')
    (ho : 0 ≤ s.timeOffset) : 0 ≤ s'.timeOffset := by
  cases h <;> simp [ho]

end

section termination
variable [IsStrictOrderedRing K] [FloorSemiring K]

/-- Number of periods that fit before the end. -/
def periods (p : Planner K) (t : K) : Nat := ⌈(p.endTime - t) / p.dT⌉₊

theorem periods_le {p : Planner K} (hd : 0 < p.dT) {a b : K} (h : a ≤ b) : p.periods b ≤ p.periods a := by
  unfold periods
  apply Nat.ceil_mono
  have := hd.le
  gcongr

theorem periods_lt {p : Planner K} (hd : 0 < p.dT) {a b : K} (h : a + p.dT ≤ b) (hb : a < p.endTime) :
    p.periods b + 1 ≤ p.periods a := by
  unfold periods
  have h1 : (p.endTime - b) / p.dT + 1 ≤ (p.endTime - a) / p.dT := by
    rw [div_add_one hd.ne']
    have := hd.le
    gcongr
    linarith
  by_cases hn : 0 ≤ (p.endTime - b) / p.dT
  · rw [← Nat.ceil_add_one hn]
    exact Nat.ceil_mono h1
  · have : ⌈(p.endTime - b) / p.dT⌉₊ = 0 := Nat.ceil_eq_zero.mpr (not_le.mp hn).le
    rw [this]
    have : 0 < (p.endTime - a) / p.dT := div_pos (by linarith) hd
    exact Nat.ceil_pos.mpr this

theorem periods_pos {p : Planner K} (hd : 0 < p.dT) {a : K} (hb : a < p.endTime) : 1 ≤ p.periods a := by
  have : 0 < (p.endTime - a) / p.dT := div_pos (by linarith) hd
  exact Nat.ceil_pos.mpr this

/-- `b` is the time of the last optimised landing (or before the start): all samples are later by at
least one period, except the final one. -/
structure Base (p : Planner K) (b : K) (s : Loop K) : Prop where
  le_end : b ≤ p.endTime
  cursor : b + p.dT ≤ s.t ∨ s.t = p.endTime
  opt : s.tOptim = -1 ∨ (b + p.dT ≤ s.tOptim ∧ s.tOptim < p.endTime)

/-- Remaining iterations without moving the cursor back. -/
def ahead (p : Planner K) (t : K) : Nat := if t ≤ p.endTime then p.periods t + 1 else 0

theorem ahead_next {p : Planner K} (hd : 0 < p.dT) {t : K} (ht : t ≤ p.endTime) :
    p.ahead (p.nextTime t) + 1 ≤ p.ahead t := by
  have h0 : p.ahead t = p.periods t + 1 := if_pos ht
  rcases nextTime_cases p t with ⟨h1, h2, h3⟩ | h1
  · rw [h1, h0, ahead, if_pos le_rfl]
    have := periods_pos hd h2
    have h4 : p.periods p.endTime = 0 := by simp [periods]
    omega
  · rw [h1, h0, ahead]
    split_ifs with h
    · have := periods_lt hd (le_refl (t + p.dT)) (by linarith)
      omega
    · omega

theorem ahead_le {p : Planner K} (hd : 0 < p.dT) {a b : K} (h : a ≤ b) : p.ahead b ≤ p.ahead a := by
  unfold ahead
  have := periods_le hd h
  split_ifs with h1 h2 h2
  · omega
  · exact absurd (h.trans h1) h2
  · omega
  · omega

theorem loop_exits {p : Planner K} (sol : K → UState K) (hd : 0 < p.dT) (h0 : 0 ≤ p.initTime)
    (fuel : Nat) : ∀ (s : Loop K) (b : K), Inv p sol s → 0 ≤ s.timeOffset → Base p b s →
      p.periods b * (p.ahead p.initTime + 1) + p.ahead s.t < fuel → ∃ s', p.loop sol fuel s = .exit s' := by
  induction fuel with
  | zero => intro s b _ _ _ h; omega
  | succ n ih =>
    intro s b hi ho hb hf
    unfold loop
    by_cases hle : s.t ≤ p.endTime
    · rw [if_pos hle]
      obtain ⟨s', hs', htr⟩ := body_trans sol hi.toOk
      rw [hs']
      simp only
      have hi' := hi.trans hd.le h0 ho hle htr
      have ho' := htr.timeOffset ho
      have hnx := ahead_next hd hle
      have cur : b + p.dT ≤ p.nextTime s.t ∨ p.nextTime s.t = p.endTime := by
        rcases hb.cursor with h | h
        · exact .inl (h.trans (le_nextTime hd.le _))
        · left
          have : p.nextTime s.t = s.t + p.dT := by
            unfold nextTime; rw [if_neg]; rintro ⟨-, h2⟩; rw [h] at h2; exact lt_irrefl _ h2
          rw [this]
          have := hb.le_end
          rw [h]; linarith
      have quiet : ∀ q : Loop K, q.t = p.nextTime s.t → Inv p sol q → 0 ≤ q.timeOffset →
          (q.tOptim = -1 ∨ (b + p.dT ≤ q.tOptim ∧ q.tOptim < p.endTime)) →
          ∃ s', p.loop sol n q = .exit s' := by
        intro q hq h1 h2 h3
        refine ih q b h1 h2 ⟨hb.le_end, by rw [hq]; exact cur, h3⟩ ?_
        rw [hq]; omega
      cases htr with
      | wait hg => exact quiet _ rfl hi' ho' hb.opt
      | tiny hg h => exact quiet _ rfl hi' ho' hb.opt
      | timeout hg h1 h2 h3 h4 => exact quiet _ rfl hi' ho' hb.opt
      | worse hg h1 h2 h3 h4 => exact quiet _ rfl hi' ho' hb.opt
      | infeasible hg h1 h2 h3 => exact quiet _ rfl hi' ho' hb.opt
      | parallel hg h1 h2 h3 h4 => exact quiet _ rfl hi' ho' hb.opt
      | record hg h1 h2 h3 h4 =>
        refine quiet _ rfl hi' ho' (.inr ?_)
        unfold Due at h2
        push Not at h2
        rcases hb.cursor with h | h
        · exact ⟨h, lt_of_le_of_ne hle h2.2⟩
        · exact absurd h h2.2
      | optimised hg h1 h2 h3 =>
        rcases hb.opt with h | ⟨h, h'⟩
        · rw [h] at h3; linarith
        · refine ih _ s.tOptim hi' ho' ⟨h'.le, ?_, .inl rfl⟩ ?_
          · rw [landed_t]
            rcases nextTime_cases p s.tOptim with ⟨e, -, -⟩ | e
            · exact .inr e
            · exact .inl e.ge
          · have e1 := periods_lt hd h (by linarith)
            have e2 : p.ahead (p.nextTime s.tOptim) ≤ p.ahead p.initTime :=
              ahead_le hd hi'.start
            rw [landed_t]
            have e3 : (p.periods s.tOptim + 1) * (p.ahead p.initTime + 1) ≤ p.periods b * (p.ahead p.initTime + 1) :=
              Nat.mul_le_mul_right _ e1
            rw [Nat.add_mul] at e3
            omega
    · rw [if_neg hle]
      exact ⟨s, rfl⟩

end termination

/-- The data evaluated for a new step, in terms of the two configured feet `L`, `R`, the swinging foot
and the stance step. -/
def stepData (L R : Foot K) (left : Bool) (prev : Step K) (u : UState K) (deltaTime : K) : StepData K :=
  ⟨if left then rotT prev.angle (L.footPosition u - prev.position)
     else rotT u.angle (prev.position - R.footPosition u),
   |(if left then R else L).unicycleAngle prev - u.angle|, deltaTime, (if left then L else R).footPosition u,
   rotT prev.angle ((if left then L else R).footPosition u - prev.position)⟩

theorem footPosition_cfg {f g : Foot K} (h : f.SameCfg g) (u : UState K) : f.footPosition u = g.footPosition u := by
  simp [Foot.footPosition, h.distance]

theorem unicycleAngle_cfg {f g : Foot K} (h : f.SameCfg g) (s : Step K) : f.unicycleAngle s = g.unicycleAngle s := by
  simp [Foot.unicycleAngle, h.yaw]

theorem stepAt_cfg {f g : Foot K} (h : f.SameCfg g) (u : UState K) (t : K) : f.stepAt u t = g.stepAt u t := by
  simp [Foot.stepAt, footPosition_cfg h, h.yaw, h.name]

theorem stateOf_cfg {f g : Foot K} (h : f.SameCfg g) (s : Step K) : f.stateOf s = g.stateOf s := by
  simp [Foot.stateOf, unicycleAngle_cfg h, h.distance]

theorem data_cfg {L R : Foot K} {s : Loop K} (hl : s.left.SameCfg L) (hr : s.right.SameCfg R) (u : UState K) (d : K) :
    data s u d = stepData L R s.swingLeft s.prevStep u d := by
  unfold data stepData Loop.stance Loop.swing
  cases s.swingLeft <;> simp [footPosition_cfg hl, footPosition_cfg hr, unicycleAngle_cfg hl, unicycleAngle_cfg hr]

theorem swing_cfg {L R : Foot K} {s : Loop K} (hl : s.left.SameCfg L) (hr : s.right.SameCfg R) :
    s.swing.SameCfg (if s.swingLeft then L else R) := by
  unfold Loop.swing; split_ifs; exacts [hl, hr]

theorem stance_cfg {L R : Foot K} {s : Loop K} (hl : s.left.SameCfg L) (hr : s.right.SameCfg R) :
    s.stance.SameCfg (if s.swingLeft then R else L) := by
  unfold Loop.stance; split_ifs; exacts [hr, hl]

section log
variable [IsStrictOrderedRing K]

theorem loop_not_failed {p : Planner K} (sol : K → UState K) (hd : 0 ≤ p.dT) (h0 : 0 ≤ p.initTime)
    (fuel : Nat) : ∀ (s s' : Loop K), Inv p sol s → 0 ≤ s.timeOffset → p.loop sol fuel s ≠ .failed s' := by
  induction fuel with
  | zero => intro s s' _ _ h; simp [loop] at h
  | succ n ih =>
    intro s s' hi ho h
    unfold loop at h
    by_cases hle : s.t ≤ p.endTime
    · rw [if_pos hle] at h
      obtain ⟨q, hq, htr⟩ := body_trans sol hi.toOk
      rw [hq] at h
      exact ih q s' (hi.trans hd h0 ho hle htr) (htr.timeOffset ho) h
    · rw [if_neg hle] at h
      cases h

end log
end Uni.Planner
