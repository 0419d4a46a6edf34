import Verif.Spec.Start
import Verif.Props.Settings
import Verif.Props.Planner

/-! # C95: the foot that starts -/

set_option autoImplicit false
set_option linter.unusedSectionVars false

namespace Uni.Planner
open Spec

section
variable {K : Type*} [Field K] [LinearOrder K] [Trig K] [IsStrictOrderedRing K]
variable {p p' : Planner K} {integ : Integrator K} {fuel : Nat} {left right left' right' : FootPrint K} {t0 t1 : K}

theorem run_final {q : Planner K} {sol : K → UState K} {L R : Foot K} {c c' : Stance K} {log : List (Landing K)}
    (h : Run q sol L R c log c') :
    c'.left = (match log.getLast? with | none => c.left | some e => !e.left) := by
  induction h with
  | stop c _ => rfl
  | land c e log c' hd _ ih =>
    rw [ih]
    cases hl : log.getLast? with
    | none =>
      rw [List.getLast?_eq_none_iff] at hl
      subst hl
      cases hd <;> rfl
    | some x =>
      rw [List.getLast?_cons, hl]; rfl

/-- **C95.** After a successful request the foot configured to start is the one configured before, unless no step was added and the
starting foot is not to be reset: then it is the foot that has been on the ground longest. The getter `startWithLeft()`
(`p'.swingLeft`) tells which foot the search would have moved next: the other one than the last one it moved, and the first one to
move if it moved none. -/
theorem C95_after (hp : Timed p) (hL : NonNeg left) (hR : NonNeg right)
    (h : p.computeNewSteps integ fuel left right t0 t1 = .done true p' left' right') :
    ∃ d, PlanOf p integ left right t0 t1 left' right' d ∧
      p'.startLeft = (if p.resetStartingFoot = true ∨ d.log ≠ [] then p.startLeft else turn p d.l0 d.r0) ∧
      p'.swingLeft = (match d.decided.getLast? with | none => d.firstLeft | some e => !e.left) := by
  rcases computeNewSteps_done hp.period hp.nominal_nonneg hL hR h with ⟨h, -⟩ | ⟨h, -⟩ | ⟨-, d, hd, h1, h2⟩
  · cases h
  · cases h
  · refine ⟨d, hd, ?_, h1.trans (run_final hd.run)⟩
    have e1 : d.q.resetStartingFoot = p.resetStartingFoot := by rw [hd.begins.eq]
    have e2 : d.q.startLeft = p.startLeft := by rw [hd.begins.eq]
    rw [h2, Plan.startAfter, e1, e2]
    rfl

/-- **C95.** A request that fails does not change the foot configured to start. -/
theorem C95_failed (h : p.computeNewSteps integ fuel left right t0 t1 = .done false p' left' right') :
    p'.startLeft = p.startLeft := (computeNewSteps_false h).startLeft

theorem last_ne {fp : FootPrint K} (h : fp.steps ≠ []) : ∃ s, fp.steps.getLast? = some s :=
  ⟨_, List.getLast?_eq_some_getLast h⟩

theorem straight_first (h : Straight p) : Spec.firstSwing p = p.startLeft := by
  unfold Spec.firstSwing
  unfold Straight at h
  split at h
  · rename_i hc; rw [hc]
  · rename_i hc; simp only [hc, h, if_pos]
  · rename_i hc; simp only [hc, h, if_pos]

theorem turn_eq {l r : Step K} (hl : left.steps.getLast? = some l) (hr : right.steps.getLast? = some r) :
    turn p left right =
      if l.impactTime < r.impactTime then true else if r.impactTime < l.impactTime then false else p.startLeft := by
  unfold turn
  rw [hl, hr]

theorem firstFoot_turn (hs : Straight p) (hl : left.steps ≠ []) (hr : right.steps ≠ []) {b f : Bool}
    (h : FirstFoot p left.steps.getLast? right.steps.getLast? b f) : b = turn p left right := by
  obtain ⟨l, hl⟩ := last_ne hl
  obtain ⟨r, hr⟩ := last_ne hr
  rw [turn_eq hl hr]
  rw [hl, hr] at h
  cases h with
  | together l r e => rw [straight_first hs]; simp [e]
  | leftOlder l r e => simp [e]
  | rightOlder l r e => simp [e, not_lt.mpr e.le]

theorem alternates_last {log : List (Landing K)} {e : Landing K} : ∀ {b : Bool}, Alternates b log → log.getLast? = some e →
    log.foldl (fun c _ => !c) b = !e.left := by
  induction log with
  | nil => intro b _ h; cases h
  | cons x xs ih =>
    intro b h hl
    rw [List.foldl_cons]
    cases hx : xs.getLast? with
    | none =>
      rw [List.getLast?_eq_none_iff] at hx
      subst hx
      simp only [List.getLast?_singleton, Option.some.injEq] at hl
      subst hl
      rw [h.1]; rfl
    | some y =>
      rw [List.getLast?_cons, hx] at hl
      simp only [Option.getD_some, Option.some.injEq] at hl
      subst hl
      exact ih h.2 hx

theorem alternates_append {log log' : List (Landing K)} : ∀ {b : Bool}, Alternates b log →
    Alternates (log.foldl (fun c _ => !c) b) log' → Alternates b (log ++ log') := by
  induction log with
  | nil => intro b _ h; exact h
  | cons x xs ih => intro b h h'; exact ⟨h.1, ih h.2 h'⟩

theorem poses_append (a b : List (Step K)) : poses (a ++ b) = poses a ++ poses b := List.map_append

theorem Retimed.last {fp fp' : FootPrint K} {t : K} (h : Retimed fp t fp') :
    (∃ s, fp'.steps.getLast? = some s ∧ s.impactTime = t) ∧ poses fp'.steps = poses fp.steps ∧
    (NonNeg fp → 0 ≤ t → NonNeg fp') := by
  obtain ⟨older, s, h1, rfl⟩ := h
  refine ⟨⟨_, List.getLast?_concat, rfl⟩, ?_, fun hn ht x hx => ?_⟩
  · rw [h1, poses_append, poses_append]; rfl
  · rcases List.mem_append.mp hx with hx | hx
    · exact hn x (by rw [h1]; exact List.mem_append_left _ hx)
    · rw [List.mem_singleton] at hx
      rw [hx]; exact ht

/-- One planning request: the landings alternate, beginning with the foot whose turn it is, and afterwards it is the turn of the
other foot. -/
theorem plan_turn (hp : Timed p) (hm : 0 < p.minTime) (hs : Straight p) (hr : p.resetStartingFoot = false)
    (hst : OnBothFeet left right) (h : p.computeNewSteps integ fuel left right t0 t1 = .done true p' left' right') :
    ∃ log : List (Landing K), Alternates (turn p left right) log ∧
      poses left'.steps = poses left.steps ++ poses (stepsOf true log) ∧
      poses right'.steps = poses right.steps ++ poses (stepsOf false log) ∧ OnBothFeet left' right' ∧
      turn p' left' right' = log.foldl (fun c _ => !c) (turn p left right) := by
  obtain ⟨d, hd, h1, -⟩ := C95_after hp hst.nonnegLeft hst.nonnegRight h
  have hnn := C28_nonneg hp hst.nonnegLeft hst.nonnegRight h
  have h0 : d.l0 = left ∧ d.r0 = right := by
    rcases hd.begins.steps with ⟨-, a, b⟩ | ⟨a, -⟩
    · exact ⟨a, b⟩
    · exact absurd a hst.leftFoot
  have ht : d.firstLeft = turn p left right := firstFoot_turn hs hst.leftFoot hst.rightFoot hd.begins.first
  have halt := hd.alternates
  rw [ht] at halt
  rw [h0.1, h0.2] at h1
  refine ⟨d.log, halt, ?_⟩
  rcases hd.effect with ⟨hne, e1, e2⟩ | ⟨hnil, hre⟩
  · rw [h0.1] at e1
    rw [h0.2] at e2
    have s1 : left'.steps = left.steps ++ stepsOf true d.log := by rw [e1]; rfl
    have s2 : right'.steps = right.steps ++ stepsOf false d.log := by rw [e2]; rfl
    have n1 : left'.steps ≠ [] := by rw [s1]; simp [hst.leftFoot]
    have n2 : right'.steps ≠ [] := by rw [s2]; simp [hst.rightFoot]
    refine ⟨by rw [s1, poses_append], by rw [s2, poses_append], ⟨n1, n2, hnn.1, hnn.2⟩, ?_⟩
    obtain ⟨older, e, he⟩ : ∃ older e, d.log = older ++ [e] := ⟨_, _, (List.dropLast_append_getLast hne).symm⟩
    have hlast : d.log.getLast? = some e := by rw [he]; exact List.getLast?_concat
    rw [alternates_last halt hlast]
    obtain ⟨g1, g2⟩ := along_times hp.minTime (hd.gaps hp)
    -- the last steps before the call are not younger than the step on which the robot stands
    have old : ∀ s, left.steps.getLast? = some s ∨ right.steps.getLast? = some s → s.impactTime ≤ d.prev.impactTime := by
      have a := hd.begins.last
      have b := hd.begins.swing
      rw [h0.1, h0.2] at a b
      intro s hs
      cases hb : d.q.swingLeft with
      | true =>
        rw [hb] at a b
        rcases hs with hs | hs
        · exact b s hs
        · have := a.symm.trans hs
          rw [Option.some.inj this]
      | false =>
        rw [hb] at a b
        rcases hs with hs | hs
        · have := a.symm.trans hs
          rw [Option.some.inj this]
        · exact b s hs
    have older_lt : ∀ x ∈ older, x.step.impactTime < e.step.impactTime := by
      intro x hx
      rw [he, List.pairwise_append] at g2
      have := g2.2.2 x hx e (by simp)
      linarith
    have prev_lt : d.prev.impactTime < e.step.impactTime := by
      have := g1 e (by rw [he]; simp)
      linarith
    -- the last step of the foot that landed last, and of the other foot
    have split : ∀ b, stepsOf b d.log = stepsOf b older ++ stepsOf b [e] := by intro b; rw [he, stepsOf_append]
    have mine : ∀ b, e.left = b → (stepsOf b d.log).getLast? = some e.step := by
      intro b hb
      rw [split, show stepsOf b [e] = [e.step] by simp [stepsOf, hb]]
      exact List.getLast?_concat
    have other : ∀ (fp : FootPrint K) b, e.left = !b →
        (∀ s, fp.steps.getLast? = some s → s.impactTime ≤ d.prev.impactTime) →
        ∀ s, (fp.steps ++ stepsOf b d.log).getLast? = some s → s.impactTime < e.step.impactTime := by
      intro fp b hb hfp s hs
      rw [split, show stepsOf b [e] = [] by simp [stepsOf, hb], List.append_nil, List.getLast?_append] at hs
      cases ho : (stepsOf b older).getLast? with
      | none =>
        rw [ho] at hs
        exact lt_of_le_of_lt (hfp s hs) prev_lt
      | some x =>
        rw [ho] at hs
        cases hs
        obtain ⟨y, hy, -, rfl⟩ := mem_stepsOf (List.mem_of_getLast? ho)
        exact older_lt y hy
    obtain ⟨l, hl⟩ := last_ne n1
    obtain ⟨r, hr'⟩ := last_ne n2
    rw [turn_eq hl hr']
    rw [s1] at hl
    rw [s2] at hr'
    cases hb : e.left with
    | true =>
      have a : l = e.step := by
        rw [List.getLast?_append, mine true hb] at hl
        exact (Option.some.inj hl).symm
      have b := other right false hb (fun s hs => old s (.inr hs)) r hr'
      rw [← a] at b
      simp [b, not_lt.mpr b.le]
    | false =>
      have a : r = e.step := by
        rw [List.getLast?_append, mine false hb] at hr'
        exact (Option.some.inj hr').symm
      have b := other left true hb (fun s hs => old s (.inl hs)) l hl
      rw [← a] at b
      simp [b]
  · rw [hnil]
    rw [hnil, hr] at h1
    simp only [Bool.false_eq_true, ne_eq, not_true_eq_false, or_self, if_false] at h1
    rw [h0.1, h0.2] at hre
    obtain ⟨l, r, hl, hr', hre⟩ := hre
    have e0 : ∀ b, poses (stepsOf (K := K) b []) = [] := fun _ => rfl
    rw [e0, e0, List.append_nil, List.append_nil, List.foldl_nil]
    have ht0 := turn_eq (p := p) hl hr'
    rcases hre with ⟨hlr, rfl, rfl⟩ | ⟨-, rfl, hre⟩ | ⟨-, hre, rfl⟩
    · refine ⟨rfl, rfl, hst, ?_⟩
      rw [turn_eq hl hr', h1, ht0]
      simp [hlr]
    · obtain ⟨⟨s, g1, g2⟩, g3, -⟩ := Retimed.last hre
      refine ⟨rfl, g3, ⟨hst.leftFoot, (fun h => by rw [h] at g1; cases g1), hnn.1, hnn.2⟩, ?_⟩
      rw [turn_eq hl g1, g2, h1, ht0]
      simp
    · obtain ⟨⟨s, g1, g2⟩, g3, -⟩ := Retimed.last hre
      refine ⟨g3, rfl, ⟨(fun h => by rw [h] at g1; cases g1), hst.rightFoot, hnn.1, hnn.2⟩, ?_⟩
      rw [turn_eq g1 hr', g2, h1, ht0]
      simp

theorem plan_resets {ok : Bool} (h : p.computeNewSteps integ fuel left right t0 t1 = .done ok p' left' right') :
    p'.resetStartingFoot = p.resetStartingFoot := by
  have := computeNewSteps_keep p integ fuel left right t0 t1 p' (by rw [h]; rfl)
  rw [this]

theorem foldl_not_append (a b : List (Landing K)) (c : Bool) :
    (a ++ b).foldl (fun c _ => !c) c = b.foldl (fun c _ => !c) (a.foldl (fun c _ => !c) c) := List.foldl_append

/-- **C95.** As long as the starting foot is not reset, nothing interrupts the alternation of the feet: over any number of requests,
successful or not, with pauses or without, all the landings added alternate, beginning with the foot whose turn it is at the
beginning. -/
theorem C95_alternation (hr : p.resetStartingFoot = false) (hst : OnBothFeet left right)
    (h : Session p left right p' left' right') :
    ∃ log : List (Landing K), Alternates (turn p left right) log ∧
      poses left'.steps = poses left.steps ++ poses (stepsOf true log) ∧
      poses right'.steps = poses right.steps ++ poses (stepsOf false log) ∧
      turn p' left' right' = log.foldl (fun c _ => !c) (turn p left right) := by
  suffices hs : p'.resetStartingFoot = false ∧ OnBothFeet left' right' ∧ ∃ log : List (Landing K), Alternates (turn p left right) log ∧
      poses left'.steps = poses left.steps ++ poses (stepsOf true log) ∧
      poses right'.steps = poses right.steps ++ poses (stepsOf false log) ∧
      turn p' left' right' = log.foldl (fun c _ => !c) (turn p left right) from hs.2.2
  induction h with
  | start => exact ⟨hr, hst, [], trivial, (List.append_nil _).symm, (List.append_nil _).symm, rfl⟩
  | plan q q' l1 r1 l2 r2 integ fuel t0 t1 ok _ hq ht hm h ih =>
    obtain ⟨i1, i2, log, i3, i4, i5, i6⟩ := ih
    refine ⟨(plan_resets h).trans i1, ?_⟩
    cases ok with
    | true =>
      obtain ⟨log', j1, j2, j3, j4, j5⟩ := plan_turn ht hm hq i1 i2 h
      rw [i6] at j1 j5
      refine ⟨j4, log ++ log', alternates_append i3 j1, ?_, ?_, by rw [foldl_not_append, j5]⟩
      · rw [j2, i4, stepsOf_append, poses_append, List.append_assoc]
      · rw [j3, i5, stepsOf_append, poses_append, List.append_assoc]
    | false =>
      have hsl := C95_failed h
      rcases computeNewSteps_done ht.period ht.nominal_nonneg i2.nonnegLeft i2.nonnegRight h with
        ⟨-, rfl, rfl⟩ | ⟨-, e, -⟩ | ⟨e, -⟩
      · refine ⟨i2, log, i3, i4, i5, ?_⟩
        rw [← i6]
        unfold turn
        rw [hsl]
      · exact absurd e i2.leftFoot
      · cases e
  | other q q' l1 r1 _ h1 h2 ih =>
    obtain ⟨i1, i2, log, i3, i4, i5, i6⟩ := ih
    refine ⟨h2.trans i1, i2, log, i3, i4, i5, ?_⟩
    rw [← i6]
    unfold turn
    rw [h1]

theorem clear_start {q : Planner K} {t : K} {b : Bool} (h : p.clearDesiredTrajectoryUpTo t = .ok (b, q)) :
    q.resetStartingFoot = p.resetStartingFoot ∧ q.startLeft = p.startLeft := by
  unfold clearDesiredTrajectoryUpTo at h
  split at h
  · cases h; exact ⟨rfl, rfl⟩
  · cases h
  · cases h

/-- **C95.** If the starting foot is reset whenever the robot stands, it is always the one given with the last `startWithLeft(bool)`. -/
theorem C95_configured (evs : List (Event K)) : ∀ p : Planner K, p.resetStartingFoot = true →
    (∀ b, Op.resetStartingFootIfStill b ∈ configurations evs → b = true) →
    (evs.foldl Event.apply p).startLeft = lastValue startFoot p.startLeft (configurations evs) := by
  induction evs with
  | nil => intro p _ _; rfl
  | cons e es ih =>
    intro p hr hb
    rw [List.foldl_cons]
    cases e with
    | configure o =>
      have h1 := run_reset p o
      have h2 := run_startLeft p o
      rw [ih _ ?_ fun b h => hb b (List.mem_cons_of_mem _ h)]
      · simp only [Event.apply, configurations, lastValue, List.foldl_cons, h2]
      · rw [Event.apply, h1]
        cases o with
        | resetStartingFootIfStill b => exact hb b List.mem_cons_self
        | _ => exact hr
    | plan integ fuel left right t0 t1 =>
      simp only [Event.apply]
      split
      · rename_i h
        have hk := computeNewSteps_reset hr (by rw [h]; rfl)
        rw [ih _ (by rw [hk]; exact hr) hb, hk.startLeft]
        rfl
      · exact ih _ hr hb
    | clear t =>
      simp only [Event.apply]
      split
      · rename_i h
        have hk : _ = _ ∧ _ = _ := clear_start h
        rw [ih _ (by rw [hk.1]; exact hr) hb, hk.2]
        rfl
      · exact ih _ hr hb

end

section
/-- For the concrete requests below, as in `Props/Planner`. -/
private local instance rationals : Trig ℚ :=
  ⟨fun _ => 1, fun _ => 0, fun q => Nat.sqrt (⌊q * 10 ^ 8⌋₊) / 10 ^ 4, fun _ => 0, fun _ => 0, fun _ _ => 0, 22 / 7⟩

/-- The answer of `startWithLeft()` after a call that returned true. -/
def saysLeft : PlanResult ℚ → Option Bool
  | .done true p _ _ => some p.swingLeft
  | _ => none

/-- The last landing times of the feet and the configured foot after a call that returned true. -/
def afterwards : PlanResult ℚ → Option (Option ℚ × Option ℚ × Bool)
  | .done true p l r => some (l.steps.getLast?.map (·.impactTime), r.steps.getLast?.map (·.impactTime), p.startLeft)
  | _ => none

/-- **C95, violated.** `startWithLeft()` does not tell what was given to `startWithLeft(bool)`: before the first plan it always
says left, whatever was set. -/
theorem C95_getter_violation (b : Bool) : ((Planner.new : Planner ℚ).runAll [.startWithLeft b]).swingLeft = true := rfl

/-- **C95, violated.** Nor does it tell with which foot the plan starts: a plan of three landings, the first one of the left
foot. -/
theorem C95_plan_witness :
    summary (({ demo with addTerminal := false } : Planner ℚ).computeNewSteps (straight (1 / 50)) 1000 (standing (7 / 100))
      (standing (-7 / 100)) 0 20) = some (true, [(0, 0), (7 / 50, 7), (39 / 100, 39 / 2)], [(0, 0), (7 / 25, 14)]) ∧
    saysLeft (({ demo with addTerminal := false } : Planner ℚ).computeNewSteps (straight (1 / 50)) 1000 (standing (7 / 100))
      (standing (-7 / 100)) 0 20) = some false := by
  constructor <;> decide +kernel

/-- Non-vacuity of C95: after that plan the robot has to stand for half a second; the feet are realigned, and the right foot, whose turn it is, becomes
the one that starts; with a reset the left foot would start again. -/
example : (match ({ demo with addTerminal := false } : Planner ℚ).computeNewSteps (straight (1 / 50)) 1000 (standing (7 / 100))
      (standing (-7 / 100)) 0 20 with
    | .done true p l r => (afterwards (p.computeNewSteps (straight 0) 1000 l r 20 (41 / 2)),
        afterwards ({ p with resetStartingFoot := true }.computeNewSteps (straight 0) 1000 l r 20 (41 / 2)))
    | _ => (none, none)) = (some (some (39 / 2), some (39 / 2), false), some (some (39 / 2), some (39 / 2), true)) := by
  decide +kernel

/-- Non-vacuity of `C95_alternation`: that session. -/
example : ∃ (p p' : Planner ℚ) (l r l' r' : FootPrint ℚ), p.resetStartingFoot = false ∧ OnBothFeet l r ∧ Session p l r p' l' r' ∧
    l'.steps ≠ l.steps := by
  have h := C95_plan_witness.1
  revert h
  generalize hc : (({ demo with addTerminal := false } : Planner ℚ).computeNewSteps (straight (1 / 50)) 1000 (standing (7 / 100))
      (standing (-7 / 100)) 0 20) = c
  intro h
  cases c with
  | done ok p' l' r' =>
    simp only [summary, Option.some.injEq, Prod.mk.injEq] at h
    refine ⟨{ demo with addTerminal := false }, p', _, _, l', r', by decide +kernel, ⟨by simp [standing], by simp [standing], ?_, ?_⟩,
      .plan _ _ _ _ _ _ _ _ _ _ _ .start
        (by
          have e1 : demo.controller = .direct := by decide +kernel
          have e2 : demo.ctrl.direct.desired.lateral = 0 := by decide +kernel
          simpa only [Straight, e1] using e2)
        (by constructor <;> decide +kernel) (by decide +kernel) hc, ?_⟩
    · intro s hs; simp only [standing, List.mem_singleton] at hs; rw [hs]
    · intro s hs; simp only [standing, List.mem_singleton] at hs; rw [hs]
    · intro e
      have := congrArg List.length h.2.1
      rw [e] at this
      simp [standing] at this
  | ub w => cases h
  | outOfFuel => cases h

/-- Non-vacuity of `C95_configured`. -/
example : ((([.configure (.startWithLeft false), .plan (straight (1 / 50)) 1000 (standing (7 / 100)) (standing (-7 / 100)) 0 20] :
    List (Event ℚ))).foldl Event.apply { demo with resetStartingFoot := true }).startLeft = false :=
  (C95_configured _ _ rfl (by simp [configurations])).trans rfl

end
end Uni.Planner
