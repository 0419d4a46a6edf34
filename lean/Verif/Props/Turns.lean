import Verif.Lemmas.Turns
import Verif.Lemmas.ExecutedDemo

/-! # C113: the feet take turns, however often the walk is replaced -/

set_option autoImplicit false
set_option linter.unusedSectionVars false

namespace Uni.Walker
open Spec Gen

section
variable {K : Type} [Field K] [LinearOrder K] [IsStrictOrderedRing K] [FloorRing K] [Trig K]
variable {integ : Integrator K} {sort : Sorter K} {before old new w : Walker K} {c : Call K} {k m : Nat} {q : Request K} {dT time : K}
variable {legs : List (Leg K)}

/-- C113: however often the walk is replaced, the feet leave the ground in turns from the first sample to the last, beginning with the
foot whose turn it is at the beginning.  Needed: the starting foot is not to be reset and nobody changes it, the robot is not driven
sideways, no walk is replaced during a swing, and the replacements keep the landing times. -/
theorem C113_turns (hpi : (0 : K) ≤ Trig.pi) (hi : KeepsCommand integ) (hsort : ∀ l r, SortedPtrs l r (sort l r))
    (h : Walking integ sort dT legs w time)
    (htimes : Everywhere (fun w _ => NonNeg w.left ∧ NonNeg w.right) legs w time)
    (hphases : Everywhere (fun w time => NoEmptyPhase sort w time dT) legs w time)
    (hmin : Everywhere (fun w _ => 0 < w.planner.minTime ∧ Forward w.planner ∧ w.planner.resetStartingFoot = false) legs w time)
    (hleft : ∀ l ∈ legs, LeftStanding l ∧ KeepsTimes l)
    (hstart : (legs.map (·.walk) ++ [w]).IsChain KeepsStart)
    (hfirst : InTurn (due (firstWalk legs w)) (firstWalk legs w).left.steps (firstWalk legs w).right.steps) :
    Turns (due (firstWalk legs w)) (takeoffs (executed supportsOf legs w)) := by
  obtain ⟨-, h1, h2, h3⟩ := turns_everywhere hpi hi hsort h htimes hphases hmin hleft hstart hfirst
  obtain ⟨w1, ordered, t, -, hm⟩ := walking_made h
  obtain ⟨h4, h5⟩ := takeoffs_walk (hsort _ _) hm (hphases.2 _ _ hm.made) h1
  rw [executed, takeoffs_append_walk (Or.inr h5)]
  exact Turns.append h2 (by rw [← h3]; exact h4)

/-- C113: no foot leaves the ground twice in a row. -/
theorem C113_never_twice {b : Bool} {l : List Bool} (h : Turns b l) : l.IsChain (· ≠ ·) := by
  induction l generalizing b with
  | nil => exact .nil
  | cons x l ih =>
    cases l with
    | nil => exact .singleton _
    | cons y l =>
      refine .cons_cons ?_ (ih h.2)
      rw [h.1, h.2.1]
      cases b <;> simp

/-- C113: the contacts of a walk planned with no step yet are made in turns, beginning with the foot whose turn it is. -/
theorem C113_first {fuel : Nat} {t0 t1 : K} (hpi : (0 : K) ≤ Trig.pi) (hi : KeepsCommand integ) (hb : Reached integ sort before)
    (h : before.call integ fuel sort (.generate t0 dT t1) = .done true w) (hl : before.left.steps = []) (hr : before.right.steps = [])
    (hmin : 0 < w.planner.minTime) (hf : Forward w.planner) (hreset : w.planner.resetStartingFoot = false) :
    InTurn (due w) w.left.steps w.right.steps :=
  turns_first hpi hi hb h hl hr hmin hf hreset

/-- C113: if a walk is replaced while the DCM is at rest, the configured foot begins, whichever foot made the last step and whether or
not the starting foot is to be reset. -/
theorem C113_at_rest (hpi : (0 : K) ≤ Trig.pi) (hi : KeepsCommand integ) (hsort : ∀ l r, SortedPtrs l r (sort l r))
    (h : Merging integ sort before old new c k m q dT)
    (hL : NonNeg old.left) (hR : NonNeg old.right) (hmin : 0 < new.planner.minTime) (hf : Forward new.planner)
    (hphases : NoEmptyPhase sort new (timeOf c m) dT) {p : Plugin (Dcm K) (DcmOut K)}
    {o : DcmOut K} {s : DcmSample K} (hd : old.dcm = some p) (ho : p.result = some o) (hs : o.samples[m]? = some s)
    (hv : s.vel.norm < 1 / 100000) : Turns new.planner.startLeft (takeoffs (supportsOf new)) := by
  obtain ⟨fuel, changes, weight, pos, vel, endTime, -, -, r3⟩ := h.replanned
  obtain ⟨w1, ordered, t, hm⟩ := call_made_by (c := .reGenerate _ dT endTime _) r3
  exact (takeoffs_walk (hsort _ _) hm (hphases _ _ hm.made) (turns_at_rest hpi hi h hL hR hmin hf hd ho hs hv)).1

/-- C113: the contacts of all walks are made in turns if those of the first one are; nothing else is needed. -/
theorem C113_contacts (hpi : (0 : K) ≤ Trig.pi) (h : Walking integ sort dT legs w time)
    (htimes : Everywhere (fun w _ => NonNeg w.left ∧ NonNeg w.right) legs w time)
    (hmin : Everywhere (fun w _ => 0 < w.planner.minTime) legs w time)
    (hfirst : Alternating (firstWalk legs w).left.steps (firstWalk legs w).right.steps) :
    Everywhere (fun w _ => Alternating w.left.steps w.right.steps) legs w time := by
  induction h with
  | start hr hg hd => exact ⟨by simp, hfirst⟩
  | @again legs before old new c k m q hw hd hm ih =>
    obtain ⟨t1, t2⟩ := everywhere_snoc htimes
    obtain ⟨m1, m2⟩ := everywhere_snoc hmin
    obtain ⟨i1, i2⟩ := ih t1 m1 (by cases legs <;> simpa [firstWalk] using hfirst)
    refine ⟨fun l hl => ?_, alternating_next hpi hm t1.2.1 t1.2.2 m2⟩
    rcases List.mem_append.mp hl with hl | hl
    · exact i1 l hl
    · simp at hl; rw [hl]; exact i2

/-- C111: the load of the feet changes gradually; that the contacts are made in turns is needed for the first walk only. -/
theorem C111_load_planned (hpi : (0 : K) ≤ Trig.pi) (hsort : ∀ l r, SortedPtrs l r (sort l r)) (h : Walking integ sort dT legs w time) {n : Nat}
    {r e : K} (htimes : Everywhere (fun w _ => NonNeg w.left ∧ NonNeg w.right) legs w time)
    (hphases : Everywhere (fun w time => LongPhases sort dT n w time) legs w time)
    (hmin : Everywhere (fun w _ => 0 < w.planner.minTime) legs w time)
    (hfirst : Alternating (firstWalk legs w).left.steps (firstWalk legs w).right.steps)
    (hrate : Everywhere (fun w _ => LoadRate w.cfg dT n r e) legs w time)
    (hleft : ∀ l ∈ legs, BothDown l.walk l.count ∧ LeftWalking l)
    (hstart : StartsCalmly r (firstWalk legs w)) (f : Bool) :
    (executed (loadsOf f) legs w).IsChain fun x y => |y.1 - x.1| ≤ (e + 3 / 2 * r) * dT :=
  C111_load hpi hsort h htimes hphases (C113_contacts hpi h htimes hmin hfirst) hrate hleft hstart f

end

section
open Demo
attribute [local instance] Demo.flat

private theorem onward_keeps : KeepsCommand onward := fun _ _ _ _ => rfl

private def forwards (w : Walker ℚ) : Bool :=
  decide (0 < w.planner.minTime) && decide (w.planner.controller = .direct ∧ w.planner.ctrl.direct.desired.lateral = 0) &&
    decide (w.planner.resetStartingFoot = false)

private theorem forwards_iff {w : Walker ℚ} (h : forwards w = true) :
    0 < w.planner.minTime ∧ Forward w.planner ∧ w.planner.resetStartingFoot = false := by
  simp only [forwards, Bool.and_eq_true, decide_eq_true_eq] at h
  exact ⟨h.1.1, Or.inr h.1.2, h.2⟩

private def moving (w : Walker ℚ) (m : Nat) : Bool :=
  match w.dcm.bind (·.result) with
  | some o => (o.samples[m]?).any fun s => decide (1 / 100000 ≤ s.vel.norm)
  | none => false

private theorem moving_iff {l : Leg ℚ} (h : moving l.walk l.count = true) (hq : ∀ a b, l.request ≠ .steps a b) : KeepsTimes l := by
  refine ⟨hq, fun p o s hp ho hs => ?_⟩
  simpa [moving, hp, ho, hs] using h

private def turnsCheck : Bool :=
  match execution with
  | some ((w, m), (w', m'), w'') => fine w 0 && fine w' (m * (1 / 2) + 0) && fine w'' (m' * (1 / 2) + (m * (1 / 2) + 0)) &&
    forwards w && forwards w' && forwards w'' && stands w m && stands w' m' && moving w m && moving w' m' &&
    decide (w'.planner.startLeft = w.planner.startLeft ∧ w''.planner.startLeft = w'.planner.startLeft) &&
    decide (measuredOf true (nudge w' 1) ≠ none ∧ measuredOf false (nudge w' 1) = none) && decide (due w = true) &&
    decide ((takeoffs (executed supportsOf [⟨w, 0, m, .plain⟩, ⟨w', m * (1 / 2) + 0, m', nudge w' 1⟩] w'')).length = 5)
  | none => false

private theorem turns_checked : turnsCheck = true := by decide +kernel

/-- Non-vacuity of C113: in a walk that is replaced twice, the second time with a measurement of the left foot, five steps are made, in
turns, beginning with the left foot. -/
example : ∃ (legs : List (Leg ℚ)) (w : Walker ℚ) (time : ℚ), Walking onward insertion (1 / 2) legs w time ∧ legs.length = 2 ∧
    (∃ l ∈ legs, measuredOf true l.request ≠ none) ∧ (takeoffs (executed supportsOf legs w)).length = 5 ∧
    Turns true (takeoffs (executed supportsOf legs w)) ∧ (takeoffs (executed supportsOf legs w)).IsChain (· ≠ ·) ∧
    Everywhere (fun w _ => Alternating w.left.steps w.right.steps) legs w time := by
  have h := turns_checked
  unfold turnsCheck at h
  split at h
  case h_2 => cases h
  rename_i w m w' m' w'' hex
  simp only [Bool.and_eq_true, decide_eq_true_eq] at h
  obtain ⟨⟨⟨⟨⟨⟨⟨⟨⟨⟨⟨⟨⟨f1, f2⟩, f3⟩, v1⟩, v2⟩, v3⟩, s1⟩, s2⟩, d1⟩, d2⟩, hst⟩, hne⟩, hdue⟩, hcount⟩ := h
  obtain ⟨a1, a2, -⟩ := fine_iff f1
  obtain ⟨b1, b2, -⟩ := fine_iff f2
  obtain ⟨c1, c2, -⟩ := fine_iff f3
  unfold execution at hex
  split at hex
  case h_2 => cases hex
  rename_i w0 hgen
  split at hex
  case h_2 => cases hex
  rename_i w1 m1 hr1
  split at hex
  case h_2 => cases hex
  rename_i w2 m2 hr2
  cases hex
  have r0 : Reached onward insertion equipped := Reached.runAll _ (.new 0)
  have g1 := replaced_merging (c := .generate 0 (1 / 2) 10) r0 hgen rfl hr1
  have rw0 := Reached.call _ _ _ _ _ r0 hgen
  obtain ⟨before, rb, hb⟩ := replaced_call rw0 hr1
  have g2 := replaced_merging (c := .reGenerate ((m : ℚ) * (1 / 2) + 0) (1 / 2) 15 .plain) rb hb rfl hr2
  have hw0 : Walking onward insertion (1 / 2) [] w (0 : ℚ) := Walking.start (c := .generate 0 (1 / 2) 10) r0 hgen rfl
  have hw1 : Walking onward insertion (1 / 2) [⟨w, 0, m, .plain⟩] w' (m * (1 / 2) + 0) := Walking.again (c := .generate 0 (1 / 2) 10) hw0 rfl g1
  have hw2 : Walking onward insertion (1 / 2) [⟨w, 0, m, .plain⟩, ⟨w', m * (1 / 2) + 0, m', nudge w' 1⟩] w'' (m' * (1 / 2) + (m * (1 / 2) + 0)) :=
    Walking.again (c := .reGenerate ((m : ℚ) * (1 / 2) + 0) (1 / 2) 15 .plain) hw1 rfl g2
  have every : ∀ P : Walker ℚ → ℚ → Prop, P w 0 → P w' (m * (1 / 2) + 0) → P w'' (m' * (1 / 2) + (m * (1 / 2) + 0)) →
      Everywhere P [⟨w, 0, m, .plain⟩, ⟨w', m * (1 / 2) + 0, m', nudge w' 1⟩] w'' (m' * (1 / 2) + (m * (1 / 2) + 0)) := by
    intro P h1 h2 h3
    refine ⟨fun l hl => ?_, h3⟩
    simp only [List.mem_cons, List.not_mem_nil, or_false] at hl
    rcases hl with rfl | rfl
    exacts [h1, h2]
  have hpi : (0 : ℚ) ≤ Trig.pi := by decide +kernel
  have hq : ∀ a b, nudge w' 1 ≠ .steps a b := by
    intro a b e
    rw [e] at hne
    exact absurd hne.2 (by simp [measuredOf])
  have hleft : ∀ l ∈ ([⟨w, 0, m, .plain⟩, ⟨w', m * (1 / 2) + 0, m', nudge w' 1⟩] : List (Leg ℚ)), LeftStanding l ∧ KeepsTimes l := by
    intro l hl
    simp only [List.mem_cons, List.not_mem_nil, or_false] at hl
    rcases hl with rfl | rfl
    · exact ⟨(stands_iff s1).1, moving_iff d1 (by simp)⟩
    · exact ⟨(stands_iff s2).1, moving_iff d2 hq⟩
  have hfirst := C113_first (w := w) hpi onward_keeps r0 hgen rfl rfl (forwards_iff v1).1 (forwards_iff v1).2.1 (forwards_iff v1).2.2
  have k1 := C113_turns hpi onward_keeps insertion_sorts hw2 (every _ a1 b1 c1) (every _ (noEmpty_of_long a2) (noEmpty_of_long b2) (noEmpty_of_long c2))
    (every _ (forwards_iff v1) (forwards_iff v2) (forwards_iff v3)) hleft
    (.cons_cons (fun _ => hst.1) (.cons_cons (fun _ => hst.2) (.singleton _))) hfirst
  have k2 := C113_contacts hpi hw2 (every _ a1 b1 c1) (every _ (forwards_iff v1).1 (forwards_iff v2).1 (forwards_iff v3).1) (InTurn.alternating hfirst)
  have e : due (firstWalk [⟨w, 0, m, .plain⟩, ⟨w', m * (1 / 2) + 0, m', nudge w' 1⟩] w'') = true := hdue
  rw [e] at k1
  exact ⟨_, _, _, hw2, rfl, ⟨⟨w', m * (1 / 2) + 0, m', nudge w' 1⟩, by simp, hne.1⟩, hcount, k1, C113_never_twice k1, k2⟩

/-- Steps measured on the contacts of the robot after its first step, given with the same landing time. -/
private def together (w : Walker ℚ) : Request ℚ :=
  match w.left.steps, w.right.steps with
  | _ :: l :: _, r :: _ => .steps { l with impactTime := 1 } { r with impactTime := 1 }
  | _, _ => .plain

private def repeatCheck : Bool :=
  match equipped.call onward 1000 insertion (.generate 0 (1 / 2) 10) with
  | .done true w =>
    match replaced w 0 1 15 (together w) with
    | some (w', m) => stands w m && forwards w && forwards w' && decide (w'.planner.startLeft = w.planner.startLeft) &&
        decide (takeoffs (executed supportsOf [⟨w, 0, m, together w⟩] w') = [true, true])
    | none => false
  | _ => false

private theorem repeat_checked : repeatCheck = true := by decide +kernel

/-- C113: that the replacements keep the landing times is needed: if the walk is replaced with measured steps that are given with the same
landing time, the left foot makes two steps in a row. -/
theorem C113_measured_times : ∃ (legs : List (Leg ℚ)) (w : Walker ℚ) (time : ℚ), Walking onward insertion (1 / 2) legs w time ∧
    Everywhere (fun w _ => 0 < w.planner.minTime ∧ Forward w.planner ∧ w.planner.resetStartingFoot = false) legs w time ∧
    (∀ l ∈ legs, LeftStanding l) ∧ (legs.map (·.walk) ++ [w]).IsChain KeepsStart ∧
    takeoffs (executed supportsOf legs w) = [true, true] := by
  have h := repeat_checked
  unfold repeatCheck at h
  split at h
  case h_2 => cases h
  rename_i w hgen
  split at h
  case h_2 => cases h
  rename_i w' m hr1
  simp only [Bool.and_eq_true, decide_eq_true_eq] at h
  obtain ⟨⟨⟨⟨s1, v1⟩, v2⟩, hst⟩, ht⟩ := h
  have r0 : Reached onward insertion equipped := Reached.runAll _ (.new 0)
  have g1 := replaced_merging (c := .generate 0 (1 / 2) 10) r0 hgen rfl hr1
  have hw0 : Walking onward insertion (1 / 2) [] w (0 : ℚ) := Walking.start (c := .generate 0 (1 / 2) 10) r0 hgen rfl
  refine ⟨[⟨w, 0, m, together w⟩], w', m * (1 / 2) + 0, Walking.again (c := .generate 0 (1 / 2) 10) hw0 rfl g1,
    ⟨fun l hl => ?_, forwards_iff v2⟩, fun l hl => ?_, .cons_cons (fun _ => hst) (.singleton _), ht⟩
  · simp at hl; rw [hl]; exact forwards_iff v1
  · simp at hl; rw [hl]; exact (stands_iff s1).1

private def restCheck : Bool :=
  match equipped.call onward 1000 insertion (.generate 0 (1 / 2) 10) with
  | .done true w =>
    match replaced w 0 0 15 .plain with
    | some (w', m) => fine w 0 && fine w' (m * (1 / 2) + 0) && forwards w' &&
        ((w.dcm.bind (·.result)).any fun o => (o.samples[m]?).any fun s => decide (s.vel.norm < 1 / 100000)) &&
        decide ((takeoffs (supportsOf w')).length = 4)
    | none => false
  | _ => false

private theorem rest_checked : restCheck = true := by decide +kernel

/-- Non-vacuity of `C113_at_rest`: a walk replaced before the robot moves; four steps are made. -/
example : ∃ (old new : Walker ℚ) (m : Nat), Merging onward insertion equipped old new (.generate 0 (1 / 2) 10) 0 m .plain (1 / 2) ∧
    (takeoffs (supportsOf new)).length = 4 ∧ Turns new.planner.startLeft (takeoffs (supportsOf new)) := by
  have h := rest_checked
  unfold restCheck at h
  split at h
  case h_2 => cases h
  rename_i w hgen
  split at h
  case h_2 => cases h
  rename_i w' m hr1
  simp only [Bool.and_eq_true, decide_eq_true_eq] at h
  obtain ⟨⟨⟨⟨f1, f2⟩, v2⟩, hv⟩, ht⟩ := h
  obtain ⟨a1, -⟩ := fine_iff f1
  obtain ⟨-, b2, -⟩ := fine_iff f2
  have r0 : Reached onward insertion equipped := Reached.runAll _ (.new 0)
  have g1 := replaced_merging (c := .generate 0 (1 / 2) 10) r0 hgen rfl hr1
  simp only [Option.any_eq_true, Option.bind_eq_some_iff, decide_eq_true_eq] at hv
  obtain ⟨o, ⟨p, hp, ho⟩, s, hs, hv⟩ := hv
  exact ⟨w, w', m, g1, ht, C113_at_rest (by decide +kernel) onward_keeps insertion_sorts g1 a1.1 a1.2 (forwards_iff v2).1 (forwards_iff v2).2.1
    (noEmpty_of_long b2) hp ho hs hv⟩

end

end Uni.Walker
