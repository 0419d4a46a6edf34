import Verif.Lemmas.Pace
import Verif.Props.Stride

/-! # C116: how fast the feet are moved while walking on and on -/

set_option autoImplicit false
set_option linter.unusedSectionVars false

namespace Uni.Walker
open Spec Gen

section
variable {K : Type} [Field K] [LinearOrder K] [IsStrictOrderedRing K] [FloorRing K] [Trig K]
variable {integ : Integrator K} {sort : Sorter K} {before w : Walker K} {dT time : K} {legs : List (Leg K)}
variable {R : Vec2 K × K → Vec2 K × K → Prop}

/-- C116: if the poses of the feet are related in a way that bounds the strides by `d` and the turns by `b`, and the phases have `n`
samples at least, then at all executed samples the speed of a foot is at most `3/2 d / (n dT)`, its squared acceleration at most
`36 d² / (n dT)⁴` and its turning rate at most `3/2 b / (n dT)` with the splines, and accordingly with the minimum-jerk polynomials. -/
theorem C116_pace (hsort : ∀ l r, SortedPtrs l r (sort l r)) (h : Walking integ sort dT legs w time) {n : Nat}
    (hphases : Everywhere (fun w time => LongPhases sort dT n w time) legs w time)
    (hcubic : Everywhere (fun w _ => ∀ p, w.cubic = some p → 0 ≤ p.state.stepHeight) legs w time)
    (hjerk : Everywhere (fun w _ => ∀ p, w.minJerk = some p → 0 ≤ p.state.stepHeight) legs w time)
    (hP : Everywhere (fun w _ => Paired R w.left.steps w.right.steps) legs w time)
    {d b : K} (hd : 0 ≤ d) (hb : 0 ≤ b) (hR : Spans R d b) (f : Bool) :
    (∀ x ∈ executed (footOf Walker.cubic f) legs w,
      Paced (3 / 2 * d / (n * dT)) (36 * d ^ 2 / (n * dT) ^ 4) (3 / 2 * b / (n * dT)) x.2) ∧
    ∀ x ∈ executed (footOf Walker.minJerk f) legs w,
      Paced (15 / 8 * d / (n * dT)) (100 / 3 * d ^ 2 / (n * dT) ^ 4) (15 / 8 * b / (n * dT)) x.2 :=
  ⟨everywhere_executed h (everywhere_and hP (everywhere_and hphases hcubic)) fun hw hh =>
      (cubic_pace hd hb hsort hw hh.2.1 hh.2.2 hh.1 hR f).1,
    everywhere_executed h (everywhere_and hP (everywhere_and hphases hjerk)) fun hw hh =>
      (minJerk_pace hd hb hsort hw hh.2.1 hh.2.2 hh.1 hR f).1⟩

/-- C116: from one executed sample to the next one a foot without measurements moves by at most `3/2 d / n` and turns by at most
`3/2 b / n` with the splines, and accordingly with the minimum-jerk polynomials, also from the last sample of a walk to the first one of
the walk that replaces it. -/
theorem C116_creeps (hpi : (0 : K) ≤ Trig.pi) (hsort : ∀ l r, SortedPtrs l r (sort l r)) (h : Walking integ sort dT legs w time) {n : Nat}
    (htimes : Everywhere (fun w _ => NonNeg w.left ∧ NonNeg w.right) legs w time)
    (hphases : Everywhere (fun w time => LongPhases sort dT n w time) legs w time)
    (hcubic : Everywhere (fun w _ => ∀ p, w.cubic = some p → 0 ≤ p.state.stepHeight) legs w time)
    (hjerk : Everywhere (fun w _ => ∀ p, w.minJerk = some p → 0 ≤ p.state.stepHeight) legs w time)
    (hP : Everywhere (fun w _ => Paired R w.left.steps w.right.steps) legs w time)
    {d b : K} (hd : 0 ≤ d) (hb : 0 ≤ b) (hR : Spans R d b) (hleft : ∀ l ∈ legs, LeftStanding l) (f : Bool)
    (hplain : ∀ l ∈ legs, measuredOf f l.request = none) :
    (executed (footOf Walker.cubic f) legs w).IsChain (Creeps (3 / 2 * d / n) (3 / 2 * b / n)) ∧
    (executed (footOf Walker.minJerk f) legs w).IsChain (Creeps (15 / 8 * d / n) (15 / 8 * b / n)) := by
  induction h with
  | start hr hg hdt =>
    have hw := Walking.start (integ := integ) (sort := sort) hr hg hdt
    exact ⟨by simpa [executed] using (cubic_pace hd hb hsort hw hphases.2 hcubic.2 hP.2 hR f).2,
      by simpa [executed] using (minJerk_pace hd hb hsort hw hphases.2 hjerk.2 hP.2 hR f).2⟩
  | @again legs before old new c k m q hw hdt hm ih =>
    obtain ⟨t1, t2⟩ := everywhere_snoc htimes
    obtain ⟨p1, p2⟩ := everywhere_snoc hphases
    obtain ⟨c1, c2⟩ := everywhere_snoc hcubic
    obtain ⟨j1, j2⟩ := everywhere_snoc hjerk
    obtain ⟨r1, r2⟩ := everywhere_snoc hP
    obtain ⟨i1, i2⟩ := ih t1 p1 c1 j1 r1 (fun l hl => hleft l (by simp [hl])) fun l hl => hplain l (by simp [hl])
    obtain ⟨d1, d2⟩ := hleft ⟨old, (timesOf c).1, m, q⟩ (by simp)
    have hq := hplain ⟨old, (timesOf c).1, m, q⟩ (by simp)
    have hw' := Walking.again hw hdt hm
    obtain ⟨f1, f2⟩ := C88_corrected hpi hsort hm t1.2.1 t1.2.2 (by rw [hdt]; exact noEmpty_of_long p1.2) (noEmpty_of_long p2) d1 d2 c1.2 j1.2
    obtain ⟨_, _, _, w3, _, t', _, _, _, _, _, _, _, _, hm3, _, _, parts⟩ := parts hpi hm t1.2.1 t1.2.2
    have hn := first_contact hm3 (noEmpty_of_long p2 _ _ hm3.made)
    rw [executed_snoc, executed_snoc]
    refine ⟨chain_joint i1 (cubic_pace hd hb hsort hw' p2 c2 r2 hR f).2 (foot_joint f1 ?_ d1 hn f hq),
      chain_joint i2 (minJerk_pace hd hb hsort hw' p2 j2 r2 hR f).2 (foot_joint f2 ?_ d1 hn f hq)⟩
    · intro hno
      cases hnew : new.cubic with
      | none => rfl
      | some p' =>
        obtain ⟨p, _, _, e, -⟩ := hm3.cubic p' hnew
        rw [parts.cubic, hno] at e
        cases e
    · intro hno
      cases hnew : new.minJerk with
      | none => rfl
      | some p' =>
        obtain ⟨p, _, _, e, -⟩ := hm3.minJerk p' hnew
        rw [parts.minJerk, hno] at e
        cases e

end

section
variable {integ : Integrator ℝ} {sort : Sorter ℝ} {w : Walker ℝ} {dT time : ℝ} {legs : List (Leg ℝ)}

/-- At most `d` apart, and turned by at most `a` net of the yaw offsets. -/
private abbrev Near (d o a : ℝ) (l r : Vec2 ℝ × ℝ) : Prop := Within d l r ∧ TurnedBy o a l r

private theorem spans_near (d o a : ℝ) : Spans (Near d o a) (2 * d) (2 * a) := by
  have key : ∀ p q c : Vec2 ℝ, (p.x - c.x) ^ 2 + (p.y - c.y) ^ 2 ≤ d ^ 2 → (q.x - c.x) ^ 2 + (q.y - c.y) ^ 2 ≤ d ^ 2 →
      (q.x - p.x) ^ 2 + (q.y - p.y) ^ 2 ≤ (2 * d) ^ 2 := by
    intro p q c h1 h2
    nlinarith [sq_nonneg (p.x - c.x + (q.x - c.x)), sq_nonneg (p.y - c.y + (q.y - c.y))]
  have sq : ∀ p q : Vec2 ℝ, Spec.dist p q ≤ d → (p.x - q.x) ^ 2 + (p.y - q.y) ^ 2 ≤ d ^ 2 := fun p q h => (Real.sqrt_le_iff.mp h).2
  rintro x y z (⟨⟨h1, h2⟩, h3, h4⟩ | ⟨⟨h1, h2⟩, h3, h4⟩)
  · refine ⟨key _ _ _ (sq _ _ h1) (sq _ _ h3), ?_⟩
    unfold TurnedBy at h2 h4
    rw [abs_le] at *
    constructor <;> linarith [h2.1, h2.2, h4.1, h4.2]
  · rw [Within, Planner.dist_symm] at h1 h3
    refine ⟨key _ _ _ (sq _ _ h1) (sq _ _ h3), ?_⟩
    unfold TurnedBy at h2 h4
    rw [abs_le] at *
    constructor <;> linarith [h2.1, h2.2, h4.1, h4.2]

private theorem keeps_both {R S : Vec2 ℝ × ℝ → Vec2 ℝ × ℝ → Prop} {p : Planner ℝ} (h : KeepsStance R p) (h' : KeepsStance S p) :
    KeepsStance (fun l r => R l r ∧ S l r) p :=
  ⟨fun u l r t t' => ⟨h.beside u l r t t', h'.beside u l r t t'⟩, fun prev u l r dur t ho => ⟨h.left prev u l r dur t ho, h'.left prev u l r dur t ho⟩,
    fun prev u l r dur t ho => ⟨h.right prev u l r dur t ho, h'.right prev u l r dur t ho⟩⟩

private theorem near_everywhere (h : Walking integ sort dT legs w time)
    (htimes : Everywhere (fun w _ => NonNeg w.left ∧ NonNeg w.right) legs w time)
    (hmin : Everywhere (fun w _ => 0 < w.planner.minTime) legs w time) {d o a : ℝ}
    (hset : Everywhere (fun w _ => w.planner.maxLength ≤ d ∧ w.planner.leftYaw - w.planner.rightYaw = o ∧ w.planner.maxAngle ≤ a) legs w time)
    (hmeas : ∀ l ∈ legs, MeasuredWith (fun l r => Within d l r ∧ TurnedBy o a l r) dT l)
    (hfirst : Paired (fun l r => Within d l r ∧ TurnedBy o a l r) (firstWalk legs w).left.steps (firstWalk legs w).right.steps) :
    0 ≤ d ∧ 0 ≤ a ∧ Everywhere (fun w _ => Paired (Near d o a) w.left.steps w.right.steps) legs w time := by
  have hc := consistent_of_reached (walking_reached h).2
  refine ⟨?_, hc.maxAngle.trans hset.2.2.2, paired_everywhere Real.pi_pos.le h htimes hmin ?_ hmeas hfirst⟩
  · exact hc.maxLength.trans hset.2.1
  · exact everywhere_imp hset h fun _ _ hc hs ha => keeps_both (C112_keeps_distance hc ha hs.1) (by rw [← hs.2.1]; exact C112_keeps_turn hc hs.2.2)

/-- C116: however often the walk is replaced, the speed, the acceleration and the turning rate of the feet stay within bounds that
depend on the settings only: on the maximum step length, the maximum rotation, and the time a phase takes at least. -/
theorem C116_speed (hsort : ∀ l r, SortedPtrs l r (sort l r)) (h : Walking integ sort dT legs w time) {n : Nat}
    (htimes : Everywhere (fun w _ => NonNeg w.left ∧ NonNeg w.right) legs w time)
    (hphases : Everywhere (fun w time => LongPhases sort dT n w time) legs w time)
    (hcubic : Everywhere (fun w _ => ∀ p, w.cubic = some p → 0 ≤ p.state.stepHeight) legs w time)
    (hjerk : Everywhere (fun w _ => ∀ p, w.minJerk = some p → 0 ≤ p.state.stepHeight) legs w time)
    (hmin : Everywhere (fun w _ => 0 < w.planner.minTime) legs w time) {d o a : ℝ}
    (hset : Everywhere (fun w _ => w.planner.maxLength ≤ d ∧ w.planner.leftYaw - w.planner.rightYaw = o ∧ w.planner.maxAngle ≤ a) legs w time)
    (hmeas : ∀ l ∈ legs, MeasuredWith (fun l r => Within d l r ∧ TurnedBy o a l r) dT l)
    (hfirst : Paired (fun l r => Within d l r ∧ TurnedBy o a l r) (firstWalk legs w).left.steps (firstWalk legs w).right.steps) (f : Bool) :
    (∀ x ∈ executed (footOf Walker.cubic f) legs w, Paced (3 * d / (n * dT)) (144 * d ^ 2 / (n * dT) ^ 4) (3 * a / (n * dT)) x.2) ∧
    ∀ x ∈ executed (footOf Walker.minJerk f) legs w,
      Paced (15 / 4 * d / (n * dT)) (400 / 3 * d ^ 2 / (n * dT) ^ 4) (15 / 4 * a / (n * dT)) x.2 := by
  obtain ⟨h1, h2, h3⟩ := near_everywhere h htimes hmin hset hmeas hfirst
  have := C116_pace hsort h hphases hcubic hjerk h3 (by linarith) (by linarith) (spans_near d o a) f
  rw [show (3 : ℝ) / 2 * (2 * d) = 3 * d by ring, show (3 : ℝ) / 2 * (2 * a) = 3 * a by ring, show (36 : ℝ) * (2 * d) ^ 2 = 144 * d ^ 2 by ring,
    show (15 : ℝ) / 8 * (2 * d) = 15 / 4 * d by ring, show (15 : ℝ) / 8 * (2 * a) = 15 / 4 * a by ring,
    show (100 : ℝ) / 3 * (2 * d) ^ 2 = 400 / 3 * d ^ 2 by ring] at this
  exact this

/-- C116: the same from one executed sample to the next one, for a foot without measurements. -/
theorem C116_next (hsort : ∀ l r, SortedPtrs l r (sort l r)) (h : Walking integ sort dT legs w time) {n : Nat}
    (htimes : Everywhere (fun w _ => NonNeg w.left ∧ NonNeg w.right) legs w time)
    (hphases : Everywhere (fun w time => LongPhases sort dT n w time) legs w time)
    (hcubic : Everywhere (fun w _ => ∀ p, w.cubic = some p → 0 ≤ p.state.stepHeight) legs w time)
    (hjerk : Everywhere (fun w _ => ∀ p, w.minJerk = some p → 0 ≤ p.state.stepHeight) legs w time)
    (hmin : Everywhere (fun w _ => 0 < w.planner.minTime) legs w time) {d o a : ℝ}
    (hset : Everywhere (fun w _ => w.planner.maxLength ≤ d ∧ w.planner.leftYaw - w.planner.rightYaw = o ∧ w.planner.maxAngle ≤ a) legs w time)
    (hmeas : ∀ l ∈ legs, MeasuredWith (fun l r => Within d l r ∧ TurnedBy o a l r) dT l)
    (hfirst : Paired (fun l r => Within d l r ∧ TurnedBy o a l r) (firstWalk legs w).left.steps (firstWalk legs w).right.steps)
    (hleft : ∀ l ∈ legs, LeftStanding l) (f : Bool) (hplain : ∀ l ∈ legs, measuredOf f l.request = none) :
    (executed (footOf Walker.cubic f) legs w).IsChain (Creeps (3 * d / n) (3 * a / n)) ∧
    (executed (footOf Walker.minJerk f) legs w).IsChain (Creeps (15 / 4 * d / n) (15 / 4 * a / n)) := by
  obtain ⟨h1, h2, h3⟩ := near_everywhere h htimes hmin hset hmeas hfirst
  have := C116_creeps Real.pi_pos.le hsort h htimes hphases hcubic hjerk h3 (by linarith) (by linarith) (spans_near d o a) hleft f hplain
  rw [show (3 : ℝ) / 2 * (2 * d) = 3 * d by ring, show (3 : ℝ) / 2 * (2 * a) = 3 * a by ring,
    show (15 : ℝ) / 8 * (2 * d) = 15 / 4 * d by ring, show (15 : ℝ) / 8 * (2 * a) = 15 / 4 * a by ring] at this
  exact this

end

section
open Demo
attribute [local instance] Demo.flat

/-- At most 1/5 ahead or behind, 2/25 to 1/5 to the left, and parallel. -/
private def boxed (l r : Vec2 ℚ × ℚ) : Prop := |l.1.x - r.1.x| ≤ 1 / 5 ∧ 2 / 25 ≤ l.1.y - r.1.y ∧ l.1.y - r.1.y ≤ 1 / 5 ∧ l.2 = r.2

private instance (l r : Vec2 ℚ × ℚ) : Decidable (boxed l r) := inferInstanceAs (Decidable (_ ∧ _))

private theorem spans_boxed : Spans boxed (21 / 50) 0 := by
  rintro x y z (⟨⟨h1, h2, h3, h4⟩, g1, g2, g3, g4⟩ | ⟨⟨h1, h2, h3, h4⟩, g1, g2, g3, g4⟩)
  all_goals
    rw [abs_le] at h1 g1
    refine ⟨?_, by rw [show y.2 - x.2 = 0 by linarith, abs_zero]⟩
    have e1 : (y.1.x - x.1.x) ^ 2 ≤ (2 / 5) ^ 2 := sq_le_sq' (by linarith [h1.1, h1.2, g1.1, g1.2]) (by linarith [h1.1, h1.2, g1.1, g1.2])
    have e2 : (y.1.y - x.1.y) ^ 2 ≤ (3 / 25) ^ 2 := sq_le_sq' (by linarith) (by linarith)
    norm_num at e1 e2 ⊢
    linarith

private def pairedCheck (left right : List (Step ℚ)) : Bool :=
  (List.range left.length).all fun i => (List.range right.length).all fun j =>
    match left[i]?, right[j]? with
    | some l, some r =>
      !((left[i + 1]?.all fun s => decide (r.impactTime < s.impactTime)) && (right[j + 1]?.all fun s => decide (l.impactTime < s.impactTime))) ||
        decide (boxed (l.position, l.angle) (r.position, r.angle))
    | _, _ => true

private theorem paired_of_check {left right : List (Step ℚ)} (h : pairedCheck left right = true) : Paired boxed left right := by
  intro i j l r hl hr h1 h2
  simp only [pairedCheck, List.all_eq_true, List.mem_range] at h
  have := h i (List.getElem?_eq_some_iff.mp hl).1 j (List.getElem?_eq_some_iff.mp hr).1
  rw [hl, hr] at this
  simp only [Bool.or_eq_true, Bool.not_eq_true', Bool.and_eq_false_iff, decide_eq_true_eq] at this
  rcases this with (h | h) | h
  · cases hs : left[i + 1]? with
    | none => rw [hs] at h; cases h
    | some s => rw [hs] at h; simp only [Option.all_some, decide_eq_false_iff_not] at h; exact absurd (h1 s hs) h
  · cases hs : right[j + 1]? with
    | none => rw [hs] at h; cases h
    | some s => rw [hs] at h; simp only [Option.all_some, decide_eq_false_iff_not] at h; exact absurd (h2 s hs) h
  · exact h

private def paceCheck : Bool :=
  match execution with
  | some ((w, m), (w', m'), w'') => fine w 0 && fine w' (m * (1 / 2) + 0) && fine w'' (m' * (1 / 2) + (m * (1 / 2) + 0)) &&
    pairedCheck w.left.steps w.right.steps && pairedCheck w'.left.steps w'.right.steps && pairedCheck w''.left.steps w''.right.steps &&
    stands w m && stands w' m' && decide (measuredOf false (nudge w' 1) = none) && decide (measuredOf true (nudge w' 1) ≠ none) &&
    (executed (footOf Walker.minJerk false) [⟨w, 0, m, .plain⟩, ⟨w', m * (1 / 2) + 0, m', nudge w' 1⟩] w'').any (fun x => decide (1 / 10 < x.2.vel.x))
  | none => false

private theorem pace_checked : paceCheck = true := by decide +kernel

/-- Non-vacuity of C116: in a walk that is replaced twice, the second time with a measurement of the left foot, the feet get faster than
1/10, but never faster than 63/80, and the right foot never moves by more than 63/160 from one sample to the next one, nor turns. -/
example : ∃ (legs : List (Leg ℚ)) (w : Walker ℚ) (time : ℚ), Walking onward insertion (1 / 2) legs w time ∧ legs.length = 2 ∧
    (∃ l ∈ legs, measuredOf true l.request ≠ none) ∧ (∃ x ∈ executed (footOf Walker.minJerk false) legs w, 1 / 10 < x.2.vel.x) ∧
    (∀ f, ∀ x ∈ executed (footOf Walker.minJerk f) legs w, Paced (63 / 80) (147 / 25) 0 x.2) ∧
    (executed (footOf Walker.minJerk false) legs w).IsChain (Creeps (63 / 160) 0) := by
  have h := pace_checked
  unfold paceCheck at h
  split at h
  case h_2 => cases h
  rename_i w m w' m' w'' hex
  simp only [Bool.and_eq_true, decide_eq_true_eq] at h
  obtain ⟨⟨⟨⟨⟨⟨⟨⟨⟨⟨f1, f2⟩, f3⟩, v1⟩, v2⟩, v3⟩, s1⟩, s2⟩, n4⟩, hne⟩, hfast⟩ := h
  obtain ⟨a1, a2, a3, a4, -⟩ := fine_iff f1
  obtain ⟨b1, b2, b3, b4, -⟩ := fine_iff f2
  obtain ⟨c1, c2, c3, c4, -⟩ := fine_iff f3
  unfold execution at hex
  split at hex
  case h_2 => cases hex
  rename_i w0 hgen
  split at hex
  case h_2 => cases hex
  rename_i w1 m1 hr1
  split at hex
  case h_2 => cases hex
  rename_i w2 m2 hr2
  cases hex
  have r0 : Reached onward insertion equipped := Reached.runAll _ (.new 0)
  have g1 := replaced_merging (c := .generate 0 (1 / 2) 10) r0 hgen rfl hr1
  have rw0 := Reached.call _ _ _ _ _ r0 hgen
  obtain ⟨before, rb, hb⟩ := replaced_call rw0 hr1
  have g2 := replaced_merging (c := .reGenerate ((m : ℚ) * (1 / 2) + 0) (1 / 2) 15 .plain) rb hb rfl hr2
  have hw0 : Walking onward insertion (1 / 2) [] w (0 : ℚ) := Walking.start (c := .generate 0 (1 / 2) 10) r0 hgen rfl
  have hw1 : Walking onward insertion (1 / 2) [⟨w, 0, m, .plain⟩] w' (m * (1 / 2) + 0) := Walking.again (c := .generate 0 (1 / 2) 10) hw0 rfl g1
  have hw2 : Walking onward insertion (1 / 2) [⟨w, 0, m, .plain⟩, ⟨w', m * (1 / 2) + 0, m', nudge w' 1⟩] w'' (m' * (1 / 2) + (m * (1 / 2) + 0)) :=
    Walking.again (c := .reGenerate ((m : ℚ) * (1 / 2) + 0) (1 / 2) 15 .plain) hw1 rfl g2
  have every : ∀ P : Walker ℚ → ℚ → Prop, P w 0 → P w' (m * (1 / 2) + 0) → P w'' (m' * (1 / 2) + (m * (1 / 2) + 0)) →
      Everywhere P [⟨w, 0, m, .plain⟩, ⟨w', m * (1 / 2) + 0, m', nudge w' 1⟩] w'' (m' * (1 / 2) + (m * (1 / 2) + 0)) := by
    intro P h1 h2 h3
    refine ⟨fun l hl => ?_, h3⟩
    simp only [List.mem_cons, List.not_mem_nil, or_false] at hl
    rcases hl with rfl | rfl
    exacts [h1, h2]
  have hst : ∀ l ∈ [(⟨w, 0, m, .plain⟩ : Leg ℚ), ⟨w', m * (1 / 2) + 0, m', nudge w' 1⟩], LeftStanding l ∧ LeftWalking l := by
    intro l hl
    simp only [List.mem_cons, List.not_mem_nil, or_false] at hl
    rcases hl with rfl | rfl
    exacts [stands_iff s1, stands_iff s2]
  have hpi : (0 : ℚ) ≤ Trig.pi := by decide +kernel
  have hP := every (fun w _ => Paired boxed w.left.steps w.right.steps) (paired_of_check v1) (paired_of_check v2) (paired_of_check v3)
  have k1 := C116_pace insertion_sorts hw2 (every _ a2 b2 c2) (every _ a3 b3 c3) (every _ a4 b4 c4) hP (by norm_num) le_rfl spans_boxed
  have k2 := C116_creeps hpi insertion_sorts hw2 (every _ a1 b1 c1) (every _ a2 b2 c2) (every _ a3 b3 c3) (every _ a4 b4 c4) hP (by norm_num) le_rfl
    spans_boxed (fun l hl => (hst l hl).1) false
    (by
      intro l hl
      simp only [List.mem_cons, List.not_mem_nil, or_false] at hl
      rcases hl with rfl | rfl
      exacts [rfl, n4])
  simp only [List.any_eq_true, decide_eq_true_eq] at hfast
  refine ⟨_, _, _, hw2, rfl, ⟨⟨w', m * (1 / 2) + 0, m', nudge w' 1⟩, by simp, hne⟩, hfast, fun f x hx => ?_, k2.2.imp fun x y hxy => ?_⟩
  · have := (k1 f).2 x hx
    norm_num at this
    exact this
  · norm_num at hxy
    exact hxy

end

end Uni.Walker
