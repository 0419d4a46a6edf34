import Verif.Lemmas.Stride
import Verif.Props.Executed
import Verif.Lemmas.ExecutedDemo

/-! # C112: how the feet stand while walking on and on -/

set_option autoImplicit false
set_option linter.unusedSectionVars false

namespace Uni.Walker
open Spec Gen

section
variable {K : Type} [Field K] [LinearOrder K] [IsStrictOrderedRing K] [FloorRing K] [Trig K]
variable {integ : Integrator K} {sort : Sorter K} {before w : Walker K} {dT time : K} {legs : List (Leg K)}
variable {R : Vec2 K × K → Vec2 K × K → Prop}

/-- The contacts of every walk are related. -/
theorem paired_everywhere (hpi : (0 : K) ≤ Trig.pi) (h : Walking integ sort dT legs w time)
    (htimes : Everywhere (fun w _ => NonNeg w.left ∧ NonNeg w.right) legs w time)
    (hmin : Everywhere (fun w _ => 0 < w.planner.minTime) legs w time)
    (hkeep : Everywhere (fun w _ => Accepted w.planner → KeepsStance R w.planner) legs w time)
    (hmeas : ∀ l ∈ legs, MeasuredWith R dT l)
    (hfirst : Paired R (firstWalk legs w).left.steps (firstWalk legs w).right.steps) :
    Everywhere (fun w _ => Paired R w.left.steps w.right.steps) legs w time := by
  induction h with
  | start hr hg hd => exact ⟨by simp, hfirst⟩
  | @again legs before old new c k m q hw hd hm ih =>
    obtain ⟨t1, t2⟩ := everywhere_snoc htimes
    obtain ⟨m1, m2⟩ := everywhere_snoc hmin
    obtain ⟨k1, k2⟩ := everywhere_snoc hkeep
    obtain ⟨i1, i2⟩ := ih t1 m1 k1 (fun l hl => hmeas l (by simp [hl])) (by cases legs <;> simpa [firstWalk] using hfirst)
    have hq := hmeas ⟨old, (timesOf c).1, m, q⟩ (by simp)
    unfold MeasuredWith at hq
    simp only at hq
    rw [← hd] at hq
    refine ⟨fun l hl => ?_, paired_next hpi hm t1.2.1 t1.2.2 m2 k2 hq i2⟩
    rcases List.mem_append.mp hl with hl | hl
    · exact i1 l hl
    · simp at hl; rw [hl]; exact i2

/-- What holds of every sample of every walk holds of what is executed. -/
theorem everywhere_executed {α : Type} {f : Walker K → List α} {Q : α → Prop} {P : Walker K → K → Prop}
    (h : Walking integ sort dT legs w time) (he : Everywhere P legs w time)
    (hf : ∀ {legs : List (Leg K)} {w : Walker K} {time : K}, Walking integ sort dT legs w time → P w time → ∀ x ∈ f w, Q x) :
    ∀ x ∈ executed f legs w, Q x := by
  induction h with
  | start hr hg hd =>
    intro x hx
    exact hf (.start hr hg hd) he.2 x (by simpa [executed] using hx)
  | again hw hd hm ih =>
    obtain ⟨e1, e2⟩ := everywhere_snoc he
    intro x hx
    rw [executed_snoc, List.mem_append, List.mem_append] at hx
    rcases hx with (hx | hx) | hx
    · exact ih e1 x (by rw [executed, List.mem_append]; exact Or.inl hx)
    · exact hf hw e1.2 x (List.mem_of_mem_take hx)
    · exact hf (.again hw hd hm) e2 x hx

theorem everywhere_and {P Q : Walker K → K → Prop} (h : Everywhere P legs w time) (h' : Everywhere Q legs w time) :
    Everywhere (fun w t => P w t ∧ Q w t) legs w time := ⟨fun l hl => ⟨h.1 l hl, h'.1 l hl⟩, h.2, h'.2⟩

/-- C112: a relation between the poses of the feet that the settings of the planner keep holds at every executed sample with both feet
in contact, if it holds for the contacts of the first walk and for the measurements. -/
theorem C112_stands (hpi : (0 : K) ≤ Trig.pi) (hsort : ∀ l r, SortedPtrs l r (sort l r)) (h : Walking integ sort dT legs w time)
    (htimes : Everywhere (fun w _ => NonNeg w.left ∧ NonNeg w.right) legs w time)
    (hphases : Everywhere (fun w time => NoEmptyPhase sort w time dT) legs w time)
    (hcubic : Everywhere (fun w _ => ∀ p, w.cubic = some p → 0 ≤ p.state.stepHeight) legs w time)
    (hjerk : Everywhere (fun w _ => ∀ p, w.minJerk = some p → 0 ≤ p.state.stepHeight) legs w time)
    (hmin : Everywhere (fun w _ => 0 < w.planner.minTime) legs w time)
    (hkeep : Everywhere (fun w _ => Accepted w.planner → KeepsStance R w.planner) legs w time)
    (hmeas : ∀ l ∈ legs, MeasuredWith R dT l)
    (hfirst : Paired R (firstWalk legs w).left.steps (firstWalk legs w).right.steps) :
    (∀ x ∈ executed (feetOf Walker.cubic) legs w, StandsWith R x) ∧ ∀ x ∈ executed (feetOf Walker.minJerk) legs w, StandsWith R x := by
  have hP := paired_everywhere hpi h htimes hmin hkeep hmeas hfirst
  exact ⟨everywhere_executed h (everywhere_and hphases (everywhere_and hcubic hP)) fun hw hp => cubic_stand hsort hw hp.1 hp.2.1 hp.2.2,
    everywhere_executed h (everywhere_and hphases (everywhere_and hjerk hP)) fun hw hp => minJerk_stand hsort hw hp.1 hp.2.1 hp.2.2⟩

/-- C112: if moreover the relation is kept on the straight way from a pose to another, it holds at every executed sample, also while a
foot swings. -/
theorem C112_moves (hpi : (0 : K) ≤ Trig.pi) (hsort : ∀ l r, SortedPtrs l r (sort l r)) (h : Walking integ sort dT legs w time)
    (htimes : Everywhere (fun w _ => NonNeg w.left ∧ NonNeg w.right) legs w time)
    (hphases : Everywhere (fun w time => NoEmptyPhase sort w time dT) legs w time)
    (hcubic : Everywhere (fun w _ => ∀ p, w.cubic = some p → 0 ≤ p.state.stepHeight) legs w time)
    (hjerk : Everywhere (fun w _ => ∀ p, w.minJerk = some p → 0 ≤ p.state.stepHeight) legs w time)
    (hmin : Everywhere (fun w _ => 0 < w.planner.minTime) legs w time)
    (hkeep : Everywhere (fun w _ => Accepted w.planner → KeepsStance R w.planner) legs w time)
    (hmeas : ∀ l ∈ legs, MeasuredWith R dT l)
    (hfirst : Paired R (firstWalk legs w).left.steps (firstWalk legs w).right.steps) (hR : Convex R) :
    (∀ x ∈ executed (feetOf Walker.cubic) legs w, MovesWith R x) ∧ ∀ x ∈ executed (feetOf Walker.minJerk) legs w, MovesWith R x := by
  have hP := paired_everywhere hpi h htimes hmin hkeep hmeas hfirst
  exact ⟨everywhere_executed h (everywhere_and hphases (everywhere_and hcubic hP)) fun hw hp => cubic_move hsort hw hp.1 hp.2.1 hp.2.2 hR,
    everywhere_executed h (everywhere_and hphases (everywhere_and hjerk hP)) fun hw hp => minJerk_move hsort hw hp.1 hp.2.1 hp.2.2 hR⟩

/-- C112: such a relation holds for the contacts of a walk planned with no step yet. -/
theorem C112_first {fuel : Nat} {t0 t1 : K} (hpi : (0 : K) ≤ Trig.pi) (hb : Reached integ sort before)
    (h : before.call integ fuel sort (.generate t0 dT t1) = .done true w) (hl : before.left.steps = []) (hr : before.right.steps = [])
    (hmin : 0 < w.planner.minTime) (hk : Accepted w.planner → KeepsStance R w.planner) : Paired R w.left.steps w.right.steps :=
  paired_first hpi hb h hl hr hmin hk

end

section
variable {p : Planner ℝ}

/-- C112: the settings keep the feet from getting further apart than the maximum step length. -/
theorem C112_keeps_distance (hc : Consistent p) (ha : Accepted p) {d : ℝ} (hd : p.maxLength ≤ d) : KeepsStance (Within d) p := by
  refine ⟨fun u l r t t' => ?_, fun prev u l r dur t ho => ?_, fun prev u l r dur t ho => ?_⟩
  · unfold Within
    have e : Spec.dist (stepOf (leftFoot p l) u t).position (stepOf (rightFoot p r) u t').position = p.nominalWidth := by
      obtain ⟨w, -, w1, w2⟩ := hc.widthBound
      unfold Spec.dist
      rw [show p.nominalWidth = Real.sqrt (p.nominalWidth ^ 2) from (Real.sqrt_sq (w1.trans w2)).symm]
      congr 1
      simp only [stepOf, leftFoot, rightFoot, rot, Vec2.add_x, Vec2.add_y, cos_real, sin_real]
      have := Real.sin_sq_add_cos_sq u.angle
      nlinarith [this]
    simp only
    rw [e]
    exact ha.1.trans hd
  · have := (Planner.within_of_ok (t := t) ho).length _ hc.lengthBound
    exact this.le.trans hd
  · have := (Planner.within_of_ok (t := t) ho).length _ hc.lengthBound
    unfold Within
    simp only
    rw [Planner.dist_symm]
    exact this.le.trans hd

/-- C112: they keep the left foot on the left of the right one, by the minimum width at least (if the right foot has no yaw offset). -/
theorem C112_keeps_beside (hc : Consistent p) (hyaw : p.rightYaw = 0) {d : ℝ} (hd : ∀ m, p.problem.minWidth = some m → d ≤ m) :
    KeepsStance (Beside d) p := by
  obtain ⟨w, w0, w1, w2⟩ := hc.widthBound
  refine ⟨fun u l r t t' => ?_, fun prev u l r dur t ho => ?_, fun prev u l r dur t ho => ?_⟩
  · refine ⟨⟨0, p.nominalWidth⟩, (hd w w0).trans w2, ?_⟩
    ext <;> simp only [stepOf, leftFoot, rightFoot, rot, inFrame, Vec2.add_x, Vec2.add_y, cos_real, sin_real, hyaw, add_zero] <;> ring
  · obtain ⟨v, h1, h2⟩ := (Planner.within_of_ok (t := t) ho).width _ w0
    exact ⟨v, (hd w w0).trans h1.le, h2⟩
  · obtain ⟨v, h1, h2⟩ := (Planner.within_of_ok (t := t) ho).width _ w0
    rw [if_neg (by simp), hyaw, sub_zero] at h2
    exact ⟨v, (hd w w0).trans h1.le, h2⟩

/-- C112: they keep the angle between the feet, net of their yaw offsets, within the maximum rotation. -/
theorem C112_keeps_turn (hc : Consistent p) {a : ℝ} (ha : p.maxAngle ≤ a) : KeepsStance (TurnedBy (p.leftYaw - p.rightYaw) a) p := by
  refine ⟨fun u l r t t' => ?_, fun prev u l r dur t ho => ?_, fun prev u l r dur t ho => ?_⟩
  · unfold TurnedBy
    simp only [stepOf, leftFoot, rightFoot]
    rw [show u.angle + p.leftYaw - (u.angle + p.rightYaw) - (p.leftYaw - p.rightYaw) = 0 by ring, abs_zero]
    exact hc.maxAngle.trans ha
  · have := (Planner.within_of_ok (t := t) ho).angle _ hc.angleBound
    simp only [if_true] at this
    unfold TurnedBy
    simp only
    rw [show ∀ x : ℝ, x - prev.angle - (p.leftYaw - p.rightYaw) = -(prev.angle - p.rightYaw - (x - p.leftYaw)) by intro x; ring, abs_neg]
    exact this.le.trans ha
  · have := (Planner.within_of_ok (t := t) ho).angle _ hc.angleBound
    simp only [Bool.false_eq_true, if_false] at this
    unfold TurnedBy
    simp only
    rw [show ∀ x : ℝ, prev.angle - x - (p.leftYaw - p.rightYaw) = prev.angle - p.leftYaw - (x - p.rightYaw) by intro x; ring]
    exact this.le.trans ha

/-- Non-vacuity: the settings of a new planner keep the feet at most 1/5 apart, in the right order by 2/25 at least, and turned by 45
degrees at most. -/
example : KeepsStance (Within (1 / 5)) (Planner.new : Planner ℝ) ∧ KeepsStance (Beside (2 / 25)) (Planner.new : Planner ℝ) ∧
    KeepsStance (TurnedBy 0 (Planner.deg2rad 45)) (Planner.new : Planner ℝ) := by
  have hc : Consistent (Planner.new : Planner ℝ) := Planner.C32_consistent Real.pi_pos.le []
  have ha : Accepted (Planner.new : Planner ℝ) := by
    refine ⟨by norm_num [Planner.new], by norm_num [Planner.new], ?_⟩
    simp only [Planner.new, Planner.deg2rad]
    have := Real.pi_pos
    show _ < _ * Real.pi / 180
    change 5 * Real.pi / 180 < _
    linarith
  refine ⟨C112_keeps_distance hc ha (by norm_num [Planner.new]), C112_keeps_beside hc rfl ?_, ?_⟩
  · intro m hm
    have : m = 2 / 25 := by
      simp [Planner.new] at hm
      norm_num [← hm]
    rw [this]
  · have := C112_keeps_turn hc (a := Planner.deg2rad 45) (by simp [Planner.new])
    simpa [Planner.new] using this

end

section
variable {integ : Integrator ℝ} {sort : Sorter ℝ} {w : Walker ℝ} {dT time : ℝ} {legs : List (Leg ℝ)}

private theorem convex_turned (o a : ℝ) : Convex (TurnedBy o a) := by
  intro lam x y z h0 h1
  have key : ∀ u v : ℝ, |u| ≤ a → |v| ≤ a → |u + lam * (v - u)| ≤ a := by
    intro u v hu hv
    rw [abs_le] at *
    constructor <;> nlinarith
  refine ⟨fun hx hy => ?_, fun hx hy => ?_⟩
  · unfold TurnedBy at *
    have := key _ _ hx hy
    simp only [poseBetween]
    rwa [show x.2 + lam * (y.2 - x.2) - z.2 - o = x.2 - z.2 - o + lam * (y.2 - z.2 - o - (x.2 - z.2 - o)) by ring]
  · unfold TurnedBy at *
    have := key _ _ hx hy
    simp only [poseBetween]
    rwa [show z.2 - (x.2 + lam * (y.2 - x.2)) - o = z.2 - x.2 - o + lam * (z.2 - y.2 - o - (z.2 - x.2 - o)) by ring]

private theorem convex_within (d : ℝ) : Convex (Within d) := by
  have key : ∀ (lam : ℝ) (x y z : Vec2 ℝ × ℝ), 0 ≤ lam → lam ≤ 1 → Within d x z → Within d y z → Within d (poseBetween lam x y) z := by
    intro lam x y z h0 h1 hx hy
    unfold Within Spec.dist at *
    have hd : 0 ≤ d := (Real.sqrt_nonneg _).trans hx
    rw [Real.sqrt_le_left hd] at *
    simp only [poseBetween]
    have e : (x.1.x + lam * (y.1.x - x.1.x) - z.1.x) ^ 2 + (x.1.y + lam * (y.1.y - x.1.y) - z.1.y) ^ 2 =
        (1 - lam) * ((x.1.x - z.1.x) ^ 2 + (x.1.y - z.1.y) ^ 2) + lam * ((y.1.x - z.1.x) ^ 2 + (y.1.y - z.1.y) ^ 2) -
          lam * (1 - lam) * ((x.1.x - y.1.x) ^ 2 + (x.1.y - y.1.y) ^ 2) := by ring
    rw [e]
    have h2 : 0 ≤ lam * (1 - lam) * ((x.1.x - y.1.x) ^ 2 + (x.1.y - y.1.y) ^ 2) :=
      mul_nonneg (mul_nonneg h0 (by linarith)) (by positivity)
    have h3 := mul_le_mul_of_nonneg_left hx (show 0 ≤ 1 - lam by linarith)
    have h4 := mul_le_mul_of_nonneg_left hy h0
    linarith
  intro lam x y z h0 h1
  have sym : ∀ a b : Vec2 ℝ × ℝ, Within d a b → Within d b a := by
    intro a b h
    unfold Within at *
    rwa [Planner.dist_symm]
  exact ⟨key lam x y z h0 h1, fun hx hy => sym _ _ (key lam x y z h0 h1 (sym _ _ hx) (sym _ _ hy))⟩

theorem consistent_of_reached {w : Walker ℝ} (h : Reached integ sort w) : Consistent w.planner := by
  obtain ⟨evs, e⟩ := h.history.planner
  rw [e]
  exact Planner.C32_consistent Real.pi_pos.le evs

theorem everywhere_imp {P Q : Walker ℝ → ℝ → Prop} (h : Everywhere P legs w time) (hw : Walking integ sort dT legs w time)
    (hi : ∀ w t, Consistent w.planner → P w t → Q w t) : Everywhere Q legs w time :=
  ⟨fun l hl => hi _ _ (consistent_of_reached ((walking_reached hw).1 l hl)) (h.1 l hl), hi _ _ (consistent_of_reached (walking_reached hw).2) h.2⟩

/-- C112: however often the walk is replaced, the feet are never further apart than the maximum step length, at no sample, if the
contacts of the first walk and the measurements are not. -/
theorem C112_distance (hsort : ∀ l r, SortedPtrs l r (sort l r)) (h : Walking integ sort dT legs w time)
    (htimes : Everywhere (fun w _ => NonNeg w.left ∧ NonNeg w.right) legs w time)
    (hphases : Everywhere (fun w time => NoEmptyPhase sort w time dT) legs w time)
    (hcubic : Everywhere (fun w _ => ∀ p, w.cubic = some p → 0 ≤ p.state.stepHeight) legs w time)
    (hjerk : Everywhere (fun w _ => ∀ p, w.minJerk = some p → 0 ≤ p.state.stepHeight) legs w time)
    (hmin : Everywhere (fun w _ => 0 < w.planner.minTime) legs w time) {d : ℝ}
    (hd : Everywhere (fun w _ => w.planner.maxLength ≤ d) legs w time) (hmeas : ∀ l ∈ legs, MeasuredWith (Within d) dT l)
    (hfirst : Paired (Within d) (firstWalk legs w).left.steps (firstWalk legs w).right.steps) :
    (∀ x ∈ executed (feetOf Walker.cubic) legs w, MovesWith (Within d) x) ∧
    ∀ x ∈ executed (feetOf Walker.minJerk) legs w, MovesWith (Within d) x :=
  C112_moves Real.pi_pos.le hsort h htimes hphases hcubic hjerk hmin
    (everywhere_imp hd h fun _ _ hc hd ha => C112_keeps_distance hc ha hd) hmeas hfirst (convex_within d)

/-- C112: the angle between the feet, net of the yaw offsets, is always within the maximum rotation, if it is for the contacts of the
first walk and for the measurements. -/
theorem C112_turn (hsort : ∀ l r, SortedPtrs l r (sort l r)) (h : Walking integ sort dT legs w time)
    (htimes : Everywhere (fun w _ => NonNeg w.left ∧ NonNeg w.right) legs w time)
    (hphases : Everywhere (fun w time => NoEmptyPhase sort w time dT) legs w time)
    (hcubic : Everywhere (fun w _ => ∀ p, w.cubic = some p → 0 ≤ p.state.stepHeight) legs w time)
    (hjerk : Everywhere (fun w _ => ∀ p, w.minJerk = some p → 0 ≤ p.state.stepHeight) legs w time)
    (hmin : Everywhere (fun w _ => 0 < w.planner.minTime) legs w time) {o a : ℝ}
    (ha : Everywhere (fun w _ => w.planner.leftYaw - w.planner.rightYaw = o ∧ w.planner.maxAngle ≤ a) legs w time)
    (hmeas : ∀ l ∈ legs, MeasuredWith (TurnedBy o a) dT l)
    (hfirst : Paired (TurnedBy o a) (firstWalk legs w).left.steps (firstWalk legs w).right.steps) :
    (∀ x ∈ executed (feetOf Walker.cubic) legs w, MovesWith (TurnedBy o a) x) ∧
    ∀ x ∈ executed (feetOf Walker.minJerk) legs w, MovesWith (TurnedBy o a) x :=
  C112_moves Real.pi_pos.le hsort h htimes hphases hcubic hjerk hmin
    (everywhere_imp ha h fun _ _ hc hd _ => by rw [← hd.1]; exact C112_keeps_turn hc hd.2) hmeas hfirst (convex_turned o a)

/-- C112: when both feet are in contact the left one is on the left of the right one, by the minimum width at least, if this is so for
the contacts of the first walk and for the measurements (right foot without yaw offset). -/
theorem C112_beside (hsort : ∀ l r, SortedPtrs l r (sort l r)) (h : Walking integ sort dT legs w time)
    (htimes : Everywhere (fun w _ => NonNeg w.left ∧ NonNeg w.right) legs w time)
    (hphases : Everywhere (fun w time => NoEmptyPhase sort w time dT) legs w time)
    (hcubic : Everywhere (fun w _ => ∀ p, w.cubic = some p → 0 ≤ p.state.stepHeight) legs w time)
    (hjerk : Everywhere (fun w _ => ∀ p, w.minJerk = some p → 0 ≤ p.state.stepHeight) legs w time)
    (hmin : Everywhere (fun w _ => 0 < w.planner.minTime) legs w time) {d : ℝ}
    (hd : Everywhere (fun w _ => w.planner.rightYaw = 0 ∧ ∀ m, w.planner.problem.minWidth = some m → d ≤ m) legs w time)
    (hmeas : ∀ l ∈ legs, MeasuredWith (Beside d) dT l)
    (hfirst : Paired (Beside d) (firstWalk legs w).left.steps (firstWalk legs w).right.steps) :
    (∀ x ∈ executed (feetOf Walker.cubic) legs w, StandsWith (Beside d) x) ∧
    ∀ x ∈ executed (feetOf Walker.minJerk) legs w, StandsWith (Beside d) x :=
  C112_stands Real.pi_pos.le hsort h htimes hphases hcubic hjerk hmin
    (everywhere_imp hd h fun _ _ hc hd _ => C112_keeps_beside hc hd.1 hd.2) hmeas hfirst

end

section
open Demo
attribute [local instance] Demo.flat

/-- At least 2/25 to the left, for feet that point ahead. -/
private def apart (l r : Vec2 ℚ × ℚ) : Prop := 2 / 25 ≤ l.1.y - r.1.y

private instance (l r : Vec2 ℚ × ℚ) : Decidable (apart l r) := inferInstanceAs (Decidable (_ ≤ _))

private theorem keeps_apart {p : Planner ℚ} {m : ℚ} (h : p.problem.minWidth = some m) (hm : 2 / 25 ≤ m) (hn : 2 / 25 ≤ p.nominalWidth) :
    KeepsStance apart p := by
  have c1 : ∀ x : ℚ, Trig.cos x = 1 := fun _ => rfl
  have c2 : ∀ x : ℚ, Trig.sin x = 0 := fun _ => rfl
  refine ⟨fun u l r t t' => ?_, fun prev u l r dur t ho => ?_, fun prev u l r dur t ho => ?_⟩
  · simp only [apart, stepOf, leftFoot, rightFoot, rot, Vec2.add_y, c1, c2]
    linarith
  · simp only [Problem.areConstraintsSatisfied, Bool.and_eq_true] at ho
    have := ho.1.1.1.2
    simp only [Problem.widthOk, h, dataOf, if_true, rotT, c1, c2, decide_eq_true_eq, Vec2.sub_x, Vec2.sub_y] at this
    simp only [apart, stepOf]
    linarith
  · simp only [Problem.areConstraintsSatisfied, Bool.and_eq_true] at ho
    have := ho.1.1.1.2
    simp only [Problem.widthOk, h, dataOf, Bool.false_eq_true, if_false, rotT, c1, c2, decide_eq_true_eq, Vec2.sub_x, Vec2.sub_y] at this
    simp only [apart, stepOf]
    linarith

private theorem convex_apart : Convex apart := by
  intro lam x y z h0 h1
  unfold apart poseBetween
  exact ⟨fun hx hy => by nlinarith, fun hx hy => by nlinarith⟩

private def wide (w : Walker ℚ) : Bool :=
  decide (0 < w.planner.minTime) && decide (2 / 25 ≤ w.planner.nominalWidth) && w.planner.problem.minWidth.any fun m => decide (2 / 25 ≤ m)

private theorem wide_iff {w : Walker ℚ} (h : wide w = true) : 0 < w.planner.minTime ∧ (Accepted w.planner → KeepsStance apart w.planner) := by
  unfold wide at h
  simp only [Bool.and_eq_true, decide_eq_true_eq] at h
  obtain ⟨⟨h1, h2⟩, h3⟩ := h
  cases hm : w.planner.problem.minWidth with
  | none => rw [hm] at h3; cases h3
  | some m =>
    rw [hm] at h3
    exact ⟨h1, fun _ => keeps_apart hm (by simpa using h3) h2⟩

private def strideCheck : Bool :=
  match execution with
  | some ((w, m), (w', m'), w'') => fine w 0 && fine w' (m * (1 / 2) + 0) && fine w'' (m' * (1 / 2) + (m * (1 / 2) + 0)) && wide w && wide w' && wide w'' &&
    (w'.left.steps.all fun l => w'.right.steps.all fun r =>
      decide (apart (corrected (measuredOf true (nudge w' 1)) l) (corrected (measuredOf false (nudge w' 1)) r))) &&
    decide (measuredOf true (nudge w' 1) ≠ none) &&
    decide ((executed (feetOf Walker.minJerk) [⟨w, 0, m, .plain⟩, ⟨w', m * (1 / 2) + 0, m', nudge w' 1⟩] w'').countP (fun x => x.1.1 && x.2.1) = 27) &&
    (executed (feetOf Walker.minJerk) [⟨w, 0, m, .plain⟩, ⟨w', m * (1 / 2) + 0, m', nudge w' 1⟩] w'').any (fun x => !x.1.1)
  | none => false

private theorem stride_checked : strideCheck = true := by decide +kernel

/-- Non-vacuity of C112: in a walk that is replaced twice, the second time with a measurement of the left foot, both feet are in contact
at 27 samples, and at all of them, as well as during the swings, the left foot is on the left by 2/25 at least. -/
example : ∃ (legs : List (Leg ℚ)) (w : Walker ℚ) (time : ℚ), Walking onward insertion (1 / 2) legs w time ∧ legs.length = 2 ∧
    (∃ l ∈ legs, measuredOf true l.request ≠ none) ∧
    (executed (feetOf Walker.minJerk) legs w).countP (fun x => x.1.1 && x.2.1) = 27 ∧
    (∃ x ∈ executed (feetOf Walker.minJerk) legs w, x.1.1 = false) ∧ (∀ x ∈ executed (feetOf Walker.minJerk) legs w, StandsWith apart x) ∧
    ∀ x ∈ executed (feetOf Walker.minJerk) legs w, MovesWith apart x := by
  have h := stride_checked
  unfold strideCheck at h
  split at h
  case h_2 => cases h
  rename_i w m w' m' w'' hex
  simp only [Bool.and_eq_true, decide_eq_true_eq] at h
  obtain ⟨⟨⟨⟨⟨⟨⟨⟨⟨f1, f2⟩, f3⟩, v1⟩, v2⟩, v3⟩, hmeas⟩, hne⟩, hcount⟩, hswing⟩ := h
  obtain ⟨a1, a2, a3, a4, -⟩ := fine_iff f1
  obtain ⟨b1, b2, b3, b4, -⟩ := fine_iff f2
  obtain ⟨c1, c2, c3, c4, -⟩ := fine_iff f3
  unfold execution at hex
  split at hex
  case h_2 => cases hex
  rename_i w0 hgen
  split at hex
  case h_2 => cases hex
  rename_i w1 m1 hr1
  split at hex
  case h_2 => cases hex
  rename_i w2 m2 hr2
  cases hex
  have r0 : Reached onward insertion equipped := Reached.runAll _ (.new 0)
  have g1 := replaced_merging (c := .generate 0 (1 / 2) 10) r0 hgen rfl hr1
  have rw0 := Reached.call _ _ _ _ _ r0 hgen
  obtain ⟨before, rb, hb⟩ := replaced_call rw0 hr1
  have g2 := replaced_merging (c := .reGenerate ((m : ℚ) * (1 / 2) + 0) (1 / 2) 15 .plain) rb hb rfl hr2
  have hw0 : Walking onward insertion (1 / 2) [] w (0 : ℚ) := Walking.start (c := .generate 0 (1 / 2) 10) r0 hgen rfl
  have hw1 : Walking onward insertion (1 / 2) [⟨w, 0, m, .plain⟩] w' (m * (1 / 2) + 0) := Walking.again (c := .generate 0 (1 / 2) 10) hw0 rfl g1
  have hw2 : Walking onward insertion (1 / 2) [⟨w, 0, m, .plain⟩, ⟨w', m * (1 / 2) + 0, m', nudge w' 1⟩] w'' (m' * (1 / 2) + (m * (1 / 2) + 0)) :=
    Walking.again (c := .reGenerate ((m : ℚ) * (1 / 2) + 0) (1 / 2) 15 .plain) hw1 rfl g2
  have every : ∀ P : Walker ℚ → ℚ → Prop, P w 0 → P w' (m * (1 / 2) + 0) → P w'' (m' * (1 / 2) + (m * (1 / 2) + 0)) →
      Everywhere P [⟨w, 0, m, .plain⟩, ⟨w', m * (1 / 2) + 0, m', nudge w' 1⟩] w'' (m' * (1 / 2) + (m * (1 / 2) + 0)) := by
    intro P h1 h2 h3
    refine ⟨fun l hl => ?_, h3⟩
    simp only [List.mem_cons, List.not_mem_nil, or_false] at hl
    rcases hl with rfl | rfl
    exacts [h1, h2]
  have hpi : (0 : ℚ) ≤ Trig.pi := by decide +kernel
  have hmeas' : ∀ l ∈ ([⟨w, 0, m, .plain⟩, ⟨w', m * (1 / 2) + 0, m', nudge w' 1⟩] : List (Leg ℚ)), MeasuredWith apart (1 / 2) l := by
    intro l hl
    simp only [List.mem_cons, List.not_mem_nil, or_false] at hl
    rcases hl with rfl | rfl
    · rintro (h | h) <;> exact absurd rfl h
    · intro _ sL sR h1 h2
      simp only [List.all_eq_true, decide_eq_true_eq] at hmeas
      obtain ⟨o, n, e, -⟩ := h1
      obtain ⟨o', n', e', -⟩ := h2
      simp only at e e'
      exact hmeas sL (by rw [e]; simp) sR (by rw [e']; simp)
  have k1 := C112_stands (R := apart) hpi insertion_sorts hw2 (every _ a1 b1 c1) (every _ (noEmpty_of_long a2) (noEmpty_of_long b2) (noEmpty_of_long c2))
    (every _ a3 b3 c3) (every _ a4 b4 c4) (every _ (wide_iff v1).1 (wide_iff v2).1 (wide_iff v3).1)
    (every _ (wide_iff v1).2 (wide_iff v2).2 (wide_iff v3).2) hmeas' (C112_first hpi r0 hgen rfl rfl (wide_iff v1).1 (wide_iff v1).2)
  have k2 := C112_moves (R := apart) hpi insertion_sorts hw2 (every _ a1 b1 c1) (every _ (noEmpty_of_long a2) (noEmpty_of_long b2) (noEmpty_of_long c2))
    (every _ a3 b3 c3) (every _ a4 b4 c4) (every _ (wide_iff v1).1 (wide_iff v2).1 (wide_iff v3).1)
    (every _ (wide_iff v1).2 (wide_iff v2).2 (wide_iff v3).2) hmeas' (C112_first hpi r0 hgen rfl rfl (wide_iff v1).1 (wide_iff v1).2) convex_apart
  simp only [List.any_eq_true, Bool.not_eq_true'] at hswing
  exact ⟨_, _, _, hw2, rfl, ⟨⟨w', m * (1 / 2) + 0, m', nudge w' 1⟩, by simp, hne⟩, hcount, hswing, k1.2, k2.2⟩

end

end Uni.Walker
