import Verif.Lemmas.Separate
import Verif.Lemmas.ExecutedDemo

/-! # C117: the trajectory generators do not interfere with each other -/

set_option autoImplicit false
set_option linter.unusedSectionVars false

namespace Uni.Walker
open Spec
variable {K : Type} [Field K] [LinearOrder K] [IsStrictOrderedRing K] [FloorRing K] [Trig K]
variable {integ : Integrator K} {sort : Sorter K} {garbage : K} {a b : Walker K} {l l' : List (Deed K)} {bs bs' : List Bool}

/-- Two users do the same with new objects, except for what they do with one of the generators of feet, ZMP and CoM height: whether and
when they attach it, which values they give to its setters.  If all generating calls succeed then everything else is equal in the end:
settings, planner, footprints, phases, merge points, contacts, and all that the other generators return. -/
theorem C117_others (x : Part) (ha : Ran integ sort (new garbage) l bs a) (hb : Ran integ sort (new garbage) l' bs' b)
    (hl : l.filter (fun e => !ofPart x e) = l'.filter (fun e => !ofPart x e)) (h : ∀ u ∈ bs, u = true) (h' : ∀ u ∈ bs', u = true) :
    SameBut x a b := by
  exact ((simulates_but (integ := integ) (sort := sort) x).ran ha h (fun _ _ => trivial) hb h'
    ⟨⟨⟨rfl, rfl, rfl, rfl, rfl⟩, rfl, rfl, fun _ => rfl, fun _ => rfl, fun _ => rfl, fun _ => rfl⟩, grounded_new⟩ hl).1

/-- The motion of the feet in the ground plane (x, y, yaw, their velocities and accelerations) is the same too, whatever step height,
pitch, apex time and landing velocity the two users prefer. -/
theorem C117_ground (x : Part) (ha : Ran integ sort (new garbage) l bs a) (hb : Ran integ sort (new garbage) l' bs' b)
    (hl : l.filter (fun e => !ofPart x e) = l'.filter (fun e => !ofPart x e)) (h : ∀ u ∈ bs, u = true) (h' : ∀ u ∈ bs', u = true) :
    (∀ p q o o', a.cubic = some p → b.cubic = some q → p.result = some o → q.result = some o' → groundOf o = groundOf o') ∧
    ∀ p q o o', a.minJerk = some p → b.minJerk = some q → p.result = some o → q.result = some o' → groundOf o = groundOf o' := by
  have hg := ((simulates_but (integ := integ) (sort := sort) x).ran ha h (fun _ _ => trivial) hb h'
    ⟨⟨⟨rfl, rfl, rfl, rfl, rfl⟩, rfl, rfl, fun _ => rfl, fun _ => rfl, fun _ => rfl, fun _ => rfl⟩, grounded_new⟩ hl).2
  exact ⟨fun p q o o' hp hq ho ho' => hg.cubic o o' ⟨p, hp, ho⟩ ⟨q, hq, ho'⟩,
    fun p q o o' hp hq ho ho' => hg.minJerk o o' ⟨p, hp, ho⟩ ⟨q, hq, ho'⟩⟩

/-- The steps do not even depend on whether the generators succeed, as long as there is none of the DCM: two users who differ in what they
do with all four generators have the same settings, planner, footprints, phases, merge points and contacts. -/
theorem C117_steps (ha : Ran integ sort (new garbage) l bs a) (hb : Ran integ sort (new garbage) l' bs' b)
    (hl : l.filter (fun e => !(ofPart .cubic e || ofPart .minJerk e || ofPart .zmp e || ofPart .height e)) =
      l'.filter (fun e => !(ofPart .cubic e || ofPart .minJerk e || ofPart .zmp e || ofPart .height e)))
    (hd : ∀ e ∈ l, attachesDcm e = false) : SameSteps a b :=
  ((simulates_steps (integ := integ) (sort := sort)).ran ha (fun _ _ => trivial) (fun _ ho => hd _ ho) hb (fun _ _ => trivial)
    ⟨⟨rfl, rfl, rfl, rfl, rfl⟩, rfl, rfl⟩ hl).1

/-! ## Examples -/

section
attribute [local instance] Demo.flat
open Demo

/-- What a user gets. -/
private def exec : Walker ℚ → List (Deed ℚ) → Option (List Bool × Walker ℚ)
  | w, [] => some ([], w)
  | w, .op o :: l => exec (w.run o) l
  | w, .call c :: l =>
    match w.call onward 1000 insertion c with
    | .done b w => (exec w l).map fun x => (b :: x.1, x.2)
    | _ => none
  | _, _ => none

private theorem exec_ran {l : List (Deed ℚ)} : ∀ {w w' : Walker ℚ} {bs : List Bool}, exec w l = some (bs, w') →
    Ran onward insertion w l bs w' := by
  induction l with
  | nil => intro w w' bs h; cases h; exact .nil _
  | cons e l ih =>
    intro w w' bs h
    cases e with
    | op o => exact .op _ _ _ _ _ (ih h)
    | call c =>
      simp only [exec] at h
      split at h
      · rename_i b w1 e
        cases hx : exec w1 l with
        | none => rw [hx] at h; cases h
        | some x =>
          rw [hx] at h
          cases h
          exact .call _ _ _ _ _ _ _ _ e (ih hx)
      · cases h
    | left => cases h
    | right => cases h
    | clear => cases h
    | plan => cases h

/-- A walk that is planned again after some time. -/
private def deeds (T : ℚ) (mine : List (Op ℚ)) (later : List (Op ℚ)) : List (Deed ℚ) :=
  [.op (.planner (.setPlannerPeriod (1 / 2))), .op (.planner (.setUnicycleController .direct)),
   .op (.planner (.setCostWeights 1 0)), .op (.planner (.setMinimumStepLength (1 / 100)))] ++ mine.map .op ++
  [.op .addHeight, .op (.height 1 (1 / 10)), .call (.generate 0 (1 / 2) 10)] ++ later.map .op ++ [.call (.reGenerate T (1 / 2) (T + 10) .plain)]

/-- A walk with low steps. -/
private def low : List (Deed ℚ) := deeds 5 [.addMinJerk, .minJerk (.setStepHeight (1 / 10))] []

/-- The one with high steps, whose apex is early after a while. -/
private def high : List (Deed ℚ) :=
  deeds 5 [.addMinJerk, .minJerk (.setStepHeight (1 / 5)), .minJerk (.setPitchDelta 10)] [.minJerk (.setFootApexTime (1 / 4))]

private def groundCheck : Bool :=
  match exec (new 0) low, exec (new 0) high with
  | some ([true, true], a), some ([true, true], b) =>
    match a.minJerk.bind Plugin.result, b.minJerk.bind Plugin.result with
    | some o, some o' => decide (o ≠ o' ∧ o.1.length = 35) && a.height.any fun p => p.result.isSome
    | _, _ => false
  | _, _ => false

private theorem ground_checked : groundCheck = true := by decide +kernel

/-- The hypotheses are satisfiable: the second walk has higher steps, and the trajectories of the feet are not equal. -/
example : ∃ (l l' : List (Deed ℚ)) (a b : Walker ℚ) (p q : Plugin (FeetSettings ℚ) (FeetOut ℚ)) (o o' : FeetOut ℚ),
    Ran onward insertion (new 0) l [true, true] a ∧ Ran onward insertion (new 0) l' [true, true] b ∧
    l.filter (fun e => !ofPart .minJerk e) = l'.filter (fun e => !ofPart .minJerk e) ∧
    a.minJerk = some p ∧ b.minJerk = some q ∧ p.result = some o ∧ q.result = some o' ∧ o ≠ o' ∧ o.1.length = 35 ∧
    groundOf o = groundOf o' ∧ SameBut .minJerk a b ∧ ∃ g, a.height = some g ∧ g.result ≠ none := by
  have h := ground_checked
  unfold groundCheck at h
  split at h
  case h_2 => cases h
  rename_i a b ha hb
  split at h
  case h_2 => cases h
  rename_i o o' ho ho'
  rw [Bool.and_eq_true, decide_eq_true_eq] at h
  obtain ⟨⟨h1, h2⟩, h3⟩ := h
  obtain ⟨p, hp, ho⟩ := Option.bind_eq_some_iff.mp ho
  obtain ⟨q, hq, ho'⟩ := Option.bind_eq_some_iff.mp ho'
  have hl : low.filter (fun e => !ofPart .minJerk e) = high.filter (fun e => !ofPart .minJerk e) := rfl
  have ha := exec_ran ha
  have hb := exec_ran hb
  refine ⟨low, high, a, b, p, q, o, o', ha, hb, hl, hp, hq, ho, ho', h1, h2,
    (C117_ground .minJerk ha hb hl (by simp) (by simp)).2 _ _ _ _ hp hq ho ho', C117_others .minJerk ha hb hl (by simp) (by simp), ?_⟩
  cases hg : a.height with
  | none => rw [hg] at h3; cases h3
  | some g =>
    rw [hg] at h3
    refine ⟨g, rfl, fun hn => ?_⟩
    simp [hn] at h3

/-- With and without a DCM generator. -/
private def dcmCheck : Bool :=
  match exec (new 0) (deeds 5 [] []), exec (new 0) (deeds 5 [.addDcm, .dcm (.setOmega 1)] [.dcm (.setDCMInitialState 0 0)]) with
  | some ([true, true], a), some ([true, true], b) => decide (a.right.steps.length = 4 ∧ b.right.steps.length = 3)
  | _, _ => false

private theorem dcm_checked : dcmCheck = true := by decide +kernel

/-- The generator of the DCM is left out of C117 with good reason: `reGenerate` looks at the velocity of the DCM, so that the steps depend on
whether it is attached. -/
theorem C117_dcm_witness : ∃ (l l' : List (Deed ℚ)) (a b : Walker ℚ), Ran onward insertion (new 0) l [true, true] a ∧
    Ran onward insertion (new 0) l' [true, true] b ∧ l.filter (fun e => !ofDcm e) = l'.filter (fun e => !ofDcm e) ∧
    a.right.steps.length = 4 ∧ b.right.steps.length = 3 := by
  have h := dcm_checked
  unfold dcmCheck at h
  split at h
  case h_2 => cases h
  rename_i a b ha hb
  rw [decide_eq_true_eq] at h
  exact ⟨_, _, a, b, exec_ran ha, exec_ran hb, rfl, h⟩

private def failCheck : Bool :=
  match exec (new 0) (deeds 5 [] []), exec (new 0) (deeds 5 [.addMinJerk] []) with
  | some ([true, true], a), some ([false, false], b) =>
    decide (a.left = b.left) && (a.height.any fun p => p.result.isSome) && b.height.any fun p => p.result.isNone
  | _, _ => false

private theorem fail_checked : failCheck = true := by decide +kernel

/-- That the calls succeed cannot be dropped from `C117_others`: a generator that cannot do its work (no step height has been given) keeps
those that follow from doing theirs.  The steps are the same, as `C117_steps` says. -/
theorem C117_fail_witness : ∃ (l l' : List (Deed ℚ)) (a b : Walker ℚ) (p q : Plugin (HeightSettings ℚ) (List (Motion ℚ))),
    Ran onward insertion (new 0) l [true, true] a ∧ Ran onward insertion (new 0) l' [false, false] b ∧
    l.filter (fun e => !ofPart .minJerk e) = l'.filter (fun e => !ofPart .minJerk e) ∧ (∀ e ∈ l, attachesDcm e = false) ∧
    a.height = some p ∧ b.height = some q ∧ p.result ≠ none ∧ q.result = none ∧ a.left = b.left := by
  have h := fail_checked
  unfold failCheck at h
  split at h
  case h_2 => cases h
  rename_i a b ha hb
  rw [Bool.and_eq_true, Bool.and_eq_true, decide_eq_true_eq] at h
  obtain ⟨⟨h1, h2⟩, h3⟩ := h
  cases hp : a.height with
  | none => rw [hp] at h2; cases h2
  | some p =>
    cases hq : b.height with
    | none => rw [hq] at h3; cases h3
    | some q =>
      rw [hp] at h2
      rw [hq] at h3
      refine ⟨_, _, a, b, p, q, exec_ran ha, exec_ran hb, rfl, by decide, hp, hq, fun hn => ?_, by simpa using h3, h1⟩
      simp [hn] at h2

end

end Uni.Walker
