import Verif.Lemmas.Ties
import Verif.Props.Walker

/-! # C91: the order in which the sort leaves simultaneous contacts does not matter -/

set_option autoImplicit false
set_option linter.unusedSectionVars false

namespace Uni.Spec
open Uni Uni.Gen Uni.Walker

section
variable {K : Type} [Field K] [LinearOrder K] [IsStrictOrderedRing K] [FloorRing K] [Trig K]
variable {w w' : Walker K} {integ : Integrator K} {sort sort' : Sorter K} {fuel : Nat}

/-- C91 (partial).  Full statement: the outcome of `generate(left, right, …)` is the same for all orders in which `std::sort` may
leave simultaneous contacts.  Missing: footprints in which a later contact is simultaneous with the first one of the other foot, see
`C91_tie_witness`. -/
theorem C91_footprints_partial {left right : FootPrint K} {t dT : K} {s s' : List (Ptr K)} (hf : FirstContactsFirst left right)
    (nl : Named left) (nr : Named right) (hs : SortedPtrs left right s) (hs' : SortedPtrs left right s') :
    w.generateFromFootPrints left right t dT s = w.generateFromFootPrints left right t dT s' :=
  Walker.ties hf nl nr hs hs'

private theorem members (hsort : ∀ l r, SortedPtrs l r (sort l r)) (hsort' : ∀ l r, SortedPtrs l r (sort' l r)) {t dT : K}
    (hf : FirstContactsFirst w.left w.right) (nl : Named w.left) (nr : Named w.right) :
    w.fromMembers t dT sort = w.fromMembers t dT sort' := by
  unfold fromMembers
  rw [Walker.ties hf nl nr (hsort _ _) (hsort' _ _)]

private theorem planned {p : Planner K} {left right left' right' : FootPrint K} {t0 t1 : K} {d : Plan K}
    (h : PlanOf p integ left right t0 t1 left' right' d) (hp : Timed p) (hm : 0 < p.minTime)
    (h1 : left.steps.length = right.steps.length) (h2 : left.steps.length ≤ 1) : FirstContactsFirst left' right' := by
  obtain ⟨l, ls, r, rs, hl, hr, a, b, -, -, hw⟩ := planned_wellSpaced h hp hm h1 h2
  intro x y hx hy s hs
  rw [hl] at hx
  rw [hr] at hy
  cases hx
  cases hy
  have := hw.after s hs
  exact ⟨lt_of_le_of_lt a this, lt_of_le_of_lt b this⟩

/-- C91: a walk planned from at most one contact per foot. -/
theorem C91_generate (hpi : (0 : K) ≤ Trig.pi) (hsort : ∀ l r, SortedPtrs l r (sort l r)) (hsort' : ∀ l r, SortedPtrs l r (sort' l r))
    (hw : Reached integ sort w) (hm : 0 < w.planner.minTime) (h1 : w.left.steps.length = w.right.steps.length)
    (h2 : w.left.steps.length ≤ 1) (nl : Named w.left) (nr : Named w.right) (hL : NonNeg w.left) (hR : NonNeg w.right) {t dT e : K} :
    w.generate integ fuel sort t dT e = w.generate integ fuel sort' t dT e := by
  have hp := hw.timed hpi
  unfold generate Walker.plan
  cases h : w.planner.computeNewSteps integ fuel w.left w.right t e with
  | ub => rfl
  | outOfFuel => rfl
  | done b p l r =>
    cases b with
    | false => rfl
    | true =>
      obtain ⟨d, hd⟩ := Planner.exists_plan hp hL hR h
      obtain ⟨n1, n2, -⟩ := hd.named nl nr
      exact members hsort hsort' (w := { w with planner := p, left := l, right := r }) (planned hd hp hm h1 h2) n1 n2

end

section
variable {w : Walker ℝ} {integ : Integrator ℝ} {sort sort' : Sorter ℝ} {fuel : Nat}

/-- C91: all the re-planning requests. -/
theorem C91_regenerate (hsort : ∀ l r, SortedPtrs l r (sort l r)) (hsort' : ∀ l r, SortedPtrs l r (sort' l r))
    (hw : Reached integ sort w) (hm : 0 < w.planner.minTime) (hL : NonNeg w.left) (hR : NonNeg w.right) {t dT e : ℝ} {q : Request ℝ} :
    w.reGenerate integ fuel sort t dT e q = w.reGenerate integ fuel sort' t dT e q := by
  have hp := hw.timed (by simp [Real.pi_pos.le])
  unfold reGenerate Walker.replan
  cases h : Gen.replan w.planner integ fuel w.dcmVelocity w.left w.right t e q with
  | ub => rfl
  | outOfFuel => rfl
  | done b p l r prev =>
    cases b with
    | false => rfl
    | true =>
      obtain ⟨sL, sR, cL, cR, d, -, -, -, -, c1, c2, hd⟩ := C52_contacts_partial hp hL hR h
      obtain ⟨n1, n2, -⟩ := hd.named (by intro s hs; simp only [List.mem_singleton] at hs; rw [hs]; exact c1)
        (by intro s hs; simp only [List.mem_singleton] at hs; rw [hs]; exact c2)
      simp only [Result.next]
      exact members hsort hsort' (planned hd hp hm rfl (le_refl _)) n1 n2

/-- C91: a whole history of settings and requests. -/
theorem C91_history_partial (hsort : ∀ l r, SortedPtrs l r (sort l r)) (hsort' : ∀ l r, SortedPtrs l r (sort' l r))
    (es : List (Walker.Op ℝ ⊕ Walker.Call ℝ)) (hw : Reached integ sort w) (hu : Untied integ fuel sort w es) :
    runEvents integ fuel sort w es = runEvents integ fuel sort' w es := by
  induction es generalizing w with
  | nil => rfl
  | cons x es ih =>
    cases x with
    | inl o => exact ih (.op _ _ hw) hu
    | inr c =>
      obtain ⟨h1, h2⟩ := hu
      have hc : w.call integ fuel sort c = w.call integ fuel sort' c := by
        cases c with
        | fromFootPrints l r t dT => unfold call; simp only [Walker.ties h1.2.2 h1.1 h1.2.1 (hsort l r) (hsort' l r)]
        | generate t dT e =>
          obtain ⟨a, b, c, d, e, f, g⟩ := h1
          exact C91_generate (by simp [Real.pi_pos.le]) hsort hsort' hw a b c d e f g
        | reGenerate t dT e q =>
          obtain ⟨a, b, c⟩ := h1
          exact C91_regenerate hsort hsort' hw a b c
      unfold runEvents
      rw [← hc]
      cases h : w.call integ fuel sort c with
      | done b w1 => exact ih (.call _ _ fuel c b hw h) (h2 b w1 h)
      | ub => rfl
      | outOfFuel => rfl

end

/-! ## Examples -/

section

/-- Rational stand-ins, good enough for examples that go straight ahead. -/
private local instance trigTies : Trig ℚ :=
  ⟨fun _ => 1, fun _ => 0, fun q => Nat.sqrt (⌊q * 10 ^ 8⌋₊) / 10 ^ 4, fun x => 1 + x, fun _ => 0, fun _ _ => 0, 22 / 7⟩

private def l0 : Step ℚ := ⟨⟨0, 7 / 100⟩, 0, 0, "left"⟩
private def l1 : Step ℚ := ⟨⟨1 / 10, 7 / 100⟩, 0, 5, "left"⟩
private def r0 : Step ℚ := ⟨⟨0, - 7 / 100⟩, 0, 5, "right"⟩
private def demo : Walker ℚ := (Walker.new 0).runAll [.addCubic, .cubic (.setStepHeight (1 / 10))]
private def returns (b : Bool) : Out (Bool × Walker ℚ) → Bool
  | .ok (b', _) => b == b'
  | _ => false

private theorem returns_iff {b : Bool} {o : Out (Bool × Walker ℚ)} (h : returns b o = true) : ∃ w, o = .ok (b, w) := by
  rcases o with ⟨b', w⟩ | _ | _
  · simp only [returns, beq_iff_eq] at h
    exact ⟨w, by rw [h]⟩
  · cases h
  · cases h

private theorem sorted_of {left right : FootPrint ℚ} {s : List (Ptr ℚ)} (h : (s.isPerm (Ptr.ofFeet left right) &&
    decide (s.Pairwise fun a b => a.step.impactTime ≤ b.step.impactTime)) = true) : SortedPtrs left right s := by
  rw [Bool.and_eq_true] at h
  exact ⟨List.isPerm_iff.mp h.1, of_decide_eq_true h.2⟩

/-- C91, the code: two contacts at the same instant, one of them the first of its foot and the other one not.  In one order the walk
is generated, in the other one it is refused. -/
theorem C91_tie_witness : ∃ (w : Walker ℚ) (left right : FootPrint ℚ) (s s' : List (Ptr ℚ)) (w1 w2 : Walker ℚ), Named left ∧ Named right ∧
    SortedPtrs left right s ∧ SortedPtrs left right s' ∧
    w.generateFromFootPrints left right 5 (1 / 2) s = .ok (true, w1) ∧ w.generateFromFootPrints left right 5 (1 / 2) s' = .ok (false, w2) := by
  obtain ⟨w1, h1⟩ := returns_iff (b := true) (o := demo.generateFromFootPrints ⟨[l0, l1], "left"⟩ ⟨[r0], "right"⟩ 5 (1 / 2)
    [⟨true, 0, l0⟩, ⟨false, 0, r0⟩, ⟨true, 1, l1⟩]) (by decide +kernel)
  obtain ⟨w2, h2⟩ := returns_iff (b := false) (o := demo.generateFromFootPrints ⟨[l0, l1], "left"⟩ ⟨[r0], "right"⟩ 5 (1 / 2)
    [⟨true, 0, l0⟩, ⟨true, 1, l1⟩, ⟨false, 0, r0⟩]) (by decide +kernel)
  exact ⟨demo, ⟨[l0, l1], "left"⟩, ⟨[r0], "right"⟩, _, _, w1, w2, by simp [Named, l0, l1], by simp [Named, r0],
    sorted_of (by decide +kernel), sorted_of (by decide +kernel), h1, h2⟩

/-- Non-vacuity of C91: a walk with two simultaneous first contacts, in two orders. -/
example : ∃ (w w1 : Walker ℚ) (left right : FootPrint ℚ) (s s' : List (Ptr ℚ)), FirstContactsFirst left right ∧ Named left ∧ Named right ∧
    SortedPtrs left right s ∧ SortedPtrs left right s' ∧ s ≠ s' ∧ w.generateFromFootPrints left right 0 (1 / 2) s = .ok (true, w1) := by
  obtain ⟨w1, h1⟩ := returns_iff (b := true) (o := demo.generateFromFootPrints ⟨[l0, l1], "left"⟩ ⟨[{ r0 with impactTime := 0 }], "right"⟩ 0 (1 / 2)
    [⟨true, 0, l0⟩, ⟨false, 0, { r0 with impactTime := 0 }⟩, ⟨true, 1, l1⟩]) (by decide +kernel)
  refine ⟨demo, w1, ⟨[l0, l1], "left"⟩, ⟨[{ r0 with impactTime := 0 }], "right"⟩, _,
    [⟨false, 0, { r0 with impactTime := 0 }⟩, ⟨true, 0, l0⟩, ⟨true, 1, l1⟩], ?_, by simp [Named, l0, l1], by simp [Named, r0],
    sorted_of (by decide +kernel), sorted_of (by decide +kernel), by decide +kernel, h1⟩
  intro a b ha hb s hs
  cases ha
  cases hb
  simp only [List.tail_cons, List.append_nil, List.mem_singleton] at hs
  subst hs
  decide +kernel

end

/-- Non-vacuity of C91 for histories: the requests of a newly made generator. -/
example (integ : Integrator ℝ) (sort : Sorter ℝ) (fuel : Nat) (t dT e : ℝ) :
    Reached integ sort (Walker.new (0 : ℝ)) ∧ Untied integ fuel sort (Walker.new (0 : ℝ)) [.inr (.generate t dT e)] :=
  ⟨.new 0, ⟨by norm_num [Walker.new, Planner.new], rfl, by simp [Walker.new], by simp [Named, Walker.new], by simp [Named, Walker.new],
    by simp [NonNeg, Walker.new], by simp [NonNeg, Walker.new]⟩, fun _ _ _ => trivial⟩

end Uni.Spec
