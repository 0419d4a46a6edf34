import Verif.Lemmas.Residue
import Verif.Props.Generator

/-! # C106: what a generator that fails leaves in its vectors -/

set_option autoImplicit false
set_option linter.unusedSectionVars false

namespace Uni
open Spec

variable {K : Type} [Field K] [LinearOrder K] [IsStrictOrderedRing K]

namespace CoMHeight

/-- **C106** (height not set): the vectors are not touched. -/
theorem C106_height_unset (c : HeightSettings K) (dT : K) (phases : List Phase) (shifts : List Nat) (old : List (Motion K))
    (hh : c.height < 0) :
    computeNewTrajectories c dT phases shifts = .fail ∧ after c dT phases shifts old = old := by
  constructor
  · rw [computeNewTrajectories, if_pos hh]
  · rw [after, if_pos hh]

/-- **C106** (success): nothing of the previous walk is left. -/
theorem C106_height_done {c : HeightSettings K} {dT : K} {phases : List Phase} {l : List Nat} {w : List (Motion K)}
    (he : (0 :: l).getLast (by simp) = phases.length) (h : computeNewTrajectories c dT phases (0 :: l) = .ok w)
    (old : List (Motion K)) : after c dT phases (0 :: l) old = w := by
  unfold computeNewTrajectories at h
  unfold after
  by_cases hh : c.height < 0
  · rw [if_pos hh] at h; simp at h
  rw [if_neg hh] at h ⊢
  rw [Out.bind_eq_ok] at h
  obtain ⟨r, hr, h⟩ := h
  cases h
  exact afterPhases_ok (body_fills c dT) he hr _ old

/-- **C106** (failure): the generation stops at an empty phase that a single support follows.  The samples before it are those of a
successful generation for the phases before it, the others are still those of the previous walk, or zero. -/
theorem C106_height {c : HeightSettings K} {dT : K} {phases : List Phase} {l : List Nat} (hh : 0 ≤ c.height) (hd : 0 < dT)
    (h : computeNewTrajectories c dT phases (0 :: l) = .fail) (old : List (Motion K)) :
    ∃ (k a : Nat) (w : List (Motion K)) (p : Phase), (0 :: l)[k]? = some a ∧ (0 :: l)[k + 1]? = some a ∧
      phases[a]? = some p ∧ (p = .stance ∨ p = .swing) ∧
      computeNewTrajectories c dT phases ((0 :: l).take (k + 1)) = .ok w ∧ w.length = a ∧
      Mixed ⟨0, 0, 0⟩ phases.length a w old (after c dT phases (0 :: l) old) := by
  unfold computeNewTrajectories at h
  unfold after
  have hn : ¬ c.height < 0 := not_lt.mpr hh
  rw [if_neg hn] at h ⊢
  have h' : overPhases (body c dT) phases (0 :: l) () = .fail := by
    cases hr : overPhases (body c dT) phases (0 :: l) () with
    | ok r => rw [hr] at h; cases h
    | fail => rfl
    | ub w => rw [hr] at h; cases h
  obtain ⟨k, a, b, r, p, f, h1, h2, h3, h4, h5, h6, h7, h8⟩ := afterPhases_fail (part := fun _ _ _ _ _ _ => [])
    (body_fills c dT) (fun _ _ _ _ _ _ _ => rfl) (fun _ _ _ _ _ _ _ => rfl) h' ⟨0, 0, 0⟩ old
  have hs : (p = .stance ∨ p = .swing) ∧ b = a := by
    have key : ∀ x : Out (Unit × List (Motion K)), x = .fail → x = (do
        let stanceLength := ((b - a : Nat) : K) * dT
        let f ← spline3 c.height 0 (c.height + c.delta) c.height 0 (stanceLength / 2) stanceLength
        .ok ((), (List.range (b - a)).map fun (j : Nat) => f ((j : K) * dT))) → b = a := by
      intro x hx e
      by_contra hne
      have hpos : 0 < ((b - a : Nat) : K) * dT := mul_pos (by exact_mod_cast (by omega : 0 < b - a)) hd
      have e2 := spline3_ok c.height 0 (c.height + c.delta) c.height 0 (t1 := ((b - a : Nat) : K) * dT / 2)
        (t2 := ((b - a : Nat) : K) * dT) (by linarith) (by linarith)
      simp only [e2] at e
      rw [hx] at e
      cases e
    cases p with
    | switchIn => exact absurd h7 (by simp [body])
    | switchOut => exact absurd h7 (by simp [body])
    | stance => exact ⟨Or.inl rfl, key _ h7 rfl⟩
    | swing => exact ⟨Or.inr rfl, key _ h7 rfl⟩
  refine ⟨k, a, r.2, p, h1, by rw [h2, hs.2], h5, hs.1, ?_, h4, h8⟩
  rw [computeNewTrajectories, if_neg hn, h3]
  rfl

/-- Six samples at the height 1; then seven at the height 2, with an empty double support after the first step: the vector
begins at the new height and ends at the old one, except for the last sample, which is zero. -/
theorem C106_height_mixed :
    let c1 : HeightSettings ℚ := ⟨1, 0⟩
    let c2 : HeightSettings ℚ := ⟨2, 0⟩
    let old := after c1 1 [.switchOut, .switchOut, .swing, .swing, .switchIn, .switchIn] [0, 2, 4, 6] []
    let p2 : List Phase := [.switchOut, .swing, .stance, .switchOut, .switchOut, .switchOut, .switchOut]
    computeNewTrajectories c2 1 p2 [0, 1, 2, 2, 3, 7] = .fail ∧
      (after c2 1 p2 [0, 1, 2, 2, 3, 7] old).map Motion.pos = [2, 2, 1, 1, 1, 1, 0] := by
  decide +kernel

end CoMHeight

variable [Trig K]

namespace CubicFeet

/-- **C106** (step height not set): the vectors are not touched. -/
theorem C106_cubic_unset (c : FeetSettings K) (z0 dT : K) (left right : FootPrint K) (lp rp : List Phase) (shifts : List Nat)
    (d : FootSample K) (old : List (FootSample K) × List (FootSample K)) (hh : c.stepHeight < 0) :
    computeNewTrajectories c z0 dT left right lp rp shifts = .fail ∧ after c z0 dT left right lp rp shifts d old = old := by
  have e : interpolateFoot c z0 dT shifts lp left.steps = .fail := by rw [interpolateFoot, if_pos hh]
  constructor
  · rw [computeNewTrajectories, e]
    rfl
  · rw [after, e, footAfter, if_pos hh]

theorem footAfter_ok {c : FeetSettings K} {z0 dT : K} {l : List Nat} {phases : List Phase} {steps : List (Step K)}
    {w : List (FootSample K)} (he : (0 :: l).getLast (by simp) = phases.length)
    (h : interpolateFoot c z0 dT (0 :: l) phases steps = .ok w) (d : FootSample K) (old : List (FootSample K)) :
    footAfter c z0 dT (0 :: l) phases steps d old = w := by
  unfold interpolateFoot at h
  unfold footAfter
  by_cases hh : c.stepHeight < 0
  · rw [if_pos hh] at h; simp at h
  rw [if_neg hh] at h ⊢
  rw [Out.bind_eq_ok] at h
  obtain ⟨r, hr, h⟩ := h
  cases h
  exact afterPhases_ok (footBody_fills swing_length) he hr d old

theorem footAfter_fail {c : FeetSettings K} {z0 dT : K} {l : List Nat} {phases : List Phase} {steps : List (Step K)}
    (hh : 0 ≤ c.stepHeight) (hd : 0 < dT) (h0 : 0 < c.swingApex) (h1 : c.swingApex < 1)
    (h : interpolateFoot c z0 dT (0 :: l) phases steps = .fail) (d : FootSample K) (old : List (FootSample K)) :
    ∃ (k a b : Nat) (w : List (FootSample K)), (0 :: l)[k]? = some a ∧ (0 :: l)[k + 1]? = some b ∧
      phases[a]? = some .swing ∧
      (b = a ∨ steps.length = 1 + ((0 :: l).take k).countP fun i => decide (phases[i]? = some .swing)) ∧
      interpolateFoot c z0 dT ((0 :: l).take (k + 1)) phases steps = .ok w ∧ w.length = a ∧
      Mixed d phases.length a w old (footAfter c z0 dT (0 :: l) phases steps d old) := by
  unfold interpolateFoot at h
  unfold footAfter
  have hn : ¬ c.stepHeight < 0 := not_lt.mpr hh
  rw [if_neg hn] at h ⊢
  have h' : overPhases (footBody (swing c z0 dT)) phases (0 :: l) steps = .fail := by
    cases hr : overPhases (footBody (swing c z0 dT)) phases (0 :: l) steps with
    | ok r => rw [hr] at h; cases h
    | fail => rfl
    | ub w => rw [hr] at h; cases h
  obtain ⟨k, a, b, r, p, f, e1, e2, e3, e4, e5, e6, e7, e8⟩ := afterPhases_fail (part := fun _ _ _ _ _ _ => [])
    (footBody_fills swing_length) (fun _ _ _ _ _ _ _ => rfl) (fun _ _ _ _ _ _ _ => rfl) h' d old
  obtain ⟨rfl, hs⟩ := footBody_fail e7
  refine ⟨k, a, b, r.2, e1, e2, e5, ?_, ?_, e4, e8⟩
  · rcases hs with hs | ⟨x, y, q, -, hs⟩
    · right
      have := footBody_steps (show phaseLoop (footBody (swing c z0 dT)) phases (l.take k) 1 0 steps = .ok r from e3)
      rw [this, hs]
      have hk : k ≤ l.length := by
        have := (List.getElem?_eq_some_iff.mp e2).1
        simp at this
        omega
      congr 2
      rw [List.length_take, Nat.min_eq_left hk]
      cases k with
      | zero => rfl
      | succ k => simp [List.take_take]
    · left
      by_contra hne
      rw [swing_ok z0 hd h0 h1 x y (by omega : 0 < b - a)] at hs
      simp at hs
  · rw [interpolateFoot, if_neg hn, e3]
    rfl

/-- **C106** (failure of the cubic splines): a foot stops at an empty phase that a swing follows, or at a swing to a step that does not exist.  The
samples before are new, the others what they were.  If it is the left foot nothing of the right foot has changed; if it is
the right foot the left one is complete. -/
theorem C106_cubic {c : FeetSettings K} {z0 dT : K} {left right : FootPrint K} {lp rp : List Phase} {l : List Nat}
    (hh : 0 ≤ c.stepHeight) (hd : 0 < dT) (h0 : 0 < c.swingApex) (h1 : c.swingApex < 1)
    (hl : (0 :: l).getLast (by simp) = lp.length)
    (h : computeNewTrajectories c z0 dT left right lp rp (0 :: l) = .fail) (d : FootSample K)
    (old : List (FootSample K) × List (FootSample K)) :
    ∃ (f : Bool) (k a b : Nat) (w : List (FootSample K)),
      let phases := if f = true then lp else rp
      let steps := if f = true then left.steps else right.steps
      let v := after c z0 dT left right lp rp (0 :: l) d old
      (0 :: l)[k]? = some a ∧ (0 :: l)[k + 1]? = some b ∧ phases[a]? = some .swing ∧
      (b = a ∨ steps.length = 1 + ((0 :: l).take k).countP fun i => decide (phases[i]? = some .swing)) ∧
      interpolateFoot c z0 dT ((0 :: l).take (k + 1)) phases steps = .ok w ∧ w.length = a ∧
      Mixed d phases.length a w (if f = true then old.1 else old.2) (if f = true then v.1 else v.2) ∧
      if f = true then v.2 = old.2 else interpolateFoot c z0 dT (0 :: l) lp left.steps = .ok v.1 := by
  cases hL : interpolateFoot c z0 dT (0 :: l) lp left.steps with
  | ub w => rw [computeNewTrajectories, hL] at h; cases h
  | fail =>
    obtain ⟨k, a, b, w, q⟩ := footAfter_fail hh hd h0 h1 hL d old.1
    refine ⟨true, k, a, b, w, ?_⟩
    simp only [if_true]
    exact ⟨q.1, q.2.1, q.2.2.1, q.2.2.2.1, q.2.2.2.2.1, q.2.2.2.2.2.1, q.2.2.2.2.2.2, by simp only [after, hL]⟩
  | ok x =>
    have hR : interpolateFoot c z0 dT (0 :: l) rp right.steps = .fail := by
      rw [computeNewTrajectories, hL] at h
      cases hR : interpolateFoot c z0 dT (0 :: l) rp right.steps with
      | ok r => simp only [Out.bind_ok, hR] at h; cases h
      | fail => rfl
      | ub w => simp only [Out.bind_ok, hR] at h; cases h
    obtain ⟨k, a, b, w, q⟩ := footAfter_fail hh hd h0 h1 hR d old.2
    refine ⟨false, k, a, b, w, ?_⟩
    simp only [Bool.false_eq_true, if_false]
    refine ⟨q.1, q.2.1, q.2.2.1, q.2.2.2.1, q.2.2.2.2.1, q.2.2.2.2.2.1, ?_, ?_⟩
    · simp only [after, hL]
      exact q.2.2.2.2.2.2
    · simp only [after]
      rw [footAfter_ok hl hL]

/-- **C106** (success). -/
theorem C106_cubic_done {c : FeetSettings K} {z0 dT : K} {left right : FootPrint K} {lp rp : List Phase} {l : List Nat}
    {w : List (FootSample K) × List (FootSample K)} (hl : (0 :: l).getLast (by simp) = lp.length)
    (hr : (0 :: l).getLast (by simp) = rp.length)
    (h : computeNewTrajectories c z0 dT left right lp rp (0 :: l) = .ok w) (d : FootSample K)
    (old : List (FootSample K) × List (FootSample K)) : after c z0 dT left right lp rp (0 :: l) d old = w := by
  unfold computeNewTrajectories at h
  rw [Out.bind_eq_ok] at h
  obtain ⟨x, hx, h⟩ := h
  rw [Out.bind_eq_ok] at h
  obtain ⟨y, hy, h⟩ := h
  cases h
  simp only [after, hx, footAfter_ok hl hx, footAfter_ok hr hy]

end CubicFeet

namespace MinJerk
variable [FloorRing K]

/-- **C106** (step height not set): the vectors are not touched. -/
theorem C106_minJerk_unset (c : FeetSettings K) (dT : K) (left right : FootPrint K) (lp rp : List Phase) (shifts : List Nat)
    (d : FootSample K) (old : List (FootSample K) × List (FootSample K)) (hh : c.stepHeight < 0) :
    computeNewTrajectories c dT left right lp rp shifts = .fail ∧ after c dT left right lp rp shifts d old = old := by
  have e : interpolateFoot c dT shifts lp left.steps = .fail := by rw [interpolateFoot, if_pos hh]
  constructor
  · rw [computeNewTrajectories, e]
    rfl
  · rw [after, e, footAfter, if_pos hh]

theorem footAfter_ok {c : FeetSettings K} {dT : K} {l : List Nat} {phases : List Phase} {steps : List (Step K)}
    (h0 : 0 < c.swingApex) (h1 : c.swingApex < 1)
    {w : List (FootSample K)} (he : (0 :: l).getLast (by simp) = phases.length)
    (h : interpolateFoot c dT (0 :: l) phases steps = .ok w) (d : FootSample K) (old : List (FootSample K)) :
    footAfter c dT (0 :: l) phases steps d old = w := by
  unfold interpolateFoot at h
  unfold footAfter
  by_cases hh : c.stepHeight < 0
  · rw [if_pos hh] at h; simp at h
  rw [if_neg hh] at h ⊢
  rw [Out.bind_eq_ok] at h
  obtain ⟨r, hr, h⟩ := h
  cases h
  exact afterPhases_ok (footBody_fills (swing_length h0 h1)) he hr d old

theorem footAfter_fail {c : FeetSettings K} {dT : K} {l : List Nat} {phases : List Phase} {steps : List (Step K)}
    (hh : 0 ≤ c.stepHeight) (hd : 0 < dT) (h0 : 0 < c.swingApex) (h1 : c.swingApex < 1)
    (h : interpolateFoot c dT (0 :: l) phases steps = .fail) (d : FootSample K) (old : List (FootSample K)) :
    ∃ (k a : Nat) (w : List (FootSample K)), (0 :: l)[k]? = some a ∧ k < l.length ∧ phases[a]? = some .swing ∧
      (steps.length = 1 + ((0 :: l).take k).countP fun i => decide (phases[i]? = some .swing)) ∧
      interpolateFoot c dT ((0 :: l).take (k + 1)) phases steps = .ok w ∧ w.length = a ∧
      Mixed d phases.length a w old (footAfter c dT (0 :: l) phases steps d old) := by
  unfold interpolateFoot at h
  unfold footAfter
  have hn : ¬ c.stepHeight < 0 := not_lt.mpr hh
  rw [if_neg hn] at h ⊢
  have h' : overPhases (footBody (swing c dT)) phases (0 :: l) steps = .fail := by
    cases hr : overPhases (footBody (swing c dT)) phases (0 :: l) steps with
    | ok r => rw [hr] at h; cases h
    | fail => rfl
    | ub w => rw [hr] at h; cases h
  have none : ∀ k b p i j (s : List (Step K)), footBody (swing c dT) k b p i j s = .fail → s.length = 1 := by
    intro k b p i j s hf
    rcases (footBody_fail hf).2 with hs | ⟨x, y, q, -, hs⟩
    · exact hs
    · rw [swing_ok hd h0 h1] at hs
      simp at hs
  obtain ⟨k, a, b, r, p, f, e1, e2, e3, e4, e5, e6, e7, e8⟩ := afterPhases_fail (part := footWrites c dT)
    (footBody_fills (swing_length h0 h1)) (fun _ _ _ _ _ _ _ => rfl) (fun k b p i j s hf => by
      have := none k b p i j s hf
      rcases s with _ | ⟨x, _ | ⟨y, s⟩⟩
      · simp at this
      · rfl
      · simp at this) h' d old
  obtain ⟨rfl, -⟩ := footBody_fail e7
  have hk : k < l.length := by
    have := (List.getElem?_eq_some_iff.mp e2).1
    simp at this
    omega
  refine ⟨k, a, r.2, e1, hk, e5, ?_, ?_, e4, e8⟩
  · have := footBody_steps (show phaseLoop (footBody (swing c dT)) phases (l.take k) 1 0 steps = .ok r from e3)
    rw [this, none _ _ _ _ _ _ e7]
    congr 2
    rw [List.length_take, Nat.min_eq_left hk.le]
    cases k with
    | zero => rfl
    | succ k => simp [List.take_take]
  · rw [interpolateFoot, if_neg hn, e3]
    rfl

/-- **C106** (failure of the minimum jerk curves): a foot stops only at a swing to a step that does not exist. -/
theorem C106_minJerk {c : FeetSettings K} {dT : K} {left right : FootPrint K} {lp rp : List Phase} {l : List Nat}
    (hh : 0 ≤ c.stepHeight) (hd : 0 < dT) (h0 : 0 < c.swingApex) (h1 : c.swingApex < 1)
    (hl : (0 :: l).getLast (by simp) = lp.length)
    (h : computeNewTrajectories c dT left right lp rp (0 :: l) = .fail) (d : FootSample K)
    (old : List (FootSample K) × List (FootSample K)) :
    ∃ (f : Bool) (k a : Nat) (w : List (FootSample K)),
      let phases := if f = true then lp else rp
      let steps := if f = true then left.steps else right.steps
      let v := after c dT left right lp rp (0 :: l) d old
      (0 :: l)[k]? = some a ∧ k < l.length ∧ phases[a]? = some .swing ∧
      (steps.length = 1 + ((0 :: l).take k).countP fun i => decide (phases[i]? = some .swing)) ∧
      interpolateFoot c dT ((0 :: l).take (k + 1)) phases steps = .ok w ∧ w.length = a ∧
      Mixed d phases.length a w (if f = true then old.1 else old.2) (if f = true then v.1 else v.2) ∧
      if f = true then v.2 = old.2 else interpolateFoot c dT (0 :: l) lp left.steps = .ok v.1 := by
  cases hL : interpolateFoot c dT (0 :: l) lp left.steps with
  | ub w => rw [computeNewTrajectories, hL] at h; cases h
  | fail =>
    obtain ⟨k, a, w, q⟩ := footAfter_fail hh hd h0 h1 hL d old.1
    refine ⟨true, k, a, w, ?_⟩
    simp only [if_true]
    exact ⟨q.1, q.2.1, q.2.2.1, q.2.2.2.1, q.2.2.2.2.1, q.2.2.2.2.2.1, q.2.2.2.2.2.2, by simp only [after, hL]⟩
  | ok x =>
    have hR : interpolateFoot c dT (0 :: l) rp right.steps = .fail := by
      rw [computeNewTrajectories, hL] at h
      cases hR : interpolateFoot c dT (0 :: l) rp right.steps with
      | ok r => simp only [Out.bind_ok, hR] at h; cases h
      | fail => rfl
      | ub w => simp only [Out.bind_ok, hR] at h; cases h
    obtain ⟨k, a, w, q⟩ := footAfter_fail hh hd h0 h1 hR d old.2
    refine ⟨false, k, a, w, ?_⟩
    simp only [Bool.false_eq_true, if_false]
    refine ⟨q.1, q.2.1, q.2.2.1, q.2.2.2.1, q.2.2.2.2.1, q.2.2.2.2.2.1, ?_, ?_⟩
    · simp only [after, hL]
      exact q.2.2.2.2.2.2
    · simp only [after]
      rw [footAfter_ok h0 h1 hl hL]

/-- **C106** (success). -/
theorem C106_minJerk_done {c : FeetSettings K} {dT : K} {left right : FootPrint K} {lp rp : List Phase} {l : List Nat}
    (h0 : 0 < c.swingApex) (h1 : c.swingApex < 1)
    {w : List (FootSample K) × List (FootSample K)} (hl : (0 :: l).getLast (by simp) = lp.length)
    (hr : (0 :: l).getLast (by simp) = rp.length)
    (h : computeNewTrajectories c dT left right lp rp (0 :: l) = .ok w) (d : FootSample K)
    (old : List (FootSample K) × List (FootSample K)) : after c dT left right lp rp (0 :: l) d old = w := by
  unfold computeNewTrajectories at h
  rw [Out.bind_eq_ok] at h
  obtain ⟨x, hx, h⟩ := h
  rw [Out.bind_eq_ok] at h
  obtain ⟨y, hy, h⟩ := h
  cases h
  simp only [after, hx, footAfter_ok h0 h1 hl hx, footAfter_ok h0 h1 hr hy]

end MinJerk

/-- The walks of the generator have the shape required above: the shifts begin with 0 and end with the number of samples. -/
theorem C106_walk [FloorRing K] {cfg : GenSettings K} {left right : FootPrint K} {initTime dT : K} {sorted ordered : List (Ptr K)}
    {t : Timing K} (h : Gen.timeline cfg left right initTime dT sorted = .ok (ordered, t)) :
    ∃ l, t.shifts = 0 :: l ∧ (0 :: l).getLast (by simp) = t.left.length ∧ (0 :: l).getLast (by simp) = t.right.length := by
  obtain ⟨p1, p2, p3, -⟩ := Gen.C34_partition h
  cases hs : t.shifts with
  | nil => rw [hs] at p3; simp at p3
  | cons a l =>
    rw [hs] at p2 p3
    simp only [List.head?_cons, Option.some.injEq] at p3
    subst p3
    refine ⟨l, rfl, ?_, ?_⟩
    · rw [List.getLast?_eq_some_getLast (by simp)] at p2
      exact Option.some.inj p2
    · rw [List.getLast?_eq_some_getLast (by simp)] at p2
      rw [← p1]
      exact Option.some.inj p2

section Witness

private local instance residueTrig : Trig ℚ := ⟨fun _ => 1, fun _ => 0, fun x => x, fun x => x, fun x => x, fun x _ => x, 3⟩

private def at' (x t : ℚ) (n : String) : Step ℚ := ⟨⟨x, 0⟩, 0, t, n⟩

/-- A sample at `x`. -/
private def still (x : ℚ) : FootSample ℚ := ⟨⟨x, 0, 0⟩, 0, 0, ⟨0, 0, 0⟩, ⟨0, 0, 0⟩, ⟨0, 0, 0⟩, ⟨0, 0, 0⟩⟩

/-- The left foot swings after an empty double support: the left vector is a mixture of the new pose (1) and the old one (9),
the right one is old (8). -/
theorem C106_feet_mixed :
    let c : FeetSettings ℚ := ⟨1, 0, 1 / 2, 0⟩
    let left : FootPrint ℚ := ⟨[at' 1 0 "left", at' 2 3 "left"], "left"⟩
    let right : FootPrint ℚ := ⟨[at' 1 0 "right", at' 3 2 "right"], "right"⟩
    let lp : List Phase := [.switchIn, .stance, .swing, .switchIn]
    let rp : List Phase := [.switchOut, .swing, .stance, .switchOut]
    let old := (List.replicate 4 (still 9), List.replicate 4 (still 8))
    CubicFeet.computeNewTrajectories c 0 1 left right lp rp [0, 1, 2, 2, 3, 4] = .fail ∧
      (CubicFeet.after c 0 1 left right lp rp [0, 1, 2, 2, 3, 4] (still 0) old).1.map (fun s => s.pos.x) = [1, 1, 9, 9] ∧
      (CubicFeet.after c 0 1 left right lp rp [0, 1, 2, 2, 3, 4] (still 0) old).2.map (fun s => s.pos.x) = [8, 8, 8, 8] := by
  decide +kernel

/-- The left foot has no step to swing to. -/
theorem C106_minJerk_mixed :
    let c : FeetSettings ℚ := ⟨1, 0, 1 / 2, 0⟩
    let left : FootPrint ℚ := ⟨[at' 1 0 "left"], "left"⟩
    let lp : List Phase := [.switchOut, .swing, .switchIn]
    let rp : List Phase := [.switchIn, .stance, .switchOut]
    MinJerk.computeNewTrajectories c 1 left left lp rp [0, 1, 2, 3] = .fail ∧
      (MinJerk.after c 1 left left lp rp [0, 1, 2, 3] (still 0) ([still 9, still 9], [])).1.map (fun s => s.pos.x) =
        [1, 9, 0] := by
  decide +kernel

end Witness
end Uni
