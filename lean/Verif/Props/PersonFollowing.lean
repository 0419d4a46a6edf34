import Verif.Lemmas.PersonFollowing
import Verif.Props.Ellipse
import Verif.Props.Controllers
import Mathlib.Analysis.SpecialFunctions.Trigonometric.Deriv

/-! # C10–C15: the person-following controller -/

set_option autoImplicit false
set_option linter.unusedSectionVars false

namespace Uni.PersonCtrl
open Spec

section
variable {K : Type*} [Field K] [LinearOrder K] [IsStrictOrderedRing K]

/-! ## C10 -/

/-- A sequence of `setDesiredPoint` calls, with the results. -/
inductive SetDesiredPoints : PersonCtrl K → List (TrajPoint K) → List Bool → PersonCtrl K → Prop
  | nil (c) : SetDesiredPoints c [] [] c
  | cons {c c' c'' p ps ok oks} : SetDesiredPoint c p ok c' → SetDesiredPoints c' ps oks c'' →
      SetDesiredPoints c (p :: ps) (ok :: oks) c''

/-- C10: after any sequence of calls, and whatever the (unstable) sort does with equal times, the
stored points are in time order and are exactly the initial ones plus the points with a non-negative
time; the calls rejected are exactly the others. -/
theorem C10_sorted (c c' : PersonCtrl K) (ps : List (TrajPoint K)) (oks : List Bool)
    (h : SetDesiredPoints c ps oks c') (hc : InTimeOrder c.traj) :
    InTimeOrder c'.traj ∧ c'.traj.Perm (c.traj ++ ps.filter (fun p => decide (0 ≤ p.initTime))) ∧
    oks = ps.map (fun p => decide (0 ≤ p.initTime)) := by
  induction h with
  | nil c => exact ⟨hc, by simp, rfl⟩
  | @cons c c1 c2 p ps ok oks h1 _ ih =>
    rcases h1 with ⟨hneg, rfl, rfl⟩ | ⟨hpos, rfl, sorted, hperm, hpw, rfl⟩
    · obtain ⟨i1, i2, i3⟩ := ih hc
      have : ¬ 0 ≤ p.initTime := not_le.mpr hneg
      exact ⟨i1, by simpa [this] using i2, by simp [i3, this]⟩
    · have hs : InTimeOrder sorted := hpw.imp (fun h => not_lt.mp h)
      obtain ⟨i1, i2, i3⟩ := ih hs
      have : 0 ≤ p.initTime := not_lt.mp hpos
      refine ⟨i1, ?_, by simp [i3, this]⟩
      refine i2.trans ?_
      have := hperm.append_right (ps.filter (fun p => decide (0 ≤ p.initTime)))
      simpa [this, ‹0 ≤ p.initTime›] using this

/-- The deterministic version used when the planner is run is one of the allowed ones. -/
theorem C10_instance (c : PersonCtrl K) (p : TrajPoint K) :
    SetDesiredPoint c p (c.setDesiredPoint p).1 (c.setDesiredPoint p).2 := by
  unfold setDesiredPoint SetDesiredPoint
  split_ifs with h
  · exact Or.inl ⟨h, rfl, rfl⟩
  · refine Or.inr ⟨h, rfl, _, List.perm_insertionSort _ _, ?_, rfl⟩
    have : Std.Total (fun a b : TrajPoint K => a.initTime ≤ b.initTime) := ⟨fun a b => le_total _ _⟩
    have : IsTrans (TrajPoint K) (fun a b => a.initTime ≤ b.initTime) := ⟨fun a b c => le_trans⟩
    exact (List.pairwise_insertionSort (fun a b : TrajPoint K => a.initTime ≤ b.initTime) _).imp not_lt.mpr

/-- Non-vacuity of C10: three points out of order, one of them refused. -/
example [Trig ℚ] : ((((new : PersonCtrl ℚ).setDesiredPoint ⟨3, ⟨1, 1⟩, 0⟩).2.setDesiredPoint
    ⟨-1, 0, 0⟩).2.setDesiredPoint ⟨2, ⟨5, 5⟩, 0⟩).2.traj.map (·.initTime) = [0, 2, 3] := by
  decide +kernel

/-! ## C11 -/

/-- C11: on a trajectory in time order the reference is the piecewise-linear one, it fails exactly
outside its domain, and no division by zero can happen. -/
theorem C11_reference (traj : List (TrajPoint K)) (hs : InTimeOrder traj) (t : K) :
    (∀ y yDot, desiredPoint traj t = .ok (y, yDot) ↔ 0 ≤ t ∧ RefAt traj t y yDot) ∧
    (desiredPoint traj t = .fail ↔ t < 0 ∨ ∀ p ∈ traj, t < p.initTime) ∧
    (∀ w, desiredPoint traj t ≠ .ub w) := by
  by_cases ht : t < 0
  · have hf : desiredPoint traj t = .fail := by simp [desiredPoint, ht]
    refine ⟨fun y yd => ?_, by simp [hf, ht], by simp [hf]⟩
    simp [hf, not_le.mpr ht]
  have ht' : 0 ≤ t := not_lt.mp ht
  cases traj with
  | nil =>
    have hf : desiredPoint ([] : List (TrajPoint K)) t = .fail := by simp [desiredPoint, ht]
    refine ⟨fun y yd => ?_, by simp [hf], by simp [hf]⟩
    simp [hf, RefAt]
  | cons a as =>
    by_cases ha : a.initTime ≤ t
    · obtain ⟨pre, p, post, h1, h2, h3, h4⟩ := exists_split hs ha
      have hval := desiredPoint_split ht' pre post p (h1 ▸ hs) h2 h4
      rw [← h1] at hval
      have hlater : ∀ q ∈ post, p.initTime < q.initTime := fun q hq => lt_of_le_of_lt h2 (h4 q hq)
      -- uniqueness of the split
      have huniq : ∀ pre' p' post', a :: as = pre' ++ p' :: post' → p'.initTime ≤ t →
          (∀ x, post'.head? = some x → t < x.initTime) → p' = p ∧ post' = post := by
        intro pre' p' post' e hp' hpost'
        have hs' : InTimeOrder (pre' ++ p' :: post') := e ▸ hs
        have hpostall : ∀ x ∈ post', t < x.initTime := by
          intro x hx
          cases post' with
          | nil => simp at hx
          | cons q qs =>
            have hq := hpost' q rfl
            rcases List.mem_cons.mp hx with rfl | hx
            · exact hq
            · have := (List.pairwise_append.mp hs').2.1
              have := List.Pairwise.of_cons this
              exact lt_of_lt_of_le hq (List.rel_of_pairwise_cons this hx)
        have hpreall : ∀ x ∈ pre', x.initTime ≤ t := by
          intro x hx
          have := (List.pairwise_append.mp hs').2.2 x hx p' (by simp)
          exact le_trans this hp'
        have d1 := dropWhile_split pre' post' p' hpreall hp' hpostall
        have d2 := dropWhile_split pre post p h3 h2 h4
        rw [← e] at d1
        rw [← h1] at d2
        have hpp : post' = post := d1.symm.trans d2
        subst hpp
        rw [h1] at e
        have : pre ++ [p] = pre' ++ [p'] := by
          have e' : (pre ++ [p]) ++ post' = (pre' ++ [p']) ++ post' := by simpa using e
          exact List.append_cancel_right e'
        have := List.append_inj_right' this rfl
        simp at this
        exact ⟨this.symm, rfl⟩
      have hok : ∀ y yd, valueOf t p post.head? = .ok (y, yd) ↔ RefAt (a :: as) t y yd := by
        intro y yd
        cases post with
        | nil =>
          simp only [List.head?_nil, valueOf, Out.ok.injEq, Prod.mk.injEq]
          constructor
          · rintro ⟨rfl, rfl⟩
            exact Or.inl ⟨pre, p, h1, h2, rfl, rfl⟩
          · rintro (⟨pre', p', e, hp', rfl, rfl⟩ | ⟨pre', p', q', post', e, hp', hq', -, -⟩)
            · obtain ⟨rfl, -⟩ := huniq pre' p' [] e hp' (by simp)
              exact ⟨rfl, rfl⟩
            · have := (huniq pre' p' (q' :: post') e hp' (by simpa using hq')).2
              simp at this
        | cons q post =>
          simp only [List.head?_cons, valueOf, interpolate_ok (hlater q (by simp)), Out.ok.injEq,
            Prod.mk.injEq]
          constructor
          · rintro ⟨rfl, rfl⟩
            exact Or.inr ⟨pre, p, q, post, h1, h2, h4 q (by simp), rfl, rfl⟩
          · rintro (⟨pre', p', e, hp', rfl, rfl⟩ | ⟨pre', p', q', post', e, hp', hq', rfl, rfl⟩)
            · have := (huniq pre' p' [] e hp' (by simp)).2
              simp at this
            · obtain ⟨rfl, h⟩ := huniq pre' p' (q' :: post') e hp' (by simpa using hq')
              simp only [List.cons.injEq] at h
              obtain ⟨rfl, -⟩ := h
              exact ⟨rfl, rfl⟩
      have hnot : ¬ (t < 0 ∨ ∀ x ∈ a :: as, t < x.initTime) := by
        push Not
        exact ⟨ht', a, by simp, ha⟩
      have hex : ∃ r, valueOf t p post.head? = .ok r := by
        cases post with
        | nil => exact ⟨_, rfl⟩
        | cons q post => exact ⟨_, interpolate_ok (hlater q (by simp))⟩
      obtain ⟨r, hr⟩ := hex
      refine ⟨fun y yd => by rw [hval, hok]; simp [ht'], ?_, ?_⟩
      · rw [hval, hr]; simp only [reduceCtorEq, false_iff]; exact hnot
      · rw [hval, hr]; simp
    · have hlt : t < a.initTime := not_le.mp ha
      have hall : ∀ x ∈ a :: as, t < x.initTime := by
        intro x hx
        rcases List.mem_cons.mp hx with rfl | hx
        · exact hlt
        · exact lt_of_lt_of_le hlt (List.rel_of_pairwise_cons hs hx)
      have hf : desiredPoint (a :: as) t = .fail := by simp [desiredPoint, ht, hlt]
      refine ⟨fun y yd => ?_, by simp only [hf, true_iff]; exact Or.inr hall, by simp [hf]⟩
      simp only [hf, reduceCtorEq, false_iff]
      rintro ⟨-, ⟨pre, p, e, hp, -, -⟩ | ⟨pre, p, q, post, e, hp, -, -, -⟩⟩
      · exact absurd hp (not_le.mpr (hall p (by rw [e]; simp)))
      · exact absurd hp (not_le.mpr (hall p (by rw [e]; simp)))

/-- C11: in particular at the time of a desired point (the last one, if several have that time) the
reference is that point. -/
theorem C11_at_points (pre post : List (TrajPoint K)) (p : TrajPoint K)
    (hs : InTimeOrder (pre ++ p :: post)) (hp : 0 ≤ p.initTime) (hpost : ∀ q ∈ post, p.initTime < q.initTime) :
    desiredPoint (pre ++ p :: post) p.initTime = .ok (p.y, p.yDot) := by
  rw [((C11_reference _ hs _).1 _ _)]
  refine ⟨hp, ?_⟩
  cases post with
  | nil => exact Or.inl ⟨pre, p, rfl, le_rfl, rfl, rfl⟩
  | cons q post =>
    exact Or.inr ⟨pre, p, q, post, rfl, le_rfl, hpost q (by simp), by ext <;> simp [between],
      by ext <;> simp [between]⟩

/-- Non-vacuity of C11: a time strictly between two points. -/
example : desiredPoint [⟨0, ⟨0, 0⟩, 0⟩, ⟨2, ⟨4, 8⟩, 0⟩, ⟨3, ⟨4, 8⟩, 0⟩] (1 / 2 : ℚ) = .ok (⟨1, 2⟩, ⟨0, 0⟩) := by
  decide +kernel

/-! ## C12 -/

/-- C12 is violated: the header says that the desired values are held constant until the next point,
but strictly between two points with different positions the reference is *never* the first one. -/
theorem C12_not_held (pre post : List (TrajPoint K)) (p q : TrajPoint K) (t : K)
    (hs : InTimeOrder (pre ++ p :: q :: post)) (h0 : 0 ≤ t) (hpt : p.initTime < t) (htq : t < q.initTime)
    (hpq : p.y ≠ q.y) :
    ∃ y yDot, desiredPoint (pre ++ p :: q :: post) t = .ok (y, yDot) ∧ y ≠ p.y := by
  refine ⟨_, _, ((C11_reference _ hs t).1 _ _).mpr ⟨h0, Or.inr ⟨pre, p, q, post, rfl, hpt.le, htq, rfl, rfl⟩⟩, ?_⟩
  intro h
  apply hpq
  have hr : (t - p.initTime) / (q.initTime - p.initTime) ≠ 0 :=
    div_ne_zero (sub_pos.mpr hpt).ne' (sub_pos.mpr (hpt.trans htq)).ne'
  have hx := congrArg Vec2.x h
  have hy := congrArg Vec2.y h
  simp only [between, add_eq_left, mul_eq_zero, hr, false_or, sub_eq_zero] at hx hy
  ext
  · exact hx.symm
  · exact hy.symm

/-- C12 (partial): the values are held from a point on when the next point has the same values (so a
user can obtain a held reference by doubling the points), and after the last point.  Missing: the
general contract, refuted above. -/
theorem C12_held_partial (pre post : List (TrajPoint K)) (p q : TrajPoint K) (t : K)
    (hs : InTimeOrder (pre ++ p :: q :: post)) (h0 : 0 ≤ t) (hpt : p.initTime ≤ t) (htq : t < q.initTime)
    (h1 : p.y = q.y) (h2 : p.yDot = q.yDot) :
    desiredPoint (pre ++ p :: q :: post) t = .ok (p.y, p.yDot) := by
  rw [((C11_reference _ hs t).1 _ _)]
  refine ⟨h0, Or.inr ⟨pre, p, q, post, rfl, hpt, htq, ?_, ?_⟩⟩
  · rw [h1]; ext <;> simp [between]
  · rw [h2]; ext <;> simp [between]

/-! ## C13 -/

/-- C13: clearing up to `t` succeeds iff `t ≥ 0` and the trajectory is empty or not entirely in the
future; it leaves no point before `t`, keeps the time order, and does not change the reference at any
`t' ≥ t`.  If it fails nothing changes.  No division by zero. -/
theorem C13_clear (traj : List (TrajPoint K)) (hs : InTimeOrder traj) (t : K) :
    (∃ new, clearUpTo traj t = .ok (true, new) ∧ InTimeOrder new ∧ (∀ p ∈ new, t ≤ p.initTime) ∧
      ∀ t', t ≤ t' → desiredPoint new t' = desiredPoint traj t') ∨
    (clearUpTo traj t = .ok (false, traj) ∧ (t < 0 ∨ (traj ≠ [] ∧ ∀ p ∈ traj, t < p.initTime))) := by
  by_cases ht : t < 0
  · right; exact ⟨by simp [clearUpTo, ht], Or.inl ht⟩
  have ht' : 0 ≤ t := not_lt.mp ht
  cases traj with
  | nil =>
    left
    exact ⟨[], by simp [clearUpTo, ht], hs, by simp, fun t' _ => rfl⟩
  | cons a as =>
    by_cases ha : a.initTime ≤ t
    · left
      obtain ⟨pre, p, post, h1, h2, h3, h4⟩ := exists_split hs ha
      have hs' : InTimeOrder (pre ++ p :: post) := h1 ▸ hs
      have hval := desiredPoint_split ht' pre post p hs' h2 h4
      have hpostS : InTimeOrder post := List.Pairwise.of_cons (List.pairwise_append.mp hs').2.1
      have hlater : ∀ q ∈ post, p.initTime < q.initTime := fun q hq => lt_of_le_of_lt h2 (h4 q hq)
      obtain ⟨r, hr⟩ : ∃ r, valueOf t p post.head? = .ok r := by
        cases post with
        | nil => exact ⟨_, rfl⟩
        | cons q post => exact ⟨_, interpolate_ok (hlater q (by simp))⟩
      have hnew : InTimeOrder ((⟨t, r.1, r.2⟩ : TrajPoint K) :: post) :=
        List.pairwise_cons.mpr ⟨fun x hx => (h4 x hx).le, hpostS⟩
      refine ⟨⟨t, r.1, r.2⟩ :: post, ?_, hnew, ?_, ?_⟩
      · rw [h1]
        have hdrop := dropWhile_split pre post p h3 h2 h4
        unfold clearUpTo
        rw [if_neg ht]
        cases hl : pre ++ p :: post with
        | nil => simp at hl
        | cons b bs =>
          rw [hl] at hval hdrop
          simp only [hval, hr]
          rw [hdrop]
      · intro x hx
        rcases List.mem_cons.mp hx with rfl | hx
        · exact le_rfl
        · exact (h4 x hx).le
      · intro t' htt
        rw [h1]
        have ht0 : 0 ≤ t' := le_trans ht' htt
        by_cases hq : ∃ q qs, post = q :: qs ∧ q.initTime ≤ t'
        · obtain ⟨q, qs, rfl, hq⟩ := hq
          obtain ⟨pre2, p2, post2, e1, e2, e3, e4⟩ := exists_split hpostS hq
          rw [e1]
          have A := desiredPoint_split ht0 (⟨t, r.1, r.2⟩ :: pre2) post2 p2
            (by simpa [← e1] using hnew) e2 e4
          have B := desiredPoint_split ht0 (pre ++ p :: pre2) post2 p2
            (by simpa [← e1] using hs') e2 e4
          rw [show (⟨t, r.1, r.2⟩ : TrajPoint K) :: (pre2 ++ p2 :: post2) =
            (⟨t, r.1, r.2⟩ :: pre2) ++ p2 :: post2 from rfl, A]
          rw [show pre ++ p :: (pre2 ++ p2 :: post2) = (pre ++ p :: pre2) ++ p2 :: post2 by simp, B]
        · have hpost' : ∀ x ∈ post, t' < x.initTime := by
            intro x hx
            cases post with
            | nil => simp at hx
            | cons q qs =>
              have hq' : t' < q.initTime := by
                by_contra h
                exact hq ⟨q, qs, rfl, not_lt.mp h⟩
              rcases List.mem_cons.mp hx with rfl | hx
              · exact hq'
              · exact lt_of_lt_of_le hq' (List.rel_of_pairwise_cons hpostS hx)
          have A := desiredPoint_split ht0 [] post ⟨t, r.1, r.2⟩ hnew htt hpost'
          have B := desiredPoint_split ht0 pre post p hs' (h2.trans htt) hpost'
          rw [List.nil_append] at A
          rw [A, B]
          cases post with
          | nil =>
            simp only [List.head?_nil, valueOf, Out.ok.injEq] at hr ⊢
            rw [← hr]
          | cons q qs =>
            have htq := h4 q (by simp)
            have hpq := hlater q (by simp)
            simp only [List.head?_cons, valueOf, interpolate_ok hpq, Out.ok.injEq] at hr
            have hpq' : q.initTime - p.initTime ≠ 0 := (sub_pos.mpr hpq).ne'
            have htq' : q.initTime - t ≠ 0 := (sub_pos.mpr htq).ne'
            simp only [List.head?_cons, valueOf]
            rw [interpolate_ok (p := ⟨t, r.1, r.2⟩) (q := q) htq, interpolate_ok hpq, ← hr]
            congr 2 <;> ext <;> simp [between] <;> field_simp <;> ring
    · right
      have hlt := not_le.mp ha
      have hall : ∀ x ∈ a :: as, t < x.initTime := by
        intro x hx
        rcases List.mem_cons.mp hx with rfl | hx
        · exact hlt
        · exact lt_of_lt_of_le hlt (List.rel_of_pairwise_cons hs hx)
      exact ⟨by simp [clearUpTo, ht, desiredPoint, hlt], Or.inr ⟨by simp, hall⟩⟩

/-- Non-vacuity of C13: clearing in the middle of a segment. -/
example : clearUpTo [⟨0, ⟨0, 0⟩, 0⟩, ⟨2, ⟨4, 8⟩, 0⟩] (1 : ℚ) =
    .ok (true, [⟨1, ⟨2, 4⟩, ⟨0, 0⟩⟩, ⟨2, ⟨4, 8⟩, 0⟩]) := by decide +kernel

end

/-! ## C14 -/

/-- C14: let `u` be the output of the control law, within the velocity limits, and let the unicycle
move with the velocities `v` obtained after the saturation, no ellipse being set.  Then the velocity of the followed point (the point at
`personDistance` in the unicycle frame) at that instant is `ẏ_d − gain (y − y_d)`. -/
theorem C14_linearised (c : PersonCtrl ℝ) (garbage : ℝ) (t : ℝ) (X Y Θ : ℝ → ℝ) (yd ydDot : Vec2 ℝ)
    (u v : Control ℝ) (hdx : c.personDistance.x ≠ 0)
    (hin : c.inner.isSet = false) (hout : c.outer.isSet = false)
    (href : c.getDesiredPoint t = .ok (yd, ydDot))
    (hu : (c.setFeedback t ⟨X t, Y t⟩ (Θ t)).doUnicycleControl garbage = .ok u)
    (hang : |u.angular| ≤ c.base.maxAngular)
    (hfwd : u.forward ≤ c.base.velocitySaturation u.angular)
    (hbwd : -c.base.backFactor * c.base.velocitySaturation u.angular ≤ u.forward)
    (hv : c.base.doControl (some u) = some v)
    (hX : HasDerivAt X (dynamics ⟨⟨X t, Y t⟩, Θ t⟩ v).position.x t)
    (hY : HasDerivAt Y (dynamics ⟨⟨X t, Y t⟩, Θ t⟩ v).position.y t)
    (hΘ : HasDerivAt Θ (dynamics ⟨⟨X t, Y t⟩, Θ t⟩ v).angle t) :
    let y := fun τ => inFrame ⟨X τ, Y τ⟩ (Θ τ) c.personDistance
    HasDerivAt (fun τ => (y τ).x) (ydDot.x - c.gain * ((y t).x - yd.x)) t ∧
    HasDerivAt (fun τ => (y τ).y) (ydDot.y - c.gain * ((y t).y - yd.y)) t := by
  intro y
  have hy : y = fun τ => inFrame ⟨X τ, Y τ⟩ (Θ τ) c.personDistance := rfl
  have hu' : u = (c.setFeedback t ⟨X t, Y t⟩ (Θ t)).controlLaw yd ydDot := by
    simp only [doUnicycleControl, getDesiredPointInFreeSpaceEllipse, getDesiredPoint, setFeedback,
      bind, Out.bind] at hu
    rw [show desiredPoint c.traj t = _ from href] at hu
    simp only [referenceInEllipse, hin, hout, Bool.false_and, Bool.false_eq_true, if_false, blending,
      mul_zero, Out.ok.injEq] at hu
    rw [← hu]
    congr 1
    ext <;> simp
  have hlat : u.lateral = 0 := by rw [hu']; rfl
  have hvu : v = u := by
    simp only [BaseCtrl.doControl, Option.map_some, Option.some.injEq] at hv
    have hw : BaseCtrl.saturateSym u.angular c.base.maxAngular = u.angular :=
      BaseCtrl.C08_identity _ _ _ (abs_le.mp hang).1 (abs_le.mp hang).2
    rw [hw] at hv
    rw [← hv]
    ext
    · exact BaseCtrl.C08_identity _ _ _ hbwd hfwd
    · rfl
    · simp only [BaseCtrl.saturateSym, BaseCtrl.saturate, hlat]
      split_ifs with h1 h2 h3
      · rfl
      · exact absurd h2 (fun h => h1 (Or.inl h))
      · push Not at h1; linarith [h1.1]
      · rfl
  rw [hvu] at hX hY hΘ
  have hsc := Real.sin_sq_add_cos_sq (Θ t)
  have hc := (Real.hasDerivAt_cos (Θ t)).comp t hΘ
  have hs := (Real.hasDerivAt_sin (Θ t)).comp t hΘ
  constructor
  · have h1 := (hX.add (hc.mul_const c.personDistance.x)).sub (hs.mul_const c.personDistance.y)
    refine h1.congr_deriv ?_
    rw [hu', hy]
    simp [dynamics, controlLaw, setFeedback, getPersonPosition, inFrame, rot]
    field_simp
    generalize Real.sin (Θ t) = s at *
    generalize Real.cos (Θ t) = k at *
    linear_combination (c.personDistance.x * (ydDot.x - c.gain *
      (X t + (k * c.personDistance.x - s * c.personDistance.y) - yd.x))) * hsc
  · have h1 := (hY.add (hs.mul_const c.personDistance.x)).add (hc.mul_const c.personDistance.y)
    refine h1.congr_deriv ?_
    rw [hu', hy]
    simp [dynamics, controlLaw, setFeedback, getPersonPosition, inFrame, rot]
    field_simp
    generalize Real.sin (Θ t) = s at *
    generalize Real.cos (Θ t) = k at *
    linear_combination (c.personDistance.x * (ydDot.y - c.gain *
      (Y t + (s * c.personDistance.x + k * c.personDistance.y) - yd.y))) * hsc

/-- The x offset of the followed point is never zero after any sequence of calls. -/
theorem C14_offset_nonzero (xs : List (ℝ × ℝ)) :
    (xs.foldl (fun c p => (setPersonDistance c p.1 p.2).2) (new : PersonCtrl ℝ)).personDistance.x ≠ 0 := by
  have h0 : (new : PersonCtrl ℝ).personDistance.x ≠ 0 := by norm_num [new]
  generalize (new : PersonCtrl ℝ) = c at h0
  induction xs generalizing c with
  | nil => exact h0
  | cons p ps ih =>
    refine ih _ ?_
    simp only [setPersonDistance]
    split_ifs with h
    · exact h0
    · exact h

/-- Non-vacuity of C14: a new controller at the origin, whose reference is the origin. -/
example : (new : PersonCtrl ℝ).inner.isSet = false ∧ (new : PersonCtrl ℝ).outer.isSet = false ∧
    (new : PersonCtrl ℝ).getDesiredPoint 1 = .ok (0, 0) ∧
    ∃ u, ((new : PersonCtrl ℝ).setFeedback 1 0 0).doUnicycleControl 0 = .ok u ∧ u.forward = -2 := by
  have h : (new : PersonCtrl ℝ).getDesiredPoint 1 = .ok (0, 0) := by
    simp [getDesiredPoint, new, desiredPoint, findRev]
    norm_num
  refine ⟨rfl, rfl, h, ?_⟩
  refine ⟨_, by
    simp only [doUnicycleControl, getDesiredPointInFreeSpaceEllipse, bind, Out.bind]
    rw [show getDesiredPoint (setFeedback (new : PersonCtrl ℝ) 1 0 0) (setFeedback (new : PersonCtrl ℝ) 1 0 0).time
      = _ from h], ?_⟩
  simp [controlLaw, setFeedback, getPersonPosition, referenceInEllipse, new, Ellipse.clear, rot, blending]
  norm_num

/-! ## C15 -/

/-- C15: consider any history of ellipse/offset/factor setters (accepted or refused) on a new
controller, all ellipses being defined through axes, angle and centre, the last `setFreeSpaceEllipse`
call being for the ellipse of semi-axes `a`, `b`, angle `θ₀` and centre `(cx, cy)`.  The reference
tracked at any time and pose is inside that ellipse, whatever the uninitialised matrix entry. -/
theorem C15_reference_inside (before after : List (EOp ℝ)) (e₀ e : Ellipse ℝ) (a b θ₀ cx cy : ℝ)
    (he : e₀.setEllipse a b θ₀ cx cy = (true, e))
    (hbefore : FromAxesOps before) (hafter : ∀ e', EOp.setFreeSpaceEllipse e' ∉ after)
    (traj : List (TrajPoint ℝ)) (garbage t : ℝ) (p : Vec2 ℝ) (θ : ℝ) (y yDot : Vec2 ℝ) :
    let c := { runAllE new (before ++ EOp.setFreeSpaceEllipse e :: after) with traj := traj }
    c.getDesiredPointInFreeSpaceEllipse garbage t p θ = .ok (y, yDot) →
    InEllipse a b θ₀ ⟨cx, cy⟩ y := by
  intro c hc
  obtain ⟨ha, hb, -, -, hee⟩ := Ellipse.setEllipse_eq_true he
  have hfrom : FromAxesOps (before ++ EOp.setFreeSpaceEllipse e :: after) := by
    intro e' h'
    rcases List.mem_append.mp h' with h | h
    · exact hbefore e' h
    · rcases List.mem_cons.mp h with h | h
      · cases h; exact Or.inr ⟨_, _, _, _, _, _, he⟩
      · exact absurd h (hafter e')
  have hinv := EInv.runAll _ hfrom EInv.new
  have houter : (runAllE new (before ++ EOp.setFreeSpaceEllipse e :: after)).outer =
      axesEllipse a b θ₀ ⟨cx, cy⟩ := by
    have key : ∀ (l : List (EOp ℝ)) (d : PersonCtrl ℝ), (∀ e', EOp.setFreeSpaceEllipse e' ∉ l) →
        (runAllE d l).outer = d.outer := by
      intro l
      induction l with
      | nil => intros; rfl
      | cons o os ih =>
        intro d h
        show (runAllE (d.runE o).2 os).outer = _
        rw [ih _ (fun e' he' => h e' (List.mem_cons_of_mem _ he'))]
        cases o with
        | setFreeSpaceEllipse e' => exact absurd (by simp) (h e')
        | setConservativeFactor f => simp only [runE, setConservativeFactor]; split_ifs <;> rfl
        | setInnerOffsets oa ob =>
          simp only [runE, setInnerOffsets]
          split_ifs
          · rfl
          · rfl
          · rw [setFreeSpaceEllipse_outer]
    have : runAllE new (before ++ EOp.setFreeSpaceEllipse e :: after) =
        runAllE ((runAllE new before).setFreeSpaceEllipse e).2 after := by
      simp [runAllE, runE]
    rw [this, key _ _ hafter, setFreeSpaceEllipse_outer, hee]
    rfl
  have hinv' : EInv c := ⟨hinv.cons, hinv.offA, hinv.offB, hinv.outer, hinv.inner⟩
  simp only [getDesiredPointInFreeSpaceEllipse, bind, Out.bind] at hc
  cases hd : c.getDesiredPoint t with
  | ok r =>
    rw [hd] at hc
    simp only [Out.ok.injEq, Prod.mk.injEq] at hc
    rw [← hc.1]
    exact hinv'.reference ha hb houter garbage p θ r.1 (fun e he p q => Ellipse.C17_inside e he p q)
  | fail => rw [hd] at hc; simp at hc
  | ub w => rw [hd] at hc; simp at hc

/-- Without any ellipse the raw reference is tracked. -/
theorem C15_no_ellipse (c : PersonCtrl ℝ) (hin : c.inner.isSet = false) (hout : c.outer.isSet = false)
    (garbage : ℝ) (p : Vec2 ℝ) (θ : ℝ) (y : Vec2 ℝ) : c.referenceInEllipse garbage p θ y = y := by
  simp only [referenceInEllipse, hin, hout, Bool.false_and, Bool.false_eq_true, if_false]
  ext <;> simp <;> ring

/-- Non-vacuity of C15: an ellipse accepted by `setEllipse`, so that histories as above exist. -/
example : ∃ e, (Ellipse.clear : Ellipse ℝ).setEllipse 2 1 0 0 0 = (true, e) ∧
    FromAxesOps [EOp.setInnerOffsets 1 0, EOp.setFreeSpaceEllipse e, EOp.setInnerOffsets 5 0] := by
  have h : ((Ellipse.clear : Ellipse ℝ).setEllipse 2 1 0 0 0).1 = true :=
    (Ellipse.C16_set_and_default _ 2 1 0 0 0 0).2.1 (by norm_num) (by norm_num)
  have h' : (Ellipse.clear : Ellipse ℝ).setEllipse 2 1 0 0 0 =
    (true, ((Ellipse.clear : Ellipse ℝ).setEllipse 2 1 0 0 0).2) := by rw [← h]
  refine ⟨_, h', ?_⟩
  intro e he
  simp only [List.mem_cons, EOp.setFreeSpaceEllipse.injEq, reduceCtorEq, List.not_mem_nil, or_false,
    false_or] at he
  exact Or.inr ⟨_, 2, 1, 0, 0, 0, by rw [he]; exact h'⟩

end Uni.PersonCtrl
