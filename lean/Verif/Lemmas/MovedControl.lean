import Verif.Lemmas.MovedReplan
import Verif.Model.Integrate

/-! # Displacements: the control laws and the integration -/

set_option autoImplicit false
set_option linter.unusedSectionVars false

namespace Uni.Spec.Move
variable (g : Move)

/-! ## Ellipses -/

theorem mulVec_ellipse {e : Ellipse ℝ} (he : e.isSet = true) (v : Vec2 ℝ) :
    (g.ellipse e).C.mulVec v = g.vector (e.C.mulVec v) := by
  unfold ellipse
  rw [if_pos he]
  ext <;> simp only [Mat2.mulVec, vector] <;> ring

theorem image_ellipse {e : Ellipse ℝ} (he : e.isSet = true) (v : Vec2 ℝ) : (g.ellipse e).image v = g.point (e.image v) := by
  unfold Ellipse.image
  rw [g.mulVec_ellipse he]
  unfold ellipse
  rw [if_pos he]
  ext <;> simp [point, vector] <;> ring

theorem intersections (e : Ellipse ℝ) (p q : Vec2 ℝ) :
    (g.ellipse e).getIntersectionsWithLine (g.point p) (g.point q) =
      (e.getIntersectionsWithLine p q).map fun i => (g.point i.1, g.point i.2) := by
  unfold Ellipse.getIntersectionsWithLine
  rw [ellipse_isSet]
  cases he : e.isSet
  · rfl
  · simp only [Bool.not_true, Bool.false_eq_true, if_false, Option.map_map, g.generators he]
    cases Ellipse.circleLine (e.computeGenerators p) (e.computeGenerators q) with
    | none => rfl
    | some i => simp only [Option.map_some, Function.comp_apply, g.image_ellipse he]

theorem closest (e : Ellipse ℝ) (p q : Vec2 ℝ) :
    (g.ellipse e).getClosestIntersectionsWithLine (g.point p) (g.point q) =
      (e.getClosestIntersectionsWithLine p q).map g.point := by
  unfold Ellipse.getClosestIntersectionsWithLine
  rw [intersections]
  cases e.getIntersectionsWithLine p q with
  | none => rfl
  | some i =>
    simp only [Option.map_some, point_sub, norm_vector]
    split_ifs <;> rfl

theorem projection (e : Ellipse ℝ) (p q : Vec2 ℝ) :
    (g.ellipse e).projectPointInsideEllipse (g.point p) (g.point q) = g.point (e.projectPointInsideEllipse p q) := by
  unfold Ellipse.projectPointInsideEllipse
  rw [ellipse_isSet, closest]
  cases he : e.isSet
  · rfl
  · simp only [Bool.not_true, Bool.false_eq_true, if_false, g.generators he]
    split_ifs
    · rfl
    · cases e.getClosestIntersectionsWithLine q p with
      | none => exact g.image_ellipse he _
      | some i => rfl

theorem dot_vector (v w : Vec2 ℝ) : (g.vector v).dot (g.vector w) = v.dot w := by
  have h := Real.sin_sq_add_cos_sq g.turn
  simp only [Vec2.dot, vector]
  linear_combination (v.x * w.x + v.y * w.y) * h

theorem tangent {e : Ellipse ℝ} (he : e.isSet = true) (garbage : ℝ) (p : Vec2 ℝ) :
    (g.ellipse e).getTangentVector garbage (g.point p) = g.vector (e.getTangentVector garbage p) := by
  unfold Ellipse.getTangentVector
  rw [g.generators he]
  simp only [g.mulVec_ellipse he, norm_vector]
  split_ifs
  · ext <;> simp only [vector] <;> ring
  · simp

/-! ## The reference of the person-following controller -/

theorem findRev_moved (t : ℝ) (l : List (TrajPoint ℝ)) : ∀ n : Option (TrajPoint ℝ),
    PersonCtrl.findRev (t + g.delay) (n.map g.desired) (l.map g.desired) =
      (PersonCtrl.findRev t n l).map fun r => (g.desired r.1, r.2.map g.desired) := by
  induction l with
  | nil => intro n; rfl
  | cons p l ih =>
    intro n
    simp only [List.map_cons, PersonCtrl.findRev]
    have : (g.desired p).initTime = p.initTime + g.delay := rfl
    rw [this]
    simp only [add_le_add_iff_right]
    split_ifs
    · rfl
    · exact ih (some p)

theorem interpolate_moved (t : ℝ) (p q : TrajPoint ℝ) :
    PersonCtrl.interpolateReferences (t + g.delay) (g.desired p) (g.desired q) =
      Out.map (fun r => (g.point r.1, g.vector r.2)) (PersonCtrl.interpolateReferences t p q) := by
  unfold PersonCtrl.interpolateReferences
  simp only [desired, add_sub_add_right_eq_sub]
  split_ifs
  · rfl
  · simp only [Out.map, combination]
    congr 2
    ext <;> simp [vector] <;> ring

theorem desiredPoint (hd : 0 ≤ g.delay) (l : List (TrajPoint ℝ)) (t : ℝ) (ht : 0 ≤ t) :
    PersonCtrl.desiredPoint (l.map g.desired) (t + g.delay) =
      Out.map (fun r => (g.point r.1, g.vector r.2)) (PersonCtrl.desiredPoint l t) := by
  unfold PersonCtrl.desiredPoint
  rw [if_neg (by linarith), if_neg (by linarith)]
  cases l with
  | nil => rfl
  | cons p l =>
    have e : (g.desired p).initTime = p.initTime + g.delay := rfl
    simp only [List.map_cons, e, add_lt_add_iff_right]
    split_ifs
    · rfl
    · have := g.findRev_moved t (p :: l).reverse none
      rw [List.map_reverse, List.map_cons, Option.map_none] at this
      rw [this]
      rcases PersonCtrl.findRev t none (p :: l).reverse with _ | ⟨a, _ | b⟩
      · rfl
      · rfl
      · exact g.interpolate_moved t a b

variable {g}

theorem getPersonPosition_moved {person : Bool} {c c' : Controllers ℝ} (h : CtrlMoved g person c c') (u : UState ℝ) :
    c'.person.getPersonPosition (g.pose u).position (g.pose u).angle =
      g.point (c.person.getPersonPosition u.position u.angle) := by
  unfold PersonCtrl.getPersonPosition
  rw [h.distance]
  exact g.in_frame _ _ _

theorem blending_moved {person : Bool} {c c' : Controllers ℝ} (h : CtrlMoved g person c c') (garbage : ℝ) (u : UState ℝ)
    (y : Vec2 ℝ) :
    c'.person.blending garbage (g.pose u).position (g.pose u).angle (g.point y) =
      c.person.blending garbage u.position u.angle y := by
  unfold PersonCtrl.blending
  simp only [getPersonPosition_moved h, h.inner, h.outer, ellipse_isSet]
  by_cases hi : c.person.inner.isSet = true
  · rw [if_pos hi, if_pos hi]
    have hp : (g.pose u).position = g.point u.position := rfl
    rw [hp, closest]
    cases hx : c.person.outer.getClosestIntersectionsWithLine u.position (c.person.getPersonPosition u.position u.angle) with
    | none => rfl
    | some i =>
      have he : c.person.outer.isSet = true := by
        unfold Ellipse.getClosestIntersectionsWithLine Ellipse.getIntersectionsWithLine at hx
        by_contra hn
        rw [Bool.not_eq_true] at hn
        simp [hn] at hx
      simp only [Option.map_some, g.tangent he, point_sub, norm_vector, dot_vector]
  · rw [if_neg hi, if_neg hi]

theorem reference_moved {person : Bool} {c c' : Controllers ℝ} (h : CtrlMoved g person c c') (garbage : ℝ) (u : UState ℝ)
    (y : Vec2 ℝ) :
    c'.person.referenceInEllipse garbage (g.pose u).position (g.pose u).angle (g.point y) =
      g.point (c.person.referenceInEllipse garbage u.position u.angle y) := by
  unfold PersonCtrl.referenceInEllipse
  have hp : (g.pose u).position = g.point u.position := rfl
  rw [blending_moved h, h.inner, h.outer, isPointInside, h.conservative, ellipse_isSet, ellipse_isSet, hp, projection, projection]
  by_cases h1 : (c.person.inner.isSet && c.person.inner.isPointInside y) = true
  · simp only [h1, if_true]
  · simp only [h1]
    have k1 : (if c.person.outer.isSet = true then g.point (c.person.outer.projectPointInsideEllipse y u.position) else g.point y) =
        g.point (if c.person.outer.isSet = true then c.person.outer.projectPointInsideEllipse y u.position else y) := by
      split_ifs <;> rfl
    have k2 : ∀ z, (if c.person.inner.isSet = true then g.point (c.person.inner.projectPointInsideEllipse y u.position)
        else g.point z) = g.point (if c.person.inner.isSet = true then c.person.inner.projectPointInsideEllipse y u.position
          else z) := by
      intro z; split_ifs <;> rfl
    rw [k1, k2]
    exact g.combination _ _ _

/-- The person-following controller computes the same command. -/
theorem person_moved (hd : 0 ≤ g.delay) {c c' : Controllers ℝ} (h : CtrlMoved g true c c') (garbage t : ℝ) (ht : 0 ≤ t)
    (u : UState ℝ) :
    (c'.person.setFeedback (t + g.delay) (g.pose u).position (g.pose u).angle).doUnicycleControl garbage =
      (c.person.setFeedback t u.position u.angle).doUnicycleControl garbage := by
  unfold PersonCtrl.doUnicycleControl PersonCtrl.getDesiredPointInFreeSpaceEllipse PersonCtrl.getDesiredPoint
  have e1 : (c'.person.setFeedback (t + g.delay) (g.pose u).position (g.pose u).angle).traj = c.person.traj.map g.desired :=
    h.traj rfl
  have e2 : (c.person.setFeedback t u.position u.angle).traj = c.person.traj := rfl
  have e3 : (c'.person.setFeedback (t + g.delay) (g.pose u).position (g.pose u).angle).time = t + g.delay := rfl
  have e4 : (c.person.setFeedback t u.position u.angle).time = t := rfl
  rw [e1, e2, e3, e4, g.desiredPoint hd _ _ ht]
  rcases PersonCtrl.desiredPoint c.person.traj t with ⟨y, yDot⟩ | _ | w
  · simp only [Out.map]
    show Out.ok _ = Out.ok _
    congr 1
    have r1 : (c'.person.setFeedback (t + g.delay) (g.pose u).position (g.pose u).angle).referenceInEllipse garbage
        (g.pose u).position (g.pose u).angle (g.point y) = g.point (c.person.referenceInEllipse garbage u.position u.angle y) :=
      reference_moved h garbage u y
    have r2 : (c.person.setFeedback t u.position u.angle).referenceInEllipse garbage u.position u.angle y =
      c.person.referenceInEllipse garbage u.position u.angle y := rfl
    have a1 : (c'.person.setFeedback (t + g.delay) (g.pose u).position (g.pose u).angle).unicyclePosition =
      (g.pose u).position := rfl
    have a2 : (c'.person.setFeedback (t + g.delay) (g.pose u).position (g.pose u).angle).theta = (g.pose u).angle := rfl
    have a3 : (c.person.setFeedback t u.position u.angle).unicyclePosition = u.position := rfl
    have a4 : (c.person.setFeedback t u.position u.angle).theta = u.angle := rfl
    rw [a1, a2, a3, a4, r1, r2]
    generalize c.person.referenceInEllipse garbage u.position u.angle y = z
    unfold PersonCtrl.controlLaw
    have b1 : (c'.person.setFeedback (t + g.delay) (g.pose u).position (g.pose u).angle).y =
      g.point (c.person.getPersonPosition u.position u.angle) := getPersonPosition_moved h u
    have b2 : (c.person.setFeedback t u.position u.angle).y = c.person.getPersonPosition u.position u.angle := rfl
    have b3 : (c'.person.setFeedback (t + g.delay) (g.pose u).position (g.pose u).angle).personDistance =
      c.person.personDistance := h.distance
    have b4 : (c.person.setFeedback t u.position u.angle).personDistance = c.person.personDistance := rfl
    have b5 : (c'.person.setFeedback (t + g.delay) (g.pose u).position (g.pose u).angle).gain = c.person.gain := h.gain
    have b6 : (c.person.setFeedback t u.position u.angle).gain = c.person.gain := rfl
    simp only [a2, a4, b1, b2, b3, b4, b5, b6]
    simp only [pose_angle, cos_real, sin_real, Real.cos_add, Real.sin_add]
    have k : g.vector yDot - c.person.gain * (g.point (c.person.getPersonPosition u.position u.angle) - g.point z) =
        g.vector (yDot - c.person.gain * (c.person.getPersonPosition u.position u.angle - z)) := by
      rw [point_sub]
      ext <;> simp [vector] <;> ring
    rw [k]
    generalize yDot - c.person.gain * (c.person.getPersonPosition u.position u.angle - z) = v
    have hsq := Real.sin_sq_add_cos_sq g.turn
    simp only [vector, Control.mk.injEq, and_true]
    constructor
    · linear_combination ((-c.person.personDistance.y / c.person.personDistance.x * Real.sin u.angle + Real.cos u.angle) * v.x +
        (c.person.personDistance.y / c.person.personDistance.x * Real.cos u.angle + Real.sin u.angle) * v.y) * hsq
    · linear_combination (-Real.sin u.angle / c.person.personDistance.x * v.x +
        Real.cos u.angle / c.person.personDistance.x * v.y) * hsq
  · rfl
  · rfl

/-- The direct controller computes the same command. -/
theorem direct_moved {person : Bool} {c c' : Controllers ℝ} (h : CtrlMoved g person c c') (t : ℝ) (ht : 0 ≤ t) :
    c'.direct.control c'.directBase (t + g.delay) = c.direct.control c.directBase t := by
  unfold DirectCtrl.control DirectCtrl.doUnicycleControl
  rw [h.directBase]
  by_cases ha : t < c.direct.deactivationEnd
  · rw [if_pos (show (c'.direct.setFeedback (t + g.delay)).time < (c'.direct.setFeedback (t + g.delay)).deactivationEnd from (h.directSilent t ht).2 ha),
      if_pos (show (c.direct.setFeedback t).time < (c.direct.setFeedback t).deactivationEnd from ha)]
  · rw [if_neg (show ¬ (c'.direct.setFeedback (t + g.delay)).time < (c'.direct.setFeedback (t + g.delay)).deactivationEnd from fun x => ha ((h.directSilent t ht).1 x)),
      if_neg (show ¬ (c.direct.setFeedback t).time < (c.direct.setFeedback t).deactivationEnd from ha)]
    simp only [DirectCtrl.setFeedback, h.direct]

theorem controlAt_moved (hd : 0 ≤ g.delay) {p p' : Planner ℝ} (h : PlannerMoved g p p') (garbage t : ℝ) (ht : 0 ≤ t)
    (u : UState ℝ) : p'.controlAt garbage (t + g.delay) (g.pose u) = p.controlAt garbage t u := by
  unfold Planner.controlAt
  have hk : p'.controller = p.controller := by rw [h.rest]
  rw [hk]
  cases hx : p.controller with
  | direct => exact direct_moved h.ctrl t ht
  | navigation => rfl
  | personFollowing =>
    have hc : CtrlMoved g true p.ctrl p'.ctrl := by
      have := h.ctrl
      rw [hx] at this
      simpa using this
    simp only
    rw [person_moved hd hc garbage t ht u, hc.base]

/-! ## Integration -/

theorem eulerStep_moved (d : ℝ) (u : UState ℝ) (c : Control ℝ) : eulerStep d (g.pose u) c = g.pose (eulerStep d u c) := by
  ext <;> simp only [eulerStep, dynamics, pose, point, cos_real, sin_real, Real.cos_add, Real.sin_add, Vec2.add_x, Vec2.add_y,
    Vec2.smul_x, Vec2.smul_y] <;> ring

theorem trajectory_moved {f f' : ℝ → UState ℝ → Option (Control ℝ)}
    (hf : ∀ t, 0 ≤ t → ∀ u, f' (t + g.delay) (g.pose u) = f t u) (ds : List ℝ) : ∀ (t : ℝ) (u : UState ℝ), 0 ≤ t →
    (∀ d ∈ ds, 0 ≤ d) →
    Planner.trajectory f' ds (t + g.delay) (g.pose u) = (Planner.trajectory f ds t u).map (List.map g.pose) := by
  induction ds with
  | nil => intro t u _ _; rfl
  | cons d ds ih =>
    intro t u ht hds
    simp only [Planner.trajectory]
    rw [hf t ht u]
    cases f t u with
    | none => rfl
    | some c =>
      simp only [Option.bind_some, eulerStep_moved]
      have h1 := hds d (by simp)
      rw [show t + g.delay + d = t + d + g.delay by ring, ih (t + d) _ (by linarith) fun x hx => hds x (by simp [hx])]
      cases Planner.trajectory f ds (t + d) (eulerStep d u c) <;> rfl

theorem solutionAt_moved (l : List (UState ℝ)) (t₀ h : ℝ) (u : UState ℝ) (t : ℝ) :
    Planner.solutionAt (l.map g.pose) (t₀ + g.delay) h (g.pose u) (t + g.delay) = g.pose (Planner.solutionAt l t₀ h u t) := by
  unfold Planner.solutionAt
  rw [add_sub_add_right_eq_sub, List.length_map]
  simp only [List.getD_eq_getElem?_getD, List.getElem?_map]
  cases l[min (stdRound ((t - t₀) / h)).toNat (l.length - 1)]? <;> rfl

/-- The integrator does not feel where and when it works. -/
theorem euler_moved (hd : 0 ≤ g.delay) (k : ControllerKind) {durations : ℝ → ℝ → List ℝ} (hds : ∀ a b, ∀ d ∈ durations a b, 0 ≤ d)
    (garbage : ℝ) : IntegratorMoved g k (Planner.euler durations garbage) := by
  intro p p' _ h h1 h2 h0 u
  have es : p'.integratorStep = p.integratorStep := by rw [h.rest]
  have e : p'.endTime - p'.initTime = p.endTime - p.initTime := by rw [h1, h2]; ring
  have key := trajectory_moved (g := g) (f := p.controlAt garbage) (f' := p'.controlAt garbage)
    (fun t ht v => controlAt_moved hd h garbage t ht v) (durations (p.endTime - p.initTime) p.integratorStep) p.initTime u h0
    (hds _ _)
  refine ⟨h.ctrl, ?_, ?_⟩
  · intro sol hsol
    simp only [Planner.euler] at hsol ⊢
    rw [e, es, h1, key]
    cases hx : Planner.trajectory (p.controlAt garbage) (durations (p.endTime - p.initTime) p.integratorStep) p.initTime u with
    | none => rw [hx] at hsol; simp at hsol
    | some l =>
      rw [hx] at hsol
      simp only [Option.map_some, Option.some.injEq] at hsol ⊢
      exact ⟨_, rfl, fun t => by rw [← hsol]; exact solutionAt_moved l p.initTime p.integratorStep u t⟩
  · intro hsol
    simp only [Planner.euler] at hsol ⊢
    rw [e, es, h1, key]
    cases hx : Planner.trajectory (p.controlAt garbage) (durations (p.endTime - p.initTime) p.integratorStep) p.initTime u with
    | none => rfl
    | some l => rw [hx] at hsol; simp at hsol

end Uni.Spec.Move
