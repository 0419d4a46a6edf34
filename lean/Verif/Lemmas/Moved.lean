import Verif.Spec.Moved
import Verif.Lemmas.Plane

/-! # Displacements of points, steps, footprints -/

set_option autoImplicit false
set_option linter.unusedSectionVars false

namespace Uni

namespace Out
/-- Apply a function to the value. -/
def map {α β : Type} (f : α → β) : Out α → Out β
  | ok a => ok (f a)
  | fail => fail
  | ub w => ub w

variable {α β γ δ : Type}
@[simp] theorem map_ok (f : α → β) (a : α) : map f (ok a) = ok (f a) := rfl
@[simp] theorem map_fail (f : α → β) : map f (fail : Out α) = fail := rfl
@[simp] theorem map_ub (f : α → β) (w : UB) : map f (ub w : Out α) = ub w := rfl

theorem map_bind (f : β → γ) (x : Out α) (k : α → Out β) : map f (x >>= k) = x >>= fun a => map f (k a) := by
  cases x <;> rfl

theorem bind_map (f : α → β) (x : Out α) (k : β → Out γ) : (map f x >>= k) = x >>= fun a => k (f a) := by
  cases x <;> rfl

theorem bind_congr {x : Out α} {k k' : α → Out β} (h : ∀ a, k a = k' a) : (x >>= k) = x >>= k' := by
  cases x <;> simp [h]
end Out

theorem rot_add (a b : ℝ) (v : Vec2 ℝ) : rot (a + b) v = rot b (rot a v) := by
  ext <;> simp only [rot, cos_real, sin_real, Real.cos_add, Real.sin_add] <;> ring

theorem rotT_add_rot (a b : ℝ) (v : Vec2 ℝ) : rotT (a + b) (rot b v) = rotT a v := by
  have := Real.sin_sq_add_cos_sq b
  ext <;> simp only [rot, rotT, cos_real, sin_real, Real.cos_add, Real.sin_add]
  · linear_combination (Real.cos a * v.x + Real.sin a * v.y) * this
  · linear_combination (-(Real.sin a * v.x) + Real.cos a * v.y) * this

namespace Spec.Move
variable (g : Move)

theorem vector_eq (v : Vec2 ℝ) : g.vector v = rot g.turn v := rfl
theorem point_eq (p : Vec2 ℝ) : g.point p = rot g.turn p + g.shift := rfl

theorem point_x (p : Vec2 ℝ) : (g.point p).x = Real.cos g.turn * p.x - Real.sin g.turn * p.y + g.shift.x := rfl
theorem point_y (p : Vec2 ℝ) : (g.point p).y = Real.sin g.turn * p.x + Real.cos g.turn * p.y + g.shift.y := rfl
theorem vector_x (p : Vec2 ℝ) : (g.vector p).x = Real.cos g.turn * p.x - Real.sin g.turn * p.y := rfl
theorem vector_y (p : Vec2 ℝ) : (g.vector p).y = Real.sin g.turn * p.x + Real.cos g.turn * p.y := rfl

@[simp] theorem vector_zero : g.vector 0 = 0 := by ext <;> simp [vector]

theorem point_add (p v : Vec2 ℝ) : g.point (p + v) = g.point p + g.vector v := by
  ext <;> simp [point, vector] <;> ring

theorem point_sub (p q : Vec2 ℝ) : g.point p - g.point q = g.vector (p - q) := by
  ext <;> simp [point, vector] <;> ring

theorem point_sub_vector (p v : Vec2 ℝ) : g.point p - g.vector v = g.point (p - v) := by
  ext <;> simp [point, vector] <;> ring

theorem vector_rot (a : ℝ) (v : Vec2 ℝ) : rot (a + g.turn) v = g.vector (rot a v) := rot_add a g.turn v

theorem rotT_vector (a : ℝ) (v : Vec2 ℝ) : rotT (a + g.turn) (g.vector v) = rotT a v := rotT_add_rot a g.turn v

theorem normSq_vector (v : Vec2 ℝ) : (g.vector v).normSq = v.normSq := normSq_rot g.turn v

theorem norm_vector (v : Vec2 ℝ) : (g.vector v).norm = v.norm := by
  simp only [Vec2.norm, normSq_vector]

theorem in_frame (p : Vec2 ℝ) (a : ℝ) (v : Vec2 ℝ) : g.point p + rot (a + g.turn) v = g.point (p + rot a v) := by
  rw [vector_rot, ← point_add]

theorem combination (k : ℝ) (p q : Vec2 ℝ) : k * g.point p + (1 - k) * g.point q = g.point (k * p + (1 - k) * q) := by
  ext <;> simp [point] <;> ring

/-! ## Footprints -/

@[simp] theorem step_angle (s : Step ℝ) : (g.step s).angle = s.angle + g.turn := rfl
@[simp] theorem step_position (s : Step ℝ) : (g.step s).position = g.point s.position := rfl
@[simp] theorem step_impactTime (s : Step ℝ) : (g.step s).impactTime = s.impactTime + g.delay := rfl
@[simp] theorem step_footName (s : Step ℝ) : (g.step s).footName = s.footName := rfl
@[simp] theorem footPrint_steps (f : FootPrint ℝ) : (g.footPrint f).steps = f.steps.map g.step := rfl
@[simp] theorem footPrint_footName (f : FootPrint ℝ) : (g.footPrint f).footName = f.footName := rfl
@[simp] theorem pose_angle (u : UState ℝ) : (g.pose u).angle = u.angle + g.turn := rfl
@[simp] theorem pose_position (u : UState ℝ) : (g.pose u).position = g.point u.position := rfl
@[simp] theorem ptr_left (q : Ptr ℝ) : (g.ptr q).left = q.left := rfl
@[simp] theorem ptr_index (q : Ptr ℝ) : (g.ptr q).index = q.index := rfl
@[simp] theorem ptr_step (q : Ptr ℝ) : (g.ptr q).step = g.step q.step := rfl

theorem numberOfSteps (f : FootPrint ℝ) : (g.footPrint f).numberOfSteps = f.numberOfSteps := by
  simp [FootPrint.numberOfSteps]

theorem getLastStep (f : FootPrint ℝ) : (g.footPrint f).getLastStep = f.getLastStep.map g.step := by
  simp [FootPrint.getLastStep, List.getLast?_map]

theorem clearSteps (f : FootPrint ℝ) : (g.footPrint f).clearSteps = g.footPrint f.clearSteps := by
  simp [FootPrint.clearSteps, footPrint]

theorem clearLastStep (f : FootPrint ℝ) : (g.footPrint f).clearLastStep = g.footPrint f.clearLastStep := by
  unfold FootPrint.clearLastStep
  rw [numberOfSteps]
  split <;> simp [footPrint, List.map_dropLast]

/-- Landing times that are not negative are not negative later. -/
theorem addStepRaw (hd : 0 ≤ g.delay) (f : FootPrint ℝ) (p : Vec2 ℝ) (a t : ℝ) (ht : 0 ≤ t) :
    (g.footPrint f).addStepRaw (g.point p) (a + g.turn) (t + g.delay) =
      ((f.addStepRaw p a t).1, g.footPrint (f.addStepRaw p a t).2) := by
  unfold FootPrint.addStepRaw
  rw [if_neg (by linarith), if_neg (by linarith)]
  simp [footPrint, step]

theorem addStep (hd : 0 ≤ g.delay) (f : FootPrint ℝ) (s : Step ℝ) (ht : 0 ≤ s.impactTime) :
    (g.footPrint f).addStep (g.step s) = ((f.addStep s).1, g.footPrint (f.addStep s).2) :=
  g.addStepRaw hd f s.position s.angle s.impactTime ht

/-- The steps landed at times that are not negative. -/
def _root_.Uni.FootPrint.Timed (f : FootPrint ℝ) : Prop := ∀ s ∈ f.steps, 0 ≤ s.impactTime

theorem find_present (t : ℝ) (l : List (Step ℝ)) :
    (l.map g.step).find? (fun a => decide (a.impactTime ≤ t + g.delay)) =
      (l.find? fun a => decide (a.impactTime ≤ t)).map g.step := by
  induction l with
  | nil => rfl
  | cons a l ih => by_cases h : a.impactTime ≤ t <;> simp [List.find?_cons, h, ih]

theorem keepOnlyPresentStep (hd : 0 ≤ g.delay) (f : FootPrint ℝ) (ht : f.Timed) (t : ℝ) :
    (g.footPrint f).keepOnlyPresentStep (t + g.delay) =
      ((f.keepOnlyPresentStep t).1, g.footPrint (f.keepOnlyPresentStep t).2) := by
  unfold FootPrint.keepOnlyPresentStep
  rw [footPrint_steps, ← List.map_reverse, find_present]
  cases h : f.steps.reverse.find? fun a => decide (a.impactTime ≤ t) with
  | none => rfl
  | some s =>
    have hm : s ∈ f.steps := List.mem_reverse.mp (List.mem_of_find?_eq_some h)
    simp only [Option.map_some]
    rw [clearSteps, g.addStep hd _ _ (ht s hm)]

theorem timed_addStep {f : FootPrint ℝ} (h : f.Timed) (s : Step ℝ) : (f.addStep s).2.Timed := by
  unfold FootPrint.addStep FootPrint.addStepRaw
  split
  · exact h
  · intro x hx
    rcases List.mem_append.mp hx with hx | hx
    · exact h x hx
    · rw [List.mem_singleton] at hx; subst hx; show (0 : ℝ) ≤ s.impactTime; linarith

theorem timed_clearSteps (f : FootPrint ℝ) : f.clearSteps.Timed := by intro x hx; simp [FootPrint.clearSteps] at hx

theorem timed_clearLastStep {f : FootPrint ℝ} (h : f.Timed) : f.clearLastStep.Timed := by
  unfold FootPrint.clearLastStep
  split
  · intro x hx; exact h x (List.dropLast_subset _ hx)
  · exact h

theorem timed_keep {f : FootPrint ℝ} (h : f.Timed) (t : ℝ) : (f.keepOnlyPresentStep t).2.Timed := by
  unfold FootPrint.keepOnlyPresentStep
  split
  · exact h
  · exact timed_addStep (timed_clearSteps f) _

/-! ## The foot of the planner -/

/-- A foot with its steps displaced. -/
noncomputable def ufoot (f : Foot ℝ) : Foot ℝ := { f with fp := g.footPrint f.fp }

@[simp] theorem ufoot_fp (f : Foot ℝ) : (g.ufoot f).fp = g.footPrint f.fp := rfl

theorem ufoot_new (f : FootPrint ℝ) : Foot.new (g.footPrint f) = g.ufoot (Foot.new f) := rfl

theorem ufoot_last (f : Foot ℝ) : (g.ufoot f).getLastStep = f.getLastStep.map g.step := g.getLastStep f.fp

theorem ufoot_number (f : Foot ℝ) : (g.ufoot f).fp.numberOfSteps = f.fp.numberOfSteps := g.numberOfSteps f.fp

theorem ufoot_position (f : Foot ℝ) (u : UState ℝ) : (g.ufoot f).footPosition (g.pose u) = g.point (f.footPosition u) :=
  g.in_frame u.position u.angle f.distance

theorem ufoot_from (f : Foot ℝ) (u : UState ℝ) :
    (g.ufoot f).getFootPositionFromUnicycle (g.pose u) = (f.getFootPositionFromUnicycle u).map g.point := by
  unfold Foot.getFootPositionFromUnicycle
  rw [ufoot_position]
  show (if f.distanceSet = true then _ else _) = _
  split <;> rfl

theorem ufoot_angle (f : Foot ℝ) (s : Step ℝ) : (g.ufoot f).unicycleAngle (g.step s) = f.unicycleAngle s + g.turn := by
  simp only [Foot.unicycleAngle, step_angle, ufoot]; ring

theorem ufoot_state (f : Foot ℝ) (s : Step ℝ) :
    (g.ufoot f).getUnicycleStateFromStep (g.step s) = (f.getUnicycleStateFromStep s).map g.pose := by
  unfold Foot.getUnicycleStateFromStep
  rw [ufoot_angle]
  show (if f.distanceSet = true then _ else _) = _
  split
  · simp only [Option.map_some, pose, step_position]
    show some (UState.mk (g.point s.position - rot (f.unicycleAngle s + g.turn) f.distance) _) = _
    rw [vector_rot, point_sub_vector]
  · rfl

theorem ufoot_addStep (hd : 0 ≤ g.delay) (f : Foot ℝ) (u : UState ℝ) (t : ℝ) (ht : 0 ≤ t) :
    (g.ufoot f).addStepFromUnicycle (g.pose u) (t + g.delay) =
      ((f.addStepFromUnicycle u t).1, g.ufoot (f.addStepFromUnicycle u t).2) := by
  unfold Foot.addStepFromUnicycle
  rw [ufoot_position]
  show (if (!f.distanceSet) = true then _ else _) = _
  split
  · rfl
  · have := g.addStepRaw hd f.fp (f.footPosition u) (u.angle + f.yawOffset) t ht
    simp only [FootPrint.addStep]
    show ((((g.footPrint f.fp).addStepRaw (g.point (f.footPosition u)) (u.angle + g.turn + f.yawOffset) (t + g.delay)).1,
      { g.ufoot f with fp := ((g.footPrint f.fp).addStepRaw (g.point (f.footPosition u)) (u.angle + g.turn + f.yawOffset)
        (t + g.delay)).2 }) : Bool × Foot ℝ) = _
    rw [show u.angle + g.turn + f.yawOffset = u.angle + f.yawOffset + g.turn by ring, this]
    rfl

theorem ufoot_addParallel (hd : 0 ≤ g.delay) (f other : Foot ℝ) (t : ℝ) (ht : 0 ≤ t) :
    (g.ufoot f).addParallelStep (g.ufoot other) (t + g.delay) =
      ((f.addParallelStep other t).1, g.ufoot (f.addParallelStep other t).2) := by
  unfold Foot.addParallelStep
  rw [if_neg (by linarith), if_neg (by linarith), ufoot_last]
  cases h : other.getLastStep with
  | none => rfl
  | some s =>
    simp only [Option.map_some]
    rw [ufoot_angle]
    have := g.addStepRaw hd f.fp (s.position + rot (other.unicycleAngle s) (f.distance - other.distance))
      (other.unicycleAngle s + f.yawOffset) t ht
    simp only [FootPrint.addStep]
    show ((((g.footPrint f.fp).addStepRaw
      (g.point s.position + rot (other.unicycleAngle s + g.turn) (f.distance - other.distance))
      (other.unicycleAngle s + g.turn + f.yawOffset) (t + g.delay)).1,
      { g.ufoot f with fp := ((g.footPrint f.fp).addStepRaw
        (g.point s.position + rot (other.unicycleAngle s + g.turn) (f.distance - other.distance))
        (other.unicycleAngle s + g.turn + f.yawOffset) (t + g.delay)).2 }) : Bool × Foot ℝ) = _
    rw [in_frame, show other.unicycleAngle s + g.turn + f.yawOffset = other.unicycleAngle s + f.yawOffset + g.turn by ring,
      this]
    rfl

theorem ufoot_tiny (f : Foot ℝ) (u : UState ℝ) : (g.ufoot f).isTinyStep (g.pose u) = f.isTinyStep u := by
  unfold Foot.isTinyStep
  rw [ufoot_last, ufoot_position]
  cases f.getLastStep with
  | none => rfl
  | some s =>
    simp only [Option.map_some]
    rw [ufoot_angle, step_position, point_sub, norm_vector, pose_angle,
      show f.unicycleAngle s + g.turn - (u.angle + g.turn) = f.unicycleAngle s - u.angle by ring]
    rfl

end Spec.Move
end Uni
