import Verif.Model.UnicycleFoot
import Verif.Lemmas.Plane
import Mathlib.Tactic.Abel

/-! # C04–C06: properties of `UnicycleFoot` -/

set_option autoImplicit false
set_option linter.unusedSectionVars false

namespace Uni.Foot

/-! ## C04 -/

/-- C04: `addStepFromUnicycle` fails, without change, exactly when the offset was never set or the
time is negative. -/
theorem C04_fails (f : Foot ℝ) (u : UState ℝ) (t : ℝ) :
    ((f.addStepFromUnicycle u t).1 = false ↔ f.distanceSet = false ∨ t < 0) ∧
    ((f.addStepFromUnicycle u t).1 = false → (f.addStepFromUnicycle u t).2 = f) := by
  cases hd : f.distanceSet <;> by_cases ht : t < 0 <;>
    simp [addStepFromUnicycle, FootPrint.addStep, FootPrint.addStepRaw, hd, ht]
  rw [← hd]

/-- C04: the step stored for a unicycle pose is at the foot offset in the unicycle frame, with the
yaw offset added; the unicycle pose computed back from it is the original pose. -/
theorem C04_roundtrip (f : Foot ℝ) (u : UState ℝ) (t : ℝ)
    (h : (f.addStepFromUnicycle u t).1 = true) :
    let f' := (f.addStepFromUnicycle u t).2
    ∃ s, f'.getLastStep = some s ∧ f'.fp.steps = f.fp.steps ++ [s] ∧
      s.position = Spec.inFrame u.position u.angle f.distance ∧
      s.angle = u.angle + f.yawOffset ∧ s.impactTime = t ∧
      f'.getUnicycleStateFromStep s = some u := by
  cases hd : f.distanceSet
  · simp [addStepFromUnicycle, hd] at h
  by_cases ht : t < 0
  · simp [addStepFromUnicycle, FootPrint.addStep, FootPrint.addStepRaw, hd, ht] at h
  intro f'
  refine ⟨⟨f.footPosition u, u.angle + f.yawOffset, t, f.fp.footName⟩, ?_, ?_, ?_, rfl, rfl, ?_⟩
  · simp [f', addStepFromUnicycle, FootPrint.addStep, FootPrint.addStepRaw, hd, ht, getLastStep,
      FootPrint.getLastStep]
  · simp [f', addStepFromUnicycle, FootPrint.addStep, FootPrint.addStepRaw, hd, ht]
  · ext <;> simp [footPosition, Spec.inFrame, rot] <;> ring
  · simp [f', addStepFromUnicycle, FootPrint.addStep, FootPrint.addStepRaw, hd, ht,
      getUnicycleStateFromStep, unicycleAngle, footPosition]
    ext <;> simp

/-- C04 (converse): re-adding the unicycle pose derived from a step recreates the step. -/
theorem C04_roundtrip_step (f : Foot ℝ) (s : Step ℝ) (u : UState ℝ) (ht : 0 ≤ s.impactTime)
    (hu : f.getUnicycleStateFromStep s = some u) :
    (f.addStepFromUnicycle u s.impactTime).1 = true ∧
    (f.addStepFromUnicycle u s.impactTime).2.getLastStep =
      some { s with footName := f.fp.footName } := by
  cases hd : f.distanceSet
  · simp [getUnicycleStateFromStep, hd] at hu
  simp [getUnicycleStateFromStep, hd] at hu
  subst hu
  simp [addStepFromUnicycle, FootPrint.addStep, FootPrint.addStepRaw, hd, not_lt.mpr ht,
    getLastStep, FootPrint.getLastStep, unicycleAngle, footPosition]
  ext <;> simp

/-- C04: the two queries are refused exactly when the offset was never set; the position given is that of the offset in the
frame of the unicycle, the one at which `addStepFromUnicycle` puts the step (`C04_roundtrip`). -/
theorem C04_queries (f : Foot ℝ) (u : UState ℝ) (s : Step ℝ) :
    (f.distanceSet = false → f.getFootPositionFromUnicycle u = none ∧ f.getUnicycleStateFromStep s = none) ∧
    (f.distanceSet = true → f.getFootPositionFromUnicycle u = some (Spec.inFrame u.position u.angle f.distance) ∧
      ∃ v, f.getUnicycleStateFromStep s = some v ∧ v.angle = s.angle - f.yawOffset ∧
        s.position = Spec.inFrame v.position v.angle f.distance) := by
  refine ⟨fun h => by simp [getFootPositionFromUnicycle, getUnicycleStateFromStep, h], fun h => ⟨?_, ?_⟩⟩
  · simp only [getFootPositionFromUnicycle, h, if_true, Option.some.injEq]
    ext <;> simp [footPosition, Spec.inFrame, rot] <;> ring
  · refine ⟨⟨s.position - rot (f.unicycleAngle s) f.distance, f.unicycleAngle s⟩,
      by simp only [getUnicycleStateFromStep, h, if_true], rfl, ?_⟩
    ext <;> simp [Spec.inFrame, rot, unicycleAngle] <;> ring

/-- C04: the offset and the yaw are those last given; a new foot has no offset and no yaw; the other setters leave them alone. -/
theorem C04_setters (f : Foot ℝ) (d : Vec2 ℝ) (x : ℝ) :
    f.setDistanceFromUnicycle d = { f with distance := d, distanceSet := true } ∧
    f.setYawOffset x = { f with yawOffset := x } ∧
    f.setTinyStepLength x = (if 0 ≤ x then (true, { f with minimumStep := x }) else (false, f)) ∧
    f.setTinyStepAngle x = (if 0 ≤ x then (true, { f with minimumAngle := x }) else (false, f)) ∧
    (Foot.new f.fp).distanceSet = false ∧ (Foot.new f.fp).yawOffset = 0 ∧ (Foot.new f.fp).fp = f.fp := by
  refine ⟨rfl, rfl, ?_, ?_, rfl, rfl, rfl⟩
  · simp only [setTinyStepLength, ← not_lt, ite_not]
  · simp only [setTinyStepAngle, ← not_lt, ite_not]

/-- Non-vacuity of C04. -/
example : (((Foot.new (FootPrint.empty : FootPrint ℝ)).setDistanceFromUnicycle ⟨0, 1 / 10⟩).addStepFromUnicycle
    ⟨⟨1, 2⟩, 3⟩ 4).1 = true := by
  simp [addStepFromUnicycle, setDistanceFromUnicycle, FootPrint.addStep, FootPrint.addStepRaw]
  norm_num

/-! ## C05 -/

/-- C05: `addParallelStep` fails, without change, exactly when the time is negative or the other
foot has no step. -/
theorem C05_fails (f other : Foot ℝ) (t : ℝ) :
    ((f.addParallelStep other t).1 = false ↔ t < 0 ∨ other.numberOfSteps = 0) ∧
    ((f.addParallelStep other t).1 = false → (f.addParallelStep other t).2 = f) := by
  by_cases ht : t < 0
  · simp [addParallelStep, ht]
  · rcases List.eq_nil_or_concat other.fp.steps with h | ⟨l, s, h⟩
    · simp [addParallelStep, ht, getLastStep, FootPrint.getLastStep, h, numberOfSteps,
        FootPrint.numberOfSteps]
    · simp [addParallelStep, ht, getLastStep, FootPrint.getLastStep, h, numberOfSteps,
        FootPrint.numberOfSteps, FootPrint.addStep, FootPrint.addStepRaw]

/-- C05: after a successful `addParallelStep` the new step and the other foot's last step belong to
the same unicycle pose, and the distance between the feet is the distance between the offsets. -/
theorem C05_parallel (f other : Foot ℝ) (t : ℝ) (hf : f.distanceSet = true)
    (ho : other.distanceSet = true) (h : (f.addParallelStep other t).1 = true) :
    let f' := (f.addParallelStep other t).2
    ∃ s o u, f'.getLastStep = some s ∧ other.getLastStep = some o ∧
      f'.fp.steps = f.fp.steps ++ [s] ∧ s.impactTime = t ∧
      f'.getUnicycleStateFromStep s = some u ∧ other.getUnicycleStateFromStep o = some u ∧
      Spec.dist s.position o.position = Spec.dist f.distance other.distance := by
  by_cases ht : t < 0
  · simp [addParallelStep, ht] at h
  rcases List.eq_nil_or_concat other.fp.steps with h' | ⟨l, o, h'⟩
  · simp [addParallelStep, ht, getLastStep, FootPrint.getLastStep, h'] at h
  intro f'
  set θ := other.unicycleAngle o with hθ
  have hstep : f'.fp.steps = f.fp.steps ++ [⟨o.position + rot θ (f.distance - other.distance),
      θ + f.yawOffset, t, f.fp.footName⟩] := by
    simp [f', addParallelStep, ht, getLastStep, FootPrint.getLastStep, h', FootPrint.addStep,
      FootPrint.addStepRaw, hθ]
  have hfields : f'.distance = f.distance ∧ f'.distanceSet = f.distanceSet ∧
      f'.yawOffset = f.yawOffset := by
    simp [f', addParallelStep, ht, getLastStep, FootPrint.getLastStep, h']
  refine ⟨⟨o.position + rot θ (f.distance - other.distance), θ + f.yawOffset, t, f.fp.footName⟩, o,
    ⟨o.position - rot θ other.distance, θ⟩, ?_, ?_, hstep, rfl, ?_, ?_, ?_⟩
  · simp [getLastStep, FootPrint.getLastStep, hstep]
  · simp [getLastStep, FootPrint.getLastStep, h']
  · simp [getUnicycleStateFromStep, hfields, hf, unicycleAngle, rot_sub]
    ext <;> simp <;> ring
  · simp [getUnicycleStateFromStep, ho, hθ]
  · rw [← norm_eq_dist, ← norm_eq_dist, Vec2.norm, Vec2.norm]
    have : (o.position + rot θ (f.distance - other.distance) - o.position)
        = rot θ (f.distance - other.distance) := by ext <;> simp
    simp only [this, normSq_rot]

/-- Non-vacuity of C05: a right foot stepping beside a left foot. -/
example :
    let l : Foot ℝ := ⟨⟨[⟨⟨1, 2⟩, 3, 4, "left"⟩], "left"⟩, ⟨0, 1⟩, true, 0, 0, 0⟩
    let r : Foot ℝ := ⟨⟨[], "right"⟩, ⟨0, -1⟩, true, 0, 0, 0⟩
    (r.addParallelStep l 5).1 = true := by
  simp [addParallelStep, getLastStep, FootPrint.getLastStep, FootPrint.addStep,
    FootPrint.addStepRaw]
  norm_num

/-! ## C06 -/

/-- C06: a pose is tiny iff the foot has a last step and the foot placed for that pose would move
less than the minimum length and the heading would change less than the minimum angle. -/
theorem C06_iff (f : Foot ℝ) (u : UState ℝ) :
    f.isTinyStep u = true ↔ ∃ s, f.getLastStep = some s ∧
      Spec.dist (Spec.inFrame u.position u.angle f.distance) s.position < f.minimumStep ∧
      |(s.angle - f.yawOffset) - u.angle| < f.minimumAngle := by
  have hfp : f.footPosition u = Spec.inFrame u.position u.angle f.distance := by
    ext <;> simp [footPosition, Spec.inFrame, rot] <;> ring
  unfold isTinyStep
  cases h : f.getLastStep with
  | none => simp
  | some s =>
    simp [norm_eq_dist, hfp, unicycleAngle]
    exact fun _ => decide_eq_true_iff

/-- C06: with positive thresholds, the pose from which the last step was taken is tiny. -/
theorem C06_stay (f : Foot ℝ) (u : UState ℝ) (t : ℝ) (hs : 0 < f.minimumStep)
    (ha : 0 < f.minimumAngle) (h : (f.addStepFromUnicycle u t).1 = true) :
    (f.addStepFromUnicycle u t).2.isTinyStep u = true := by
  obtain ⟨s, hlast, -, hpos, hang, -, -⟩ := C04_roundtrip f u t h
  have hf : (f.addStepFromUnicycle u t).2.distance = f.distance ∧
      (f.addStepFromUnicycle u t).2.yawOffset = f.yawOffset ∧
      (f.addStepFromUnicycle u t).2.minimumStep = f.minimumStep ∧
      (f.addStepFromUnicycle u t).2.minimumAngle = f.minimumAngle := by
    unfold addStepFromUnicycle; split <;> simp
  rw [C06_iff]
  refine ⟨s, hlast, ?_, ?_⟩
  · rw [hf.1, hpos, hf.2.2.1]; simpa [Spec.dist] using hs
  · rw [hf.2.1, hf.2.2.2, hang]; simpa using ha

/-- C06, zero thresholds (the defaults of `UnicycleFoot`): nothing is ever tiny. -/
theorem C06_zero_threshold (f : Foot ℝ) (u : UState ℝ) (h : f.minimumStep = 0 ∨ f.minimumAngle = 0) :
    f.isTinyStep u = false := by
  rw [Bool.eq_false_iff]
  intro ht
  rw [C06_iff] at ht
  obtain ⟨s, -, h1, h2⟩ := ht
  rcases h with h | h
  · rw [h] at h1; exact absurd h1 (not_lt.mpr (Real.sqrt_nonneg _))
  · rw [h] at h2; exact absurd h2 (not_lt.mpr (abs_nonneg _))

/-- Observation recorded with C06: headings are compared without reducing modulo a full turn, so the
same physical pose one turn later is not tiny. -/
theorem C06_full_turn_not_tiny : ∃ (f : Foot ℝ) (u : UState ℝ), f.isTinyStep u = true ∧
    f.isTinyStep ⟨u.position, u.angle + 2 * Real.pi⟩ = false := by
  refine ⟨⟨⟨[⟨⟨0, 0⟩, 0, 0, ""⟩], ""⟩, ⟨0, 0⟩, true, 0, 1, 1⟩, ⟨⟨0, 0⟩, 0⟩, ?_, ?_⟩
  · rw [C06_iff]
    exact ⟨_, rfl, by simp [Spec.dist, Spec.inFrame], by simp⟩
  · rw [Bool.eq_false_iff]
    intro h
    rw [C06_iff] at h
    obtain ⟨s, hs, -, h2⟩ := h
    simp [getLastStep, FootPrint.getLastStep] at hs
    subst hs
    have := Real.two_le_pi
    simp only [zero_sub, zero_add, sub_zero, abs_neg] at h2
    rw [abs_of_pos (by positivity)] at h2
    linarith

end Uni.Foot
