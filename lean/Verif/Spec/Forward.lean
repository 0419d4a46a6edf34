import Verif.Spec.Steady
import Verif.Spec.Circle

/-! # A robot that is told to walk: vocabulary (over ℝ) -/

set_option autoImplicit false

namespace Uni.Spec

/-- The planner is driven directly, by a constant command, which it can follow, and the feet point in the direction of the unicycle. -/
structure Driven (p : Planner ℝ) (cmd : Control ℝ) : Prop where
  controller : p.controller = .direct
  command : p.ctrl.direct.desired = cmd
  limits : WithinLimits p cmd
  step : 0 < p.integratorStep
  period : 0 < p.dT
  slow : p.nominalTime + p.dT ≤ p.maxTime
  leftYaw : p.leftYaw = 0
  rightYaw : p.rightYaw = 0
  wide : 0 ≤ p.nominalWidth
  free : ∀ x, p.problem.freeSpace.isPointInside x = true

/-- A step while the unicycle moves straight on for the time `s`, with the feet at the nominal distance before it, satisfies the
constraints. -/
structure StraightFits (p : Planner ℝ) (cmd : Control ℝ) (s : ℝ) : Prop where
  length : ∀ m, p.problem.maxLength = some m → 0 ≤ m ∧ (s * cmd.forward) ^ 2 + (p.nominalWidth + s * |cmd.lateral|) ^ 2 < m ^ 2
  width : ∀ m, p.problem.minWidth = some m → m < p.nominalWidth - s * |cmd.lateral|
  angle : ∀ m, p.problem.maxAngle = some m → 0 < m
  backward : ∀ m, p.problem.maxLengthBackward = some m → 0 < m ∧
    (cmd.forward < 0 → (s * cmd.forward) ^ 2 + (p.nominalWidth + s * |cmd.lateral|) ^ 2 < m ^ 2)

/-- A step while the unicycle turns on the spot by the angle `φ`, with the feet at the nominal distance before it, satisfies the
constraints. -/
structure TurnFits (p : Planner ℝ) (φ : ℝ) : Prop where
  half : φ ≤ Real.pi
  length : ∀ m, p.problem.maxLength = some m → p.nominalWidth < m
  width : ∀ m, p.problem.minWidth = some m → m < p.nominalWidth / 2 * (1 + Real.cos φ)
  angle : ∀ m, p.problem.maxAngle = some m → φ < m
  backward : ∀ m, p.problem.maxLengthBackward = some m → p.nominalWidth < m

/-- With which speed a foot at least moves away from where it stood, while the unicycle goes forward and turns by no more than `α`. -/
noncomputable def footSpeed (p : Planner ℝ) (cmd : Control ℝ) (α : ℝ) : ℝ :=
  Real.sqrt (|cmd.forward| * (Real.cos α * |cmd.forward| - |cmd.angular| * p.nominalWidth))

/-- A step while the unicycle goes along a curve for the time `s`, turning by no more than `α`, with the feet at the nominal distance
before it, satisfies the constraints; and the curve is wide enough for both feet to go in the direction of the unicycle. -/
structure CurveFits (p : Planner ℝ) (cmd : Control ℝ) (α s : ℝ) : Prop where
  acute : α ≤ Real.pi / 2
  turn : |cmd.angular| * (s + p.integratorStep) ≤ α
  little : p.minAngle + |cmd.angular| * p.integratorStep ≤ α
  curve : (|cmd.angular| * p.nominalWidth / 2) ^ 2 < |cmd.forward| * (Real.cos α * |cmd.forward| - |cmd.angular| * p.nominalWidth)
  length : ∀ m, p.problem.maxLength = some m → 0 ≤ m ∧
    (s * (|cmd.forward| + |cmd.angular| * p.nominalWidth / 2)) ^ 2 + (p.nominalWidth + s * |cmd.forward| * Real.sin α) ^ 2 < m ^ 2
  width : ∀ m, p.problem.minWidth = some m → m < p.nominalWidth / 2 * (1 + Real.cos α) - s * |cmd.forward| * Real.sin α
  angle : ∀ m, p.problem.maxAngle = some m → |cmd.angular| * s < m
  backward : ∀ m, p.problem.maxLengthBackward = some m → 0 < m ∧ (cmd.forward < 0 →
    (s * (|cmd.forward| + |cmd.angular| * p.nominalWidth / 2)) ^ 2 + (p.nominalWidth + s * |cmd.forward| * Real.sin α) ^ 2 < m ^ 2)

/-- The foot that moves first is not ahead of the other one: it stands where the unicycle would have been before, on the way `γ` on which
it goes on. -/
def NotAhead (p : Planner ℝ) (left right : FootPrint ℝ) (γ : ℝ → UState ℝ) : Prop :=
  (∀ l, left.steps.getLast? = some l → ∃ s, s ≤ 0 ∧ stateFor (leftFoot p left) l = γ s) ∧
  ∀ r, right.steps.getLast? = some r → ∃ s, s ≤ 0 ∧ stateFor (rightFoot p right) r = γ s

/-- The corners of the way of a unicycle that keeps its heading for the time `h`, and turns at the corners: the next ones, and those
before. -/
noncomputable def corner (u : UState ℝ) (v : Control ℝ) (h : ℝ) : ℤ → UState ℝ
  | .ofNat k => (fun w => goOn w v h)^[k] u
  | .negSucc k => (fun w => ⟨w.position - h * rot (w.angle - h * v.angular) ⟨v.forward, v.lateral⟩, w.angle - h * v.angular⟩)^[k + 1] u

/-- The way of a unicycle with constant velocities in its own frame, as it is integrated with steps `h`, through `u`. -/
noncomputable def track (u : UState ℝ) (v : Control ℝ) (h s : ℝ) : UState ℝ :=
  goOn (corner u v h ⌊s / h⌋) v (s - ⌊s / h⌋ * h)

/-- How long the robot waits until the foot has some way to go: the command is executed from time `start` on, and the unicycle has to move
for the time `rise`. -/
noncomputable def waits (p : Planner ℝ) (rise start t0 prev : ℝ) : ℝ :=
  max 0 (rise + 3 * p.integratorStep + max start prev - max t0 prev)

/-- From the beginning to the end of the horizon one step follows the other, each chosen by the optimisation (except that the last one, at
the very end, may bring the feet together); from one landing to the next it takes no longer than the maximum duration, a period of the
planner, and the time in which the foot gets some way to go. -/
def KeepsWalking (p : Planner ℝ) (rise start t0 t1 : ℝ) (d : Plan ℝ) : Prop :=
  (∀ e ∈ d.decided, e.kind = .optimised ∨ e.kind = .parallel ∧ e.step.impactTime = t1) ∧
  Along (fun prev e => e.step.impactTime ≤
    max t0 prev.impactTime + p.maxTime + p.dT + waits p rise start t0 prev.impactTime) d.prev d.decided ∧
  t1 ≤ max t0 d.final.prev.impactTime + p.nominalTime + p.dT + waits p rise start t0 d.final.prev.impactTime

end Uni.Spec
