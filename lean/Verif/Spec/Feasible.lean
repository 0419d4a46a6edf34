import Verif.Spec.PlanRun
import Verif.Spec.Plane

/-! # What a sane configuration and an acceptable step are -/

set_option autoImplicit false

namespace Uni.Spec

/-- The planner's timings are consistent (always the case for a planner configured with the public methods,
see C32). -/
structure Timed {K : Type*} [Zero K] [LE K] (p : Planner K) : Prop where
  period : 0 ≤ p.dT
  minTime : 0 ≤ p.minTime
  nominal : p.minTime ≤ p.nominalTime

theorem Timed.nominal_nonneg {K : Type*} [Zero K] [Preorder K] {p : Planner K} (h : Timed p) : 0 ≤ p.nominalTime :=
  h.minTime.trans h.nominal

/-- `q` has the configuration of `p`: they differ at most in the controllers and in the working variables of a planning
call (horizon, swing-foot flags, preferred starting foot). -/
def SameConfig {K : Type*} (p q : Planner K) : Prop :=
  q = { p with
    ctrl := q.ctrl, initTime := q.initTime, endTime := q.endTime, swingLeft := q.swingLeft, firstStep := q.firstStep,
    startLeft := q.startLeft }

/-- Step `st`, of the left foot or of the right foot, taken while standing on `prev`, respects the configured bounds.
The lateral distance is the one of the left foot in the frame of the right one when the left foot moves, and in the frame
of the unicycle (heading of the new step net of the yaw offset) placed at the new step when the right foot moves. -/
structure WithinBounds (p : Planner ℝ) (prev : Step ℝ) (left : Bool) (st : Step ℝ) : Prop where
  length : ∀ m, p.problem.maxLength = some m → dist st.position prev.position < m
  width : ∀ m, p.problem.minWidth = some m → ∃ v : Vec2 ℝ, m < v.y ∧
    if left then st.position = inFrame prev.position prev.angle v
    else prev.position = inFrame st.position (st.angle - p.rightYaw) v
  angle : ∀ m, p.problem.maxAngle = some m →
    |prev.angle - (if left then p.rightYaw else p.leftYaw) - (st.angle - if left then p.leftYaw else p.rightYaw)| < m
  free : p.problem.freeSpace.isPointInside st.position = true
  backward : ∀ m, p.problem.maxLengthBackward = some m → ∃ v : Vec2 ℝ, st.position = inFrame prev.position prev.angle v ∧
    (v.x < 0 → dist st.position prev.position < m) ∧ (0 ≤ v.x → 0 < m)

/-- The feet are parallel: the last steps of the two feet correspond to the same unicycle state, or the step that would
bring one foot beside the other would be a tiny one. -/
def Closed {K : Type*} [Field K] [LinearOrder K] [Trig K] (L R : Foot K) : Prop :=
  ∃ l r, L.fp.steps.getLast? = some l ∧ R.fp.steps.getLast? = some r ∧
    (stateFor L l = stateFor R r ∨ tinyFor L (some l) (stateFor R r) = true ∨ tinyFor R (some r) (stateFor L l) = true)

end Uni.Spec
