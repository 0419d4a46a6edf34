import Verif.Spec.Stride

/-! # Walks that can be continued -/

set_option autoImplicit false

namespace Uni.Spec
open Walker

section
variable {K : Type} [Field K] [LinearOrder K] [FloorRing K] [Trig K]

/-- The planner has no reason to refuse to plan from the contacts of a walk in execution: its bounds are consistent, the limits and the
thresholds are acceptable, the period is positive, and the integration of the unicycle does not fail. -/
structure Willing (p : Planner K) (integ : Integrator K) : Prop where
  accepted : Accepted p
  limits : LimitsOk p
  minLength : 0 ≤ p.minLength
  minAngle : 0 ≤ p.minAngle
  period : 0 < p.dT
  integration : ∀ q u t0 t1, (integ q u t0 t1).2 ≠ none

/-- A walk, whose first sample is at time `time`, with everything that is needed to replace it by another one whose steps last at least
`gap`: no landing before time zero, a sample for every phase, usable settings and the names of the feet; if there are no steps, the two
contacts were established together. -/
structure Continuable (sort : Sorter K) (gap dT : K) (w : Walker K) (time : K) : Prop where
  left : NonNeg w.left
  right : NonNeg w.right
  phases : NoEmptyPhase sort w time dT
  usable : Usable w gap dT
  names : Names w w.left w.right
  together : ∀ l r, w.left.steps = [l] → w.right.steps = [r] → l.impactTime = r.impactTime

/-- The velocity of the DCM at sample `m`. -/
def velocityAt (w : Walker K) (m : Nat) : Gen.DcmVelocity K :=
  match w.dcm with
  | none => .absent
  | some p =>
    match p.result.bind (·.samples[m]?) with
    | some s => .known s.vel
    | none => .unset

/-- The landing times that a request brings along, if any, are not negative. -/
def NonNegTimes (q : Gen.Request K) : Prop := ∀ l r, q = .steps l r → 0 ≤ l.impactTime ∧ 0 ≤ r.impactTime

/-- The parts of the last double support in which the DCM rests last at least a sample. -/
def ComesToRest (dT : K) (w : Walker K) : Prop := ∃ p, w.dcm = some p ∧ dT ≤ (w.cfg.endSwitch - dT / 2) * p.state.stillness

end

end Uni.Spec
