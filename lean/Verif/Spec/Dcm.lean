import Verif.Model.DCM
import Verif.Spec.Zmp

/-! # What a trajectory of the DCM must be -/

set_option autoImplicit false

namespace Uni.Spec

variable {K : Type}

/-- One sub-trajectory begins when the other ends, in the same position with the same velocity. -/
structure Joined [Field K] [LinearOrder K] [Trig K] (ω : K) (p q : Piece K) : Prop where
  time : p.stop = q.start
  pos : p.pos ω p.stop = q.pos ω q.start
  vel : p.vel ω p.stop = q.vel ω q.start

/-- The steps of the two footprints are called "left" and "right". -/
structure LeftRight (left right : FootPrint K) : Prop where
  left_name : left.footName = "left"
  right_name : right.footName = "right"
  left_steps : Named left
  right_steps : Named right

/-- Feet that take turns: between two contacts of a foot there is one of the other; for the first contact of a foot the
other may be simultaneous. -/
structure TakeTurns [LE K] [LT K] (left right : List (Step K)) : Prop where
  later : Alternating left right
  firstL : ∀ a b : Step K, left[0]? = some a → left[1]? = some b →
    ∃ r ∈ right, a.impactTime ≤ r.impactTime ∧ r.impactTime < b.impactTime
  firstR : ∀ a b : Step K, right[0]? = some a → right[1]? = some b →
    ∃ l ∈ left, a.impactTime ≤ l.impactTime ∧ l.impactTime < b.impactTime

/-- Settings with which every part of a double support lasts at least a sample: the parts of a pause, and the motion that
brings the DCM to rest in the last double support, which has `rest` samples. -/
structure Roomy [Field K] [LinearOrder K] (cfg : GenSettings K) (stillness dT : K) (rest : Nat) : Prop where
  pause : cfg.pauseActive = true → dT ≤ cfg.endSwitch ∧ dT ≤ cfg.switchPercentage * cfg.nominalStepTime ∧
    cfg.endSwitch + cfg.switchPercentage * cfg.nominalStepTime + dT ≤ cfg.switchPercentage * cfg.maxStepTime
  final : dT ≤ (rest : K) * dT * (1 - stillness)

/-- Parameters in their range. -/
structure ValidDcm [Field K] [LinearOrder K] (d : Dcm K) : Prop where
  omega_pos : 0 < d.omega
  still_nonneg : 0 ≤ d.stillness
  still_lt : d.stillness < 1

end Uni.Spec
