import Verif.Model.RoundedPlan

/-! # Times of a plan, with rounding -/

set_option autoImplicit false

namespace Uni.Spec
variable {K : Type} [Field K] [LinearOrder K]

/-- The times at which the planner looks: the beginning, then a period after the other, the end of the request included. -/
def sampleTime (fl : K → K) (p : Planner K) : Nat → K
  | 0 => p.initTime
  | n + 1 =>
    let t := sampleTime fl p n
    if p.endTime < fl (t + p.dT) ∧ t < p.endTime then p.endTime else fl (t + p.dT)

/-- A foot on which a step has been added, landing at time `t`. -/
def AddedAt (f f' : Foot K) (t : K) : Prop := ∃ s : Step K, f'.fp.steps = f.fp.steps ++ [s] ∧ s.impactTime = t

/-- The steps are added with the time that was asked for. -/
def Faithful (g : Geometry K) : Prop :=
  (∀ s t f, g.land s t = (true, f) → AddedAt s.swing f t) ∧ ∀ s t f, g.parallel s t = (true, f) → AddedAt s.swing f t

/-- Landings in order, `left` being the side of the first one and `prev` the landing before. -/
def Landings (fl : K → K) (p : Planner K) : Bool → K → List (Bool × K) → Prop
  | _, _, [] => True
  | left, prev, (b, t) :: l =>
    b = left ∧ p.minTime ≤ fl (t - prev) ∧ (∃ k, t = sampleTime fl p k) ∧ t ≤ p.endTime ∧ Landings fl p (!left) t l

/-- The impact times of a foot. -/
def impacts (f : Foot K) : List K := f.fp.steps.map (·.impactTime)

end Uni.Spec
