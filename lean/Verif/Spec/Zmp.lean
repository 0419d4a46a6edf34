import Verif.Model.FootPrint

/-! # What the ZMP and the weights on the feet must be -/

set_option autoImplicit false

namespace Uni.Spec

variable {K : Type}

/-- `s` is the last contact made by a foot not later than `time`. -/
structure Standing [LE K] (steps : List (Step K)) (time : K) (s : Step K) : Prop where
  mem : s ∈ steps
  before : s.impactTime ≤ time
  last : ∀ s' ∈ steps, s'.impactTime ≤ time → s'.impactTime ≤ s.impactTime

/-- `p` is on the segment from `a` to `b`. -/
def OnSegment [Ring K] [LE K] (a b p : Vec2 K) : Prop :=
  ∃ lam : K, 0 ≤ lam ∧ lam ≤ 1 ∧ p = (1 - lam) * a + lam * b

/-- A point given in the frame of a foot that stands on a step. -/
def inWorld [Ring K] [Trig K] (s : Step K) (p : Vec2 K) : Vec2 K := s.position + rot s.angle p

/-- The steps of a footprint carry its name. -/
def Named (f : FootPrint K) : Prop := ∀ s ∈ f.steps, s.footName = f.footName

/-- After its first step a foot makes no two contacts without one of the other foot in between. -/
def Alternating [LT K] (left right : List (Step K)) : Prop :=
  (∀ (i : Nat) (a b : Step K), left[i + 1]? = some a → left[i + 2]? = some b →
    ∃ r ∈ right, a.impactTime < r.impactTime ∧ r.impactTime < b.impactTime) ∧
  (∀ (i : Nat) (a b : Step K), right[i + 1]? = some a → right[i + 2]? = some b →
    ∃ l ∈ left, a.impactTime < l.impactTime ∧ l.impactTime < b.impactTime)

end Uni.Spec
