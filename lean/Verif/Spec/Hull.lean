import Verif.Spec.DcmCall
import Verif.Spec.Feet

/-! # Where the DCM may be -/

set_option autoImplicit false

namespace Uni.Spec

/-- A point in the (closed) convex hull of the points that satisfy `P`: every half plane that contains these contains it. -/
def InHull (P : Vec2 ℝ → Prop) (p : Vec2 ℝ) : Prop :=
  ∀ (n : Vec2 ℝ) (c : ℝ), (∀ z, P z → n.x * z.x + n.y * z.y ≤ c) → n.x * p.x + n.y * p.y ≤ c

/-- The desired ZMP (`dl` and `dr` in the frames of the feet) of the foot that is the support in the single support number `k`. -/
def SupportZmp (left right : FootPrint ℝ) (t : Timing ℝ) (dl dr : Vec2 ℝ) (k : Nat) (z : Vec2 ℝ) : Prop :=
  ∃ a, t.shifts[2 * k + 1]? = some a ∧
    ((t.left[a]? = some .stance ∧ ∃ l, left.steps[landings t.left a]? = some l ∧ z = inWorld l dl) ∨
     (t.right[a]? = some .stance ∧ ∃ r, right.steps[landings t.right a]? = some r ∧ z = inWorld r dr))

/-- The desired ZMPs (`dl` and `dr` in the frames of the feet) of the feet that are the support in the single support number `k` or
in a later one, and of the last contacts of the two feet. -/
def ZmpFrom (left right : FootPrint ℝ) (t : Timing ℝ) (dl dr : Vec2 ℝ) (k : Nat) (z : Vec2 ℝ) : Prop :=
  (∃ i a, k ≤ i ∧ t.shifts[2 * i + 1]? = some a ∧
    ((t.left[a]? = some .stance ∧ ∃ l, left.steps[landings t.left a]? = some l ∧ z = inWorld l dl) ∨
     (t.right[a]? = some .stance ∧ ∃ r, right.steps[landings t.right a]? = some r ∧ z = inWorld r dr))) ∨
  (∃ l, left.steps.getLast? = some l ∧ z = inWorld l dl) ∨ (∃ r, right.steps.getLast? = some r ∧ z = inWorld r dr)

end Uni.Spec
