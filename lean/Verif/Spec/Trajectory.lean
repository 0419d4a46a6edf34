import Verif.Model.PersonFollowing

/-! # What a piecewise-linear reference is -/

set_option autoImplicit false

namespace Uni.Spec
variable {K : Type*} [Field K] [LinearOrder K]

/-- The point of the segment from `a` to `b` at fraction `r`. -/
def between (a b : Vec2 K) (r : K) : Vec2 K := ⟨a.x + r * (b.x - a.x), a.y + r * (b.y - a.y)⟩

/-- `(y, yDot)` is the value at time `t` of the piecewise-linear reference through the points `traj`
(in time order): the last point after its time, and otherwise the point at the proportional position
between the two consecutive points around `t`. -/
def RefAt (traj : List (TrajPoint K)) (t : K) (y yDot : Vec2 K) : Prop :=
  (∃ pre p, traj = pre ++ [p] ∧ p.initTime ≤ t ∧ y = p.y ∧ yDot = p.yDot) ∨
  (∃ pre p q post, traj = pre ++ p :: q :: post ∧ p.initTime ≤ t ∧ t < q.initTime ∧
    y = between p.y q.y ((t - p.initTime) / (q.initTime - p.initTime)) ∧
    yDot = between p.yDot q.yDot ((t - p.initTime) / (q.initTime - p.initTime)))

/-- The points are in time order. -/
def InTimeOrder (traj : List (TrajPoint K)) : Prop := traj.Pairwise fun a b => a.initTime ≤ b.initTime

end Uni.Spec
