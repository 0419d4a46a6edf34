import Verif.Spec.Stride
import Verif.Spec.Speed

/-! # How fast the feet are moved by what is executed -/

set_option autoImplicit false

namespace Uni.Spec
variable {K : Type} [Field K] [LinearOrder K]

/-- The sample moves on the ground with a speed of at most `v` and a squared acceleration of at most `a`, and turns at a rate of at
most `r`. -/
structure Paced (v a r : K) (o : FootSample K) : Prop where
  speed : o.vel.x ^ 2 + o.vel.y ^ 2 ≤ v ^ 2
  acceleration : o.acc.x ^ 2 + o.acc.y ^ 2 ≤ a
  turning : |o.omega.z| ≤ r

/-- From one sample to the next one the foot moves on the ground by at most `d`, and turns by at most `b`. -/
structure Creeps (d b : K) (x y : Bool × FootSample K) : Prop where
  way : (y.2.pos.x - x.2.pos.x) ^ 2 + (y.2.pos.y - x.2.pos.y) ^ 2 ≤ d ^ 2
  turn : |y.2.yaw - x.2.yaw| ≤ b

/-- Two poses of a foot that are both related to the same pose of the other foot are at most `d` apart, and turned by at most `b` with
respect to each other. -/
def Spans (R : Vec2 K × K → Vec2 K × K → Prop) (d b : K) : Prop :=
  ∀ x y z : Vec2 K × K, (R x z ∧ R y z) ∨ (R z x ∧ R z y) →
    (y.1.x - x.1.x) ^ 2 + (y.1.y - x.1.y) ^ 2 ≤ d ^ 2 ∧ |y.2 - x.2| ≤ b

end Uni.Spec
