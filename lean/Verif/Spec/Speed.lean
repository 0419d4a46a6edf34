import Verif.Spec.Feet

/-! # How fast a swinging foot may be -/

set_option autoImplicit false

namespace Uni.Spec
variable {K : Type} [Field K] [LinearOrder K]

/-- The square of the distance between two steps on the ground. -/
def gapSq (s s' : Step K) : K := (s'.position.x - s.position.x) ^ 2 + (s'.position.y - s.position.y) ^ 2

/-- Over a swing of duration `T` from `s` to `s'` the speed on the ground and the turning rate of the sample are at most `peak`
times the mean ones, and the squared acceleration is at most `steep` times the square of (distance / duration²). -/
structure Gentle (peak steep T : K) (s s' : Step K) (o : FootSample K) : Prop where
  speed : o.vel.x ^ 2 + o.vel.y ^ 2 ≤ (peak / T) ^ 2 * gapSq s s'
  turning : o.omega.z ^ 2 ≤ (peak / T) ^ 2 * (s'.angle - s.angle) ^ 2
  acceleration : o.acc.x ^ 2 + o.acc.y ^ 2 ≤ steep / T ^ 4 * gapSq s s'

/-- From one sample of a swing with `n` samples to the next one, the foot moves on the ground and turns at most `peak` times as
much as it does on average. -/
structure NearNext (peak : K) (n : Nat) (s s' : Step K) (o o' : FootSample K) : Prop where
  way : (o'.pos.x - o.pos.x) ^ 2 + (o'.pos.y - o.pos.y) ^ 2 ≤ (peak / n) ^ 2 * gapSq s s'
  turn : (o'.yaw - o.yaw) ^ 2 ≤ (peak / n) ^ 2 * (s'.angle - s.angle) ^ 2

end Uni.Spec
