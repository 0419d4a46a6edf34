import Verif.Model.MinJerk
import Mathlib.Data.Matrix.Mul
import Mathlib.Analysis.Calculus.Deriv.Basic

/-! # What the trajectory of a foot must look like -/

set_option autoImplicit false

namespace Uni.Spec

/-- How many times the foot has landed up to sample `j`: the instants before `j` at which it swings, while it does not at the
following instant. -/
def landings (phases : List Phase) (j : Nat) : Nat :=
  (List.range j).countP fun i => decide (phases[i]? = some .swing) && decide (phases[i + 1]? ≠ some .swing)

/-- The samples `a, …, a + n - 1` are a whole swing. -/
structure IsSwing (phases : List Phase) (a n : Nat) : Prop where
  pos : 0 < n
  all : ∀ m, m < n → phases[a + m]? = some .swing
  before : a = 0 ∨ phases[a - 1]? ≠ some .swing
  after : phases[a + n]? ≠ some .swing

/-- The part of the sample that describes the motion on the ground is a point of the straight way from `s` to `s'`, a
fraction `lam` of it. -/
def OnTheWay {K : Type} [Field K] (s s' : Step K) (lam : K) (o : FootSample K) : Prop :=
  o.pos.x = s.position.x + lam * (s'.position.x - s.position.x) ∧
  o.pos.y = s.position.y + lam * (s'.position.y - s.position.y) ∧
  o.yaw = s.angle + lam * (s'.angle - s.angle)

/-- The sample is at rest on the ground on the step. -/
def AtRestOn {K : Type} [Field K] (s : Step K) (o : FootSample K) : Prop :=
  o.pos.x = s.position.x ∧ o.pos.y = s.position.y ∧ o.pos.z = 0 ∧ o.pitch = 0 ∧ o.yaw = s.angle ∧
  o.vel = ⟨0, 0, 0⟩ ∧ o.omega = ⟨0, 0, 0⟩ ∧ o.acc = ⟨0, 0, 0⟩ ∧ o.alpha = ⟨0, 0, 0⟩

/-- The rotation matrix of the foot: first the pitch, then the yaw. -/
noncomputable def attitude (o : FootSample ℝ) : Matrix (Fin 3) (Fin 3) ℝ :=
  .of ![![Real.cos o.yaw * Real.cos o.pitch, -Real.sin o.yaw, Real.cos o.yaw * Real.sin o.pitch],
    ![Real.sin o.yaw * Real.cos o.pitch, Real.cos o.yaw, Real.sin o.yaw * Real.sin o.pitch],
    ![-Real.sin o.pitch, 0, Real.cos o.pitch]]

/-- The matrix of the cross product with a vector. -/
def skew (w : Vec3 ℝ) : Matrix (Fin 3) (Fin 3) ℝ := .of ![![0, -w.z, w.y], ![w.z, 0, -w.x], ![-w.y, w.x, 0]]

/-- At the instant `t` of the curve `c` the twist is the velocity of the pose (in mixed representation: velocity of the
origin, angular velocity in world axes), the acceleration is the derivative of the twist. -/
structure Kinematic (c : ℝ → FootSample ℝ) (t : ℝ) : Prop where
  posX : HasDerivAt (fun t => (c t).pos.x) (c t).vel.x t
  posY : HasDerivAt (fun t => (c t).pos.y) (c t).vel.y t
  posZ : HasDerivAt (fun t => (c t).pos.z) (c t).vel.z t
  rot : ∀ i j, HasDerivAt (fun t => attitude (c t) i j) ((skew (c t).omega * attitude (c t)) i j) t
  velX : HasDerivAt (fun t => (c t).vel.x) (c t).acc.x t
  velY : HasDerivAt (fun t => (c t).vel.y) (c t).acc.y t
  velZ : HasDerivAt (fun t => (c t).vel.z) (c t).acc.z t
  omegaX : HasDerivAt (fun t => (c t).omega.x) (c t).alpha.x t
  omegaY : HasDerivAt (fun t => (c t).omega.y) (c t).alpha.y t
  omegaZ : HasDerivAt (fun t => (c t).omega.z) (c t).alpha.z t

end Uni.Spec
