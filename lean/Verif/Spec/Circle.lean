import Verif.Spec.Plane
import Verif.Model.BaseController

/-! # The motion with constant velocities in the own frame, while turning -/

set_option autoImplicit false

namespace Uni.Spec

/-- The centre of the circle on which a unicycle in the state `u` moves with the velocities `v`. -/
noncomputable def centre (u : UState ℝ) (v : Control ℝ) : Vec2 ℝ :=
  inFrame u.position u.angle ⟨-(v.lateral / v.angular), v.forward / v.angular⟩

/-- Where it is after the time `s`. -/
noncomputable def goRound (u : UState ℝ) (v : Control ℝ) (s : ℝ) : UState ℝ :=
  ⟨inFrame (centre u v) (u.angle + s * v.angular) ⟨v.lateral / v.angular, -(v.forward / v.angular)⟩, u.angle + s * v.angular⟩

/-- The linear speed of a command. -/
noncomputable def speedOf (v : Control ℝ) : ℝ := Real.sqrt (v.forward ^ 2 + v.lateral ^ 2)

end Uni.Spec
