import Verif.Spec.Stride
import Verif.Spec.DcmCall
import Mathlib.Analysis.Calculus.Deriv.Basic

/-! # The motion of the DCM over everything that is executed -/

set_option autoImplicit false

namespace Uni.Spec
open Walker

/-- The samples of the DCM of a walk. -/
def dcmOf {K : Type} (w : Walker K) : List (DcmSample K) :=
  match w.dcm.bind (·.result) with
  | some out => out.samples
  | none => []

section
variable {K : Type} [Field K] [LinearOrder K] [FloorRing K]

/-- The walk has a trajectory of the DCM, with parameters in their range; every phase has a sample, and so have the parts of the double
supports of the DCM. -/
def DcmFine (sort : Sorter K) (dT : K) (w : Walker K) (time : K) : Prop :=
  ∃ p, w.dcm = some p ∧ ValidDcm p.state ∧
    ∀ ordered t, Gen.timeline w.cfg w.left w.right time dT (sort w.left w.right) = .ok (ordered, t) →
      t.shifts.Pairwise (· < ·) ∧ Dcm.HasRoom w.cfg p.state dT t

end

/-- A curve in the plane with its velocity, which is continuous. -/
structure SmoothCurve (c v : ℝ → Vec2 ℝ) : Prop where
  x : ∀ τ, HasDerivAt (fun τ => (c τ).x) (v τ).x τ
  y : ∀ τ, HasDerivAt (fun τ => (c τ).y) (v τ).y τ
  vx : Continuous fun τ => (v τ).x
  vy : Continuous fun τ => (v τ).y

end Uni.Spec
