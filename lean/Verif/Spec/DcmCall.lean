import Verif.Spec.Dcm
import Verif.Spec.Phases
import Verif.Model.Generator

/-! # The call of the generator of the DCM made by `UnicycleGenerator` -/

set_option autoImplicit false

namespace Uni
open Spec Gen
namespace Dcm

variable {K : Type} [Field K] [LinearOrder K] [IsStrictOrderedRing K] [FloorRing K] [Trig K]

/-- A timeline made by `UnicycleGenerator` with valid settings, in which no phase is empty and the feet have the names that the
generator of the DCM expects. -/
structure Walk (cfg : GenSettings K) (left right : FootPrint K) (initTime dT : K) (sorted ordered : List (Ptr K)) (t : Timing K) :
    Prop where
  valid : ValidTimings cfg
  sort : SortedPtrs left right sorted
  made : timeline cfg left right initTime dT sorted = .ok (ordered, t)
  phases : t.shifts.Pairwise (· < ·)
  names : LeftRight left right

/-- The call made by `UnicycleGenerator` for this timeline succeeds. -/
def Done (d : Dcm K) (cfg : GenSettings K) (left right : FootPrint K) (initTime dT : K) (ordered : List (Ptr K)) (t : Timing K)
    (d' : Dcm K) (o : DcmOut K) : Prop :=
  d.computeNewTrajectories cfg initTime dT (ordered.map Ptr.step) t.shifts t.left left right = .ok (true, d', some o)

/-- The pieces of a double support last at least a sample; the length of the last one is read from the timeline. -/
def HasRoom (cfg : GenSettings K) (d : Dcm K) (dT : K) (t : Timing K) : Prop :=
  ∀ a b : Nat, t.shifts[t.shifts.length - 2]? = some a → t.shifts[t.shifts.length - 1]? = some b →
    Roomy cfg d.stillness dT (b - a)

end Dcm
end Uni
