import Verif.Model.Walker
import Verif.Spec.PlanRun

/-! # Asking for a new walk while the footprints still hold the old one -/

set_option autoImplicit false

namespace Uni.Spec
open Walker
variable {K : Type} [Field K] [LinearOrder K]

/-- The contacts in the footprints. -/
def contactsOf (w : Walker K) : List (Step K) := w.left.steps ++ w.right.steps

/-- The steps of a foot are in the order of their landing times. -/
def Chronological (fp : FootPrint K) : Prop := fp.steps.Pairwise fun a b => a.impactTime ≤ b.impactTime

/-- The footprints hold a walk: more contacts than those on which the robot can stand at the beginning of a walk. -/
structure HoldsWalk (w : Walker K) : Prop where
  many : 4 ≤ (contactsOf w).length
  left : Chronological w.left
  right : Chronological w.right
  leftTimes : NonNeg w.left
  rightTimes : NonNeg w.right

/-- `w'` can be reached from `w` with settings and calls of `generate`. -/
inductive Tries [FloorRing K] [Trig K] (integ : Integrator K) (sort : Sorter K) : Walker K → Walker K → Prop
  | refl (w : Walker K) : Tries integ sort w w
  | op (w w1 : Walker K) (o : Op K) : Tries integ sort w w1 → Tries integ sort w (w1.run o)
  | generate (w w1 w' : Walker K) (fuel : Nat) (t dT e : K) (b : Bool) : Tries integ sort w w1 →
      w1.generate integ fuel sort t dT e = .done b w' → Tries integ sort w w'

end Uni.Spec
