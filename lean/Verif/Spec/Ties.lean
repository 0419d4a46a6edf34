import Verif.Spec.Moved
import Verif.Spec.Zmp
import Verif.Spec.Replan

/-! # Contacts that are established at the same time -/

set_option autoImplicit false

namespace Uni.Spec
variable {K : Type}

/-- The first contact of each foot comes before all the later contacts of both feet. -/
def FirstContactsFirst [LT K] (left right : FootPrint K) : Prop :=
  ∀ a b, left.steps.head? = some a → right.steps.head? = some b →
    ∀ s ∈ left.steps.tail ++ right.steps.tail, a.impactTime < s.impactTime ∧ b.impactTime < s.impactTime

/-- The requests whose outcome is claimed not to depend on the order of simultaneous contacts: footprints in which only the first
contacts of the two feet can be simultaneous, walks that start from at most one contact per foot, and all the re-planning requests. -/
def CallUntied [Field K] [LinearOrder K] (w : Walker K) : Walker.Call K → Prop
  | .fromFootPrints left right _ _ => Named left ∧ Named right ∧ FirstContactsFirst left right
  | .generate _ _ _ => 0 < w.planner.minTime ∧ w.left.steps.length = w.right.steps.length ∧ w.left.steps.length ≤ 1 ∧
    Named w.left ∧ Named w.right ∧ NonNeg w.left ∧ NonNeg w.right
  | .reGenerate _ _ _ _ => 0 < w.planner.minTime ∧ NonNeg w.left ∧ NonNeg w.right

/-- All the requests of a history are such. -/
def Untied (integ : Integrator ℝ) (fuel : Nat) (sort : Walker.Sorter ℝ) (w : Walker ℝ) :
    List (Walker.Op ℝ ⊕ Walker.Call ℝ) → Prop
  | [] => True
  | .inl o :: es => Untied integ fuel sort (w.run o) es
  | .inr c :: es => CallUntied w c ∧ ∀ b w1, w.call integ fuel sort c = .done b w1 → Untied integ fuel sort w1 es

end Uni.Spec
