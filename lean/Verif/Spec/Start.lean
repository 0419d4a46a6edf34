import Verif.Spec.Feasible
import Verif.Model.PlannerSettings

/-! # The foot that starts -/

set_option autoImplicit false

namespace Uni.Spec
variable {K : Type*} [Field K] [LinearOrder K] [Trig K]

/-- No lateral velocity is commanded. -/
def Straight (p : Planner K) : Prop :=
  match p.controller with
  | .personFollowing => True
  | .direct => p.ctrl.direct.desired.lateral = 0
  | .navigation => p.ctrl.nav.desired.lateral = 0

/-- The foot whose turn it is: the one that has been on the ground longest; if both landed together, the configured one. -/
def turn (p : Planner K) (left right : FootPrint K) : Bool :=
  match left.steps.getLast?, right.steps.getLast? with
  | some l, some r => if l.impactTime < r.impactTime then true else if r.impactTime < l.impactTime then false else p.startLeft
  | _, _ => p.startLeft

/-- Positions and angles of contacts. -/
def poses (steps : List (Step K)) : List (Vec2 K × K) := steps.map fun s => (s.position, s.angle)

/-- `Session p l r q l' r'`: from planner `p` and footprints `l`, `r` one gets to `q`, `l'`, `r'` by planning requests, successful or
not, without a lateral command, and by other changes of the planner that do not concern the starting foot. -/
inductive Session (p : Planner K) (l r : FootPrint K) : Planner K → FootPrint K → FootPrint K → Prop
  | start : Session p l r p l r
  | plan (q q' : Planner K) (l1 r1 l2 r2 : FootPrint K) (integ : Integrator K) (fuel : Nat) (t0 t1 : K) (ok : Bool) :
      Session p l r q l1 r1 → Straight q → Timed q → 0 < q.minTime →
      q.computeNewSteps integ fuel l1 r1 t0 t1 = .done ok q' l2 r2 → Session p l r q' l2 r2
  | other (q q' : Planner K) (l1 r1 : FootPrint K) : Session p l r q l1 r1 → q'.startLeft = q.startLeft →
      q'.resetStartingFoot = q.resetStartingFoot → Session p l r q' l1 r1

/-- What is needed of the footprints between two requests: both feet have a contact, and no landing time is negative. -/
structure OnBothFeet (left right : FootPrint K) : Prop where
  leftFoot : left.steps ≠ []
  rightFoot : right.steps ≠ []
  nonnegLeft : NonNeg left
  nonnegRight : NonNeg right

end Uni.Spec
