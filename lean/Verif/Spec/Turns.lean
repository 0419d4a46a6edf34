import Verif.Spec.Executed
import Verif.Spec.Stride
import Verif.Spec.Start

/-! # Which foot leaves the ground next -/

set_option autoImplicit false

namespace Uni.Spec
open Walker

/-- The feet that leave the ground, in order, from the contacts of the feet (left foot first) at every sample. -/
def takeoffs : List (Bool × Bool) → List Bool
  | x :: y :: l => (if x.1 && !y.1 then [true] else []) ++ (if x.2 && !y.2 then [false] else []) ++ takeoffs (y :: l)
  | _ => []

/-- The feet take turns, beginning with the given one. -/
def Turns : Bool → List Bool → Prop
  | _, [] => True
  | b, x :: l => x = b ∧ Turns (!b) l

/-- The contacts after the first one of each foot are made in turns, at increasing times, beginning with the given foot. -/
def InTurn {K : Type} [LT K] (first : Bool) (left right : List (Step K)) : Prop :=
  ∃ log : List (Landing K), Alternates first log ∧ left.tail = stepsOf true log ∧ right.tail = stepsOf false log ∧
    log.Pairwise fun a b => a.step.impactTime < b.step.impactTime

/-- The foot whose turn it is at the beginning of a walk: the one that has been on the ground longest; if both landed together, the
configured one. -/
def due {K : Type} [LinearOrder K] (w : Walker K) : Bool :=
  match w.left.steps.head?, w.right.steps.head? with
  | some l, some r => if l.impactTime < r.impactTime then true else if r.impactTime < l.impactTime then false else w.planner.startLeft
  | _, _ => w.planner.startLeft

/-- Both feet landed together before the walk. -/
def Together {K : Type} (w : Walker K) : Prop :=
  ∀ l r, w.left.steps.head? = some l → w.right.steps.head? = some r → l.impactTime = r.impactTime

/-- A walk that was replaced with a request that does not change the landing times: no measured steps, which come with times of
their own, and, if there is a DCM, not with the DCM at rest. -/
def KeepsTimes {K : Type} [Field K] [LinearOrder K] [Trig K] (l : Leg K) : Prop :=
  (∀ a b, l.request ≠ .steps a b) ∧
  ∀ p o s, l.walk.dcm = some p → p.result = some o → o.samples[l.count]? = some s → 1 / 100000 ≤ s.vel.norm

/-- The robot follows a person, or is driven with no lateral velocity. -/
def Forward {K : Type} [Field K] (p : Planner K) : Prop :=
  p.controller = .personFollowing ∨ (p.controller = .direct ∧ p.ctrl.direct.desired.lateral = 0)

/-- The integrator evaluates the control law; it does not touch the commanded velocity. -/
def KeepsCommand {K : Type} [Field K] [LinearOrder K] [Trig K] (integ : Integrator K) : Prop :=
  ∀ (p : Planner K) (u : UState K) (t0 t1 : K), (integ p u t0 t1).1.direct.desired = p.ctrl.direct.desired

/-- Nobody configures another starting foot when the robot begins a walk with feet that landed together. -/
def KeepsStart {K : Type} (a b : Walker K) : Prop := Together a → b.planner.startLeft = a.planner.startLeft

end Uni.Spec
