import Verif.Spec.Executed
import Verif.Spec.Replan
import Verif.Spec.Plane
import Verif.Spec.Feasible

/-! # How the feet stand with respect to each other -/

set_option autoImplicit false

namespace Uni.Spec
open Walker

/-- The poses of steps of the two feet that are on the ground at the same time are related by `R`, left foot first.  Two steps are on
the ground at the same time if neither foot has landed again when the other one lands. -/
def Paired {K : Type} [LT K] (R : Vec2 K × K → Vec2 K × K → Prop) (left right : List (Step K)) : Prop :=
  ∀ i j l r, left[i]? = some l → right[j]? = some r → (∀ s, left[i + 1]? = some s → r.impactTime < s.impactTime) →
    (∀ s, right[j + 1]? = some s → l.impactTime < s.impactTime) → R (l.position, l.angle) (r.position, r.angle)

/-- The two feet, left foot first: contact and pose. -/
def feetOf {K S : Type} (plugin : Walker K → Option (Plugin S (FeetOut K))) (w : Walker K) :
    List ((Bool × FootSample K) × (Bool × FootSample K)) := (footOf plugin true w).zip (footOf plugin false w)

/-- Whenever both feet are in contact their poses are related by `R`. -/
def StandsWith {K : Type} (R : Vec2 K × K → Vec2 K × K → Prop) (x : (Bool × FootSample K) × (Bool × FootSample K)) : Prop :=
  x.1.1 = true → x.2.1 = true →
    R (⟨x.1.2.pos.x, x.1.2.pos.y⟩, x.1.2.yaw) (⟨x.2.2.pos.x, x.2.2.pos.y⟩, x.2.2.yaw)

/-- The poses of the feet are related by `R`, whether or not they are in contact. -/
def MovesWith {K : Type} (R : Vec2 K × K → Vec2 K × K → Prop) (x : (Bool × FootSample K) × (Bool × FootSample K)) : Prop :=
  R (⟨x.1.2.pos.x, x.1.2.pos.y⟩, x.1.2.yaw) (⟨x.2.2.pos.x, x.2.2.pos.y⟩, x.2.2.yaw)

/-- The fraction `lam` of the straight way from one pose to another. -/
def poseBetween {K : Type} [Field K] (lam : K) (a b : Vec2 K × K) : Vec2 K × K :=
  (⟨a.1.x + lam * (b.1.x - a.1.x), a.1.y + lam * (b.1.y - a.1.y)⟩, a.2 + lam * (b.2 - a.2))

/-- If two poses of a foot are related to one of the other foot, so is what is between them. -/
def Convex {K : Type} [Field K] [LE K] (R : Vec2 K × K → Vec2 K × K → Prop) : Prop :=
  ∀ (lam : K) (a b c : Vec2 K × K), 0 ≤ lam → lam ≤ 1 → (R a c → R b c → R (poseBetween lam a b) c) ∧ (R c a → R c b → R c (poseBetween lam a b))

/-- The first walk. -/
def firstWalk {K : Type} (legs : List (Leg K)) (w : Walker K) : Walker K := (legs.head?.map (·.walk)).getD w

/-- Pose of a contact with a measurement. -/
def corrected {K : Type} [Field K] [Trig K] (measured : Option (Vec2 K × K)) (s : Step K) : Vec2 K × K :=
  match measured with
  | none => (s.position, s.angle)
  | some (p, angle) => (p, s.angle + turnBetween s.angle angle)

/-- The measurements with which a walk was replaced, if any, are related by `R`, a foot without measurement being where it was. -/
def MeasuredWith {K : Type} [Field K] [LinearOrder K] [Trig K] (R : Vec2 K × K → Vec2 K × K → Prop) (dT : K) (l : Leg K) : Prop :=
  (measuredOf true l.request ≠ none ∨ measuredOf false l.request ≠ none) →
    ∀ sL sR, Present l.walk.left.steps (l.count * dT + l.start) sL → Present l.walk.right.steps (l.count * dT + l.start) sR →
      R (corrected (measuredOf true l.request) sL) (corrected (measuredOf false l.request) sR)

/-- The settings of the planner keep the feet related by `R`: two feet in their places beside the unicycle are related, and so are the
foot the robot stands on and a step that satisfies the constraints. -/
structure KeepsStance {K : Type} [Field K] [LinearOrder K] [Trig K] (R : Vec2 K × K → Vec2 K × K → Prop) (p : Planner K) : Prop where
  beside : ∀ (u : UState K) (l r : FootPrint K) (t t' : K),
    R ((stepOf (leftFoot p l) u t).position, (stepOf (leftFoot p l) u t).angle)
      ((stepOf (rightFoot p r) u t').position, (stepOf (rightFoot p r) u t').angle)
  left : ∀ (prev : Step K) (u : UState K) (l r : FootPrint K) (duration t : K),
    p.problem.areConstraintsSatisfied (dataOf (leftFoot p l) (rightFoot p r) true prev u duration) = true →
    R ((stepOf (leftFoot p l) u t).position, (stepOf (leftFoot p l) u t).angle) (prev.position, prev.angle)
  right : ∀ (prev : Step K) (u : UState K) (l r : FootPrint K) (duration t : K),
    p.problem.areConstraintsSatisfied (dataOf (leftFoot p l) (rightFoot p r) false prev u duration) = true →
    R (prev.position, prev.angle) ((stepOf (rightFoot p r) u t).position, (stepOf (rightFoot p r) u t).angle)

/-- The feet are at most `d` apart. -/
def Within (d : ℝ) (l r : Vec2 ℝ × ℝ) : Prop := dist l.1 r.1 ≤ d

/-- The left foot is on the left of the right foot, at a lateral distance of at least `d`. -/
def Beside (d : ℝ) (l r : Vec2 ℝ × ℝ) : Prop := ∃ v : Vec2 ℝ, d ≤ v.y ∧ l.1 = inFrame r.1 r.2 v

/-- The left foot is turned with respect to the right one by an angle that differs by at most `a` from `o`. -/
def TurnedBy (o a : ℝ) (l r : Vec2 ℝ × ℝ) : Prop := |l.2 - r.2 - o| ≤ a

end Uni.Spec
