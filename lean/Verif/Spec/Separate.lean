import Verif.Model.Walker

/-! # Which trajectory generators have an influence on what

Two users do the same with their objects, except that they treat one of the trajectory generators differently. -/

set_option autoImplicit false

namespace Uni.Spec
open Walker
variable {K : Type} [Field K] [LinearOrder K] [FloorRing K] [Trig K]

/-- The trajectory generators other than the one of the DCM. -/
inductive Part
  | cubic
  | minJerk
  | zmp
  | height
  deriving DecidableEq, Repr

/-- Whatever a user can do with the object and with what it hands out: the methods that do not generate, those that do, changing the
steps of a footprint, discarding the past of the reference, asking the planner for the steps of other footprints. -/
inductive Deed (K : Type)
  | op (o : Op K)
  | call (c : Call K)
  | left (l : FootPrint K)
  | right (r : FootPrint K)
  | clear (t : K)
  | plan (l r : FootPrint K) (t0 t1 : K)

/-- The methods of a trajectory generator, and the one that attaches it. -/
def ofPart (x : Part) : Deed K → Bool
  | .op .addCubic | .op (.cubic _) => x = .cubic
  | .op .addMinJerk | .op (.minJerk _) => x = .minJerk
  | .op (.addZmp _) | .op (.zmp _) => x = .zmp
  | .op .addHeight | .op (.height _ _) => x = .height
  | _ => false

/-- The methods of the generator of the DCM, and the one that attaches it. -/
def ofDcm : Deed K → Bool
  | .op .addDcm | .op (.dcm _) => true
  | _ => false

/-- The method that attaches the generator of the DCM. -/
def attachesDcm : Deed K → Bool
  | .op .addDcm => true
  | _ => false

/-- A sequence of such calls that all came back, with the values that the generating ones returned. -/
inductive Ran (integ : Integrator K) (sort : Sorter K) : Walker K → List (Deed K) → List Bool → Walker K → Prop
  | nil (w : Walker K) : Ran integ sort w [] [] w
  | op (w w' : Walker K) (o : Op K) (l : List (Deed K)) (bs : List Bool) : Ran integ sort (w.run o) l bs w' →
      Ran integ sort w (.op o :: l) bs w'
  | call (w w1 w' : Walker K) (fuel : Nat) (c : Call K) (b : Bool) (l : List (Deed K)) (bs : List Bool) :
      w.call integ fuel sort c = .done b w1 → Ran integ sort w1 l bs w' → Ran integ sort w (.call c :: l) (b :: bs) w'
  | left (w w' : Walker K) (f : FootPrint K) (l : List (Deed K)) (bs : List Bool) : Ran integ sort { w with left := f } l bs w' →
      Ran integ sort w (.left f :: l) bs w'
  | right (w w' : Walker K) (f : FootPrint K) (l : List (Deed K)) (bs : List Bool) : Ran integ sort { w with right := f } l bs w' →
      Ran integ sort w (.right f :: l) bs w'
  | clear (w w' : Walker K) (t : K) (b : Bool) (p : Planner K) (l : List (Deed K)) (bs : List Bool) :
      w.planner.clearDesiredTrajectoryUpTo t = .ok (b, p) → Ran integ sort { w with planner := p } l bs w' →
      Ran integ sort w (.clear t :: l) bs w'
  | plan (w w' : Walker K) (fuel : Nat) (fl fr fl' fr' : FootPrint K) (t0 t1 : K) (b : Bool) (p : Planner K) (l : List (Deed K))
      (bs : List Bool) : w.planner.computeNewSteps integ fuel fl fr t0 t1 = .done b p fl' fr' →
      Ran integ sort { w with planner := p } l bs w' → Ran integ sort w (.plan fl fr t0 t1 :: l) bs w'

/-- The settings of the generator, the planner, the footprints, and what the getters of phases, merge points and contacts return. -/
structure SameSteps (a b : Walker K) : Prop where
  cfg : a.cfg = b.cfg
  planner : a.planner = b.planner
  left : a.left = b.left
  right : a.right = b.right
  outputs : a.outputs = b.outputs

/-- All of that, and everything that the other trajectory generators keep and return. -/
structure SameBut (x : Part) (a b : Walker K) : Prop extends SameSteps a b where
  garbage : a.garbage = b.garbage
  dcm : a.dcm = b.dcm
  cubic : x ≠ .cubic → a.cubic = b.cubic
  minJerk : x ≠ .minJerk → a.minJerk = b.minJerk
  zmp : x ≠ .zmp → a.zmp = b.zmp
  height : x ≠ .height → a.height = b.height

/-- The part of a sample of a foot that concerns the ground plane: x, y and yaw with their first and second derivatives. -/
def ground (s : FootSample K) : (K × K × K) × (K × K × K) × K × K × K :=
  ((s.pos.x, s.pos.y, s.yaw), (s.vel.x, s.vel.y, s.omega.z), s.acc.x, s.acc.y, s.alpha.z)

/-- The trajectories of both feet in the ground plane. -/
def groundOf (o : FeetOut K) : List ((K × K × K) × (K × K × K) × K × K × K) × List ((K × K × K) × (K × K × K) × K × K × K) :=
  (o.1.map ground, o.2.map ground)

end Uni.Spec
