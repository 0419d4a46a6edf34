import Verif.Spec.Moved

/-! # The same walk in a mirror

What it means that two generators are in the same situation except that left and right are exchanged: the plane is reflected
in the axis of the abscissae, the feet are exchanged. -/

set_option autoImplicit false

namespace Uni.Spec

/-- What the cosine and the sine have to do with reflections. -/
structure TrigParity (K : Type*) [Neg K] [Trig K] : Prop where
  cos : ∀ x : K, Trig.cos (-x) = Trig.cos x
  sin : ∀ x : K, Trig.sin (-x) = -Trig.sin x

namespace Mirror

/-- The name of a foot. -/
def name (s : String) : String := if s = "left" then "right" else if s = "right" then "left" else s

/-- A phase of the other foot. -/
def phase : Phase → Phase
  | .stance => .swing
  | .swing => .stance
  | .switchIn => .switchOut
  | .switchOut => .switchIn

section
variable {K : Type*} [Neg K]

/-- A point or a vector of the plane. -/
def vector (v : Vec2 K) : Vec2 K := ⟨v.x, -v.y⟩

/-- A step: it becomes a step of the other foot. -/
def step (s : Step K) : Step K := ⟨vector s.position, -s.angle, s.impactTime, name s.footName⟩

/-- A footprint: it becomes a footprint of the other foot. -/
def footPrint (f : FootPrint K) : FootPrint K := ⟨f.steps.map step, name f.footName⟩

/-- A pointer to a step. -/
def ptr (q : Ptr K) : Ptr K := ⟨!q.left, q.index, step q.step⟩

/-- A pose of a foot: reflections reverse rotations about the axes in the plane of the mirror. -/
def foot (f : FootSample K) : FootSample K where
  pos := ⟨f.pos.x, -f.pos.y, f.pos.z⟩
  pitch := f.pitch
  yaw := -f.yaw
  vel := ⟨f.vel.x, -f.vel.y, f.vel.z⟩
  omega := ⟨-f.omega.x, f.omega.y, -f.omega.z⟩
  acc := ⟨f.acc.x, -f.acc.y, f.acc.z⟩
  alpha := ⟨-f.alpha.x, f.alpha.y, -f.alpha.z⟩

/-- A motion along the axis of the ordinates. -/
def motion (m : Motion K) : Motion K := ⟨-m.pos, -m.vel, -m.acc⟩

/-- A motion in the frame of a foot. -/
def motion2 (m : Motion2 K) : Motion2 K := (m.1, motion m.2)

/-- A sample of the ZMP. -/
def zmp (z : ZmpSample K) : ZmpSample K := ⟨vector z.pos, vector z.vel, vector z.acc⟩

/-- A sample of the DCM. -/
def dcm (s : DcmSample K) : DcmSample K := ⟨vector s.pos, vector s.vel, vector s.zmp⟩

/-- A boundary condition of the DCM. -/
def dcmPoint (p : DcmPoint K) : DcmPoint K := ⟨p.time, vector p.pos, vector p.vel⟩

/-- A piece of the trajectory of the DCM. -/
def piece : Piece K → Piece K
  | .single a b z t p => .single a b (vector z) t (vector p)
  | .cubic i f => .cubic (dcmPoint i) (dcmPoint f)
  | .quintic i f a j => .quintic (dcmPoint i) (dcmPoint f) (vector a) (vector j)

/-- An initial state of the DCM. -/
def init (s : Vec2 K × Vec2 K) : Vec2 K × Vec2 K := (vector s.1, vector s.2)
end

/-- The poses of both feet. -/
def feet {K : Type} [Neg K] (o : FeetOut K) : FeetOut K := (o.2.map foot, o.1.map foot)

/-- The weight on the other foot. -/
def weight {K : Type*} [Ring K] (m : Motion K) : Motion K := ⟨1 - m.pos, -m.vel, -m.acc⟩

/-- What the getters of the timings return. -/
def outputs (o : GenOutputs) : GenOutputs :=
  ⟨o.phases.map Prod.swap, o.merges, o.rightContact, o.leftContact, o.leftFixed.map not⟩

end Mirror

variable {K : Type} [Ring K] [LinearOrder K]

/-- What a ZMP generator has computed: weights exchanged, ZMP in the frames of the feet exchanged and reflected, ZMP in the world
reflected. -/
structure ZmpOutMirrored (o o' : ZmpOut K) : Prop where
  weightL : o'.weightL = o.weightR
  weightR : o'.weightR = o.weightL
  localL : o'.localL = o.localR.map Mirror.motion2
  localR : o'.localR = o.localL.map Mirror.motion2
  world : o'.world = o.world.map Mirror.zmp

/-- A recorded weight: that of the other foot, unless nothing has been recorded. -/
def WeightMirrored (m m' : Motion K) : Prop := m' = Mirror.weight m ∨ (m = ⟨0, 0, 0⟩ ∧ m' = ⟨0, 0, 0⟩)

/-- The members of the ZMP generators. -/
structure ZmpStateMirrored (z z' : Zmp K) : Prop where
  offsets : z'.leftStance = Mirror.vector z.rightStance ∧ z'.rightStance = Mirror.vector z.leftStance ∧
    z'.leftSwitch = Mirror.vector z.rightSwitch ∧ z'.rightSwitch = Mirror.vector z.leftSwitch
  initial : z'.initialSpecified = z.initialSpecified ∧ (z.initialSpecified = true → z'.initialState = Mirror.weight z.initialState)
  previous : z'.previousSpecified = z.previousSpecified ∧ (z.previousSpecified = true →
    z'.previousLeft = Mirror.step z.previousRight ∧ z'.previousRight = Mirror.step z.previousLeft)
  states : List.Forall₂ WeightMirrored z.initStates z'.initStates

/-- The members of the DCM generator in the mirror. -/
def Mirror.dcmState (d : Dcm K) : Dcm K :=
  { d with initial := d.initial.map Mirror.init, leftDelta := Mirror.vector d.rightDelta, rightDelta := Mirror.vector d.leftDelta }

/-- What a DCM generator has computed, for the given phases of the left foot: the trajectory is reflected, the weights are
exchanged where one of the feet is alone on the ground.  Nothing is claimed of the weights in double support. -/
structure DcmOutMirrored (phases : List Phase) (o o' : DcmOut K) : Prop where
  pieces : o'.pieces = o.pieces.map Mirror.piece
  samples : o'.samples = o.samples.map Mirror.dcm
  horizon : o'.weights.length = o.weights.length
  weights : ∀ (i : Nat) (p : Phase), phases[i]? = some p → p = .stance ∨ p = .swing →
    o'.weights[i]? = (o.weights[i]?).map Prod.swap

/-- The same generators are attached, their settings are those of the mirror. -/
structure SettingsMirrored (w w' : Walker K) : Prop where
  cfg : w'.cfg = w.cfg
  garbage : w'.garbage = w.garbage
  cubic : Both (fun p p' => p'.state = p.state) w.cubic w'.cubic
  minJerk : Both (fun p p' => p'.state = p.state) w.minJerk w'.minJerk
  zmp : Both (fun p p' => ZmpStateMirrored p.state p'.state) w.zmp w'.zmp
  dcm : Both (fun p p' => p'.state = Mirror.dcmState p.state) w.dcm w'.dcm
  height : Both (fun p p' => p'.state = p.state) w.height w'.height

/-- The robot stands, both feet have touched the ground at the same time. -/
def StandsTied (left right : FootPrint K) : Prop :=
  ∃ a b : Step K, left.steps = [a] ∧ right.steps = [b] ∧ a.impactTime = b.impactTime

/-- Two generators that have computed the same walk, one of them in the mirror. -/
structure WalkMirrored (w w' : Walker K) : Prop where
  settings : SettingsMirrored w w'
  left : w'.left = Mirror.footPrint w.right
  right : w'.right = Mirror.footPrint w.left
  outputs : ¬ StandsTied w.left w.right → w'.outputs = Mirror.outputs w.outputs
  cubic : Both (fun p p' => p'.result = p.result.map Mirror.feet) w.cubic w'.cubic
  minJerk : Both (fun p p' => p'.result = p.result.map Mirror.feet) w.minJerk w'.minJerk
  zmp : Both (fun p p' => Both ZmpOutMirrored p.result p'.result) w.zmp w'.zmp
  dcm : Both (fun p p' => ∃ ph, w.outputs.phases = some ph ∧ Both (DcmOutMirrored ph.1) p.result p'.result) w.dcm w'.dcm
  height : Both (fun p p' => p'.result = p.result) w.height w'.height

/-! ## Histories -/

/-- A setting of the ZMP generator. -/
def Mirror.zmpOp : Walker.ZmpOp K → Walker.ZmpOp K
  | .setWeightInitialState m => .setWeightInitialState (Mirror.weight m)
  | .setPreviousSteps l r => .setPreviousSteps (Mirror.step r) (Mirror.step l)
  | .setStanceZMPDelta l r => .setStanceZMPDelta (Mirror.vector r) (Mirror.vector l)
  | .setInitialSwitchZMPDelta l r => .setInitialSwitchZMPDelta (Mirror.vector r) (Mirror.vector l)

/-- A setting of the DCM generator. -/
def Mirror.dcmOp : Walker.DcmOp K → Walker.DcmOp K
  | .setDCMInitialState p v => .setDCMInitialState (Mirror.vector p) (Mirror.vector v)
  | .setFootOriginOffset l r => .setFootOriginOffset (Mirror.vector r) (Mirror.vector l)
  | o => o

/-- A setting. -/
def Mirror.op : Walker.Op K → Walker.Op K
  | .zmp o => .zmp (Mirror.zmpOp o)
  | .dcm o => .dcm (Mirror.dcmOp o)
  | o => o

/-- A request of trajectories for given footprints. -/
structure Footsteps (K : Type) where
  left : FootPrint K
  right : FootPrint K
  initTime : K
  dT : K

/-- The request in the mirror. -/
def Mirror.footsteps (q : Footsteps K) : Footsteps K := ⟨Mirror.footPrint q.right, Mirror.footPrint q.left, q.initTime, q.dT⟩

/-- The event in the mirror. -/
def Mirror.event : Walker.Op K ⊕ Footsteps K → Walker.Op K ⊕ Footsteps K
  | .inl o => .inl (Mirror.op o)
  | .inr q => .inr (Mirror.footsteps q)

/-- The generator after a sequence of settings and of requests, if all these are satisfied. -/
def afterWalks {K : Type} [Field K] [LinearOrder K] [FloorRing K] [Trig K] (sort : Walker.Sorter K) (w : Walker K) :
    List (Walker.Op K ⊕ Footsteps K) → Option (Walker K)
  | [] => some w
  | .inl o :: es => afterWalks sort (w.run o) es
  | .inr q :: es =>
    match w.generateFromFootPrints q.left q.right q.initTime q.dT (sort q.left q.right) with
    | .ok (true, w) => afterWalks sort w es
    | _ => none

end Uni.Spec
