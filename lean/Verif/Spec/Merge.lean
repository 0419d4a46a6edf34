import Verif.Spec.Walker

/-! # Walks that replace a walk in execution -/

set_option autoImplicit false

namespace Uni.Spec
open Walker
variable {K : Type} [Field K] [LinearOrder K] [FloorRing K] [Trig K]

/-- Time of the first sample and sampling period of a call that generates. -/
def timesOf : Call K → K × K
  | .fromFootPrints _ _ t dT => (t, dT)
  | .generate t dT _ => (t, dT)
  | .reGenerate t dT _ _ => (t, dT)

/-- The time of sample `j` of the walk generated by a call. -/
def timeOf (c : Call K) (j : Nat) : K := j * (timesOf c).2 + (timesOf c).1

/-- Every phase of the walk has a sample. -/
def NoEmptyPhase (sort : Sorter K) (w : Walker K) (time dT : K) : Prop :=
  ∀ ordered t, Gen.timeline w.cfg w.left w.right time dT (sort w.left w.right) = .ok (ordered, t) → t.shifts.Pairwise (· < ·)

/-- Both feet are on the ground at sample `j`. -/
def BothDown (w : Walker K) (j : Nat) : Prop :=
  w.outputs.leftContact[j]? = some true ∧ w.outputs.rightContact[j]? = some true

/-- The walk `old`, generated by the call `c`, is replaced by `new` at its sample `m`, which is merge point number `k`: the generators
of the ZMP and of the DCM are given their state there, the planner may be given new orders, and the walk is planned again from
the time of the sample, with sampling period `dT`. -/
structure Merging (integ : Integrator K) (sort : Sorter K) (before old new : Walker K) (c : Call K) (k m : Nat) (q : Gen.Request K)
    (dT : K) : Prop where
  reached : Reached integ sort before
  generated : ∃ fuel, before.call integ fuel sort c = .done true old
  point : old.outputs.merges[k]? = some m
  replanned : ∃ (fuel : Nat) (changes : List (Planner.Op K)) (weight : Motion K) (pos vel : Vec2 K) (endTime : K),
    (∀ p, old.zmp = some p → p.state.initStates[k]? = some weight) ∧
    (∀ p o, old.dcm = some p → p.result = some o → ∃ s, o.samples[m]? = some s ∧ s.pos = pos ∧ s.vel = vel) ∧
    (old.runAll (changes.map .planner ++ [.zmp (.setWeightInitialState weight), .dcm (.setDCMInitialState pos vel)])).reGenerate
      integ fuel sort (timeOf c m) dT endTime q = .done true new

/-- Two trajectories of the feet: sample `m` of the first one is the first sample of the second one. -/
def FeetContinue {S : Type} (old new : Option (Plugin S (FeetOut K))) (m : Nat) : Prop :=
  ∀ p p', old = some p → new = some p' → ∃ lo ro lo' ro' a b, p.result = some (lo, ro) ∧ p'.result = some (lo', ro') ∧
    lo[m]? = some a ∧ lo'[0]? = some a ∧ ro[m]? = some b ∧ ro'[0]? = some b

/-- The measured pose of a foot, if the request has one. -/
def measuredOf (left : Bool) : Gen.Request K → Option (Vec2 K × K)
  | .plain => none
  | .steps l r => some (if left then (l.position, l.angle) else (r.position, r.angle))
  | .oneFoot b p a => if b = left then some (p, a) else none
  | .twoFeet pl al pr ar => some (if left then (pl, al) else (pr, ar))

/-- The angle of the rotation from the orientation `a` to the orientation `b`. -/
def turnBetween (a b : K) : K :=
  Trig.atan2 (Trig.cos a * Trig.sin b - Trig.sin a * Trig.cos b) (Trig.cos a * Trig.cos b + Trig.sin a * Trig.sin b)

/-- The sample `a` of a foot at rest, moved to a measured pose if there is one. -/
def movedTo (measured : Option (Vec2 K × K)) (a : FootSample K) : FootSample K :=
  match measured with
  | none => a
  | some (p, angle) => { a with pos := ⟨p.x, p.y, a.pos.z⟩, yaw := a.yaw + turnBetween a.yaw angle }

/-- Two trajectories of the feet: the first sample of the second one is sample `m` of the first one, except that the feet with a
measurement are moved to it. -/
def FeetCorrected {S : Type} (old new : Option (Plugin S (FeetOut K))) (m : Nat) (q : Gen.Request K) : Prop :=
  ∀ p p', old = some p → new = some p' → ∃ lo ro lo' ro', p.result = some (lo, ro) ∧ p'.result = some (lo', ro') ∧
    ∀ f : Bool, ∃ a, (if f then lo else ro)[m]? = some a ∧ (if f then lo' else ro')[0]? = some (movedTo (measuredOf f q) a)

end Uni.Spec
