import Verif.Model.Loop
import Verif.Model.PlannerSettings

/-! # `FeetMinimumJerkGenerator` (src/FeetMinimumJerkGenerator.cpp) -/

set_option autoImplicit false

namespace Uni

/-- A vector of three components. -/
@[ext] structure Vec3 (K : Type*) where
  x : K
  y : K
  z : K
  deriving DecidableEq, Repr

/-- One sample of the trajectory of a foot: position, roll-pitch-yaw angles (the roll is always zero), the twist in mixed
representation (linear part `vel`, angular part `omega`), its derivative. -/
@[ext] structure FootSample (K : Type*) where
  pos : Vec3 K
  pitch : K
  yaw : K
  vel : Vec3 K
  omega : Vec3 K
  acc : Vec3 K
  alpha : Vec3 K
  deriving DecidableEq, Repr

/-- The parameters of the two feet generators, src/FeetMinimumJerkGenerator.cpp:20, src/FeetCubicSplineGenerator.cpp. -/
@[ext] structure FeetSettings (K : Type*) where
  stepHeight : K
  pitchDelta : K
  swingApex : K
  landingVelocity : K
  deriving DecidableEq, Repr

/-- A point of a one-dimensional motion: position, velocity, acceleration. -/
@[ext] structure Motion (K : Type*) where
  pos : K
  vel : K
  acc : K
  deriving DecidableEq, Repr

variable {K : Type} [Field K] [LinearOrder K]

/-- `minimumJerk`, src/FeetMinimumJerkGenerator.cpp:42-66.  A zero duration (a NaN or an infinity in the code) is a distinct
outcome. -/
def minimumJerk (initial final t duration : K) : Out (Motion K) :=
  if duration = 0 then .ub .divByZero
  else
    let s := t / duration
    if s < 0 ∨ 1 < s then .fail
    else
      let p := 6 * s ^ 5 - 15 * s ^ 4 + 10 * s ^ 3
      let dp := (5 * 6 * s ^ 4 - 4 * 15 * s ^ 3 + 3 * 10 * s ^ 2) / duration
      let ddp := (4 * 5 * 6 * s ^ 3 - 3 * 4 * 15 * s ^ 2 + 2 * 3 * 10 * s) / duration ^ 2
      .ok ⟨p * (final - initial) + initial, dp * (final - initial), ddp * (final - initial)⟩

variable [Trig K]

/-- `RPYRightTrivializedDerivative(0, pitch, yaw) * rpyDerivative` with a zero roll rate. -/
def rightTrivialized (yaw pitchRate yawRate : K) : Vec3 K :=
  ⟨-Trig.sin yaw * pitchRate, Trig.cos yaw * pitchRate, yawRate⟩

/-- `RPYRightTrivializedDerivativeRateOfChange(0, pitch, yaw, 0, pitchRate, yawRate) * rpyDerivative +
RPYRightTrivializedDerivative(0, pitch, yaw) * rpySecondDerivative` with zero roll rate and acceleration. -/
def rightTrivializedRate (yaw pitchRate yawRate pitchAcc yawAcc : K) : Vec3 K :=
  ⟨-Trig.cos yaw * yawRate * pitchRate + -Trig.sin yaw * pitchAcc,
   -Trig.sin yaw * yawRate * pitchRate + Trig.cos yaw * pitchAcc, yawAcc⟩

/-- What is written for an instant of a swing, src/FeetMinimumJerkGenerator.cpp:173-197, 240-265. -/
def sampleOf (x y z pitch yaw : Motion K) : FootSample K where
  pos := ⟨x.pos, y.pos, z.pos⟩
  pitch := pitch.pos
  yaw := yaw.pos
  vel := ⟨x.vel, y.vel, z.vel⟩
  omega := rightTrivialized yaw.pos pitch.vel yaw.vel
  acc := ⟨x.acc, y.acc, z.acc⟩
  alpha := rightTrivializedRate yaw.pos pitch.vel yaw.vel pitch.acc yaw.acc

/-- What is written for an instant of contact, src/FeetMinimumJerkGenerator.cpp:267-279. -/
def restAt (s : Step K) : FootSample K where
  pos := ⟨s.position.x, s.position.y, 0⟩
  pitch := 0
  yaw := s.angle
  vel := ⟨0, 0, 0⟩
  omega := ⟨0, 0, 0⟩
  acc := ⟨0, 0, 0⟩
  alpha := ⟨0, 0, 0⟩

/-- A phase for one foot (common to both feet generators): `steps` is the part of the step list that begins at `footState`;
`swing from to n` gives the samples of a swing.  src/FeetMinimumJerkGenerator.cpp:99-281. -/
def footBody (swing : Step K → Step K → Nat → Out (List (FootSample K))) (_phase : Nat) (_last : Bool) (p : Phase)
    (start stop : Nat) (steps : List (Step K)) : Out (List (Step K) × List (FootSample K)) :=
  match steps with
  | [] => .ub .badIterator
  | s :: rest =>
    if p = .swing then
      match rest with
      | [] => .fail
      | s' :: _ => do
        let l ← swing s s' (stop - start)
        .ok (rest, l)
    else .ok (s :: rest, List.replicate (stop - start) (restAt s))

namespace MinJerk

/-- The sample number `j` of a swing of `n` samples from `s` to `s'`.  `z0`, `z1`, `p0`, `p1` are the heights and pitches at
the ends of the current half, `j0` the first sample of the half, `half` its duration.
src/FeetMinimumJerkGenerator.cpp:140-201, 206-264. -/
def swingSample (dT : K) (s s' : Step K) (n : Nat) (z0 z1 p0 p1 half : K) (j0 j : Nat) : Out (FootSample K) := do
  let swingLength := (n : K) * dT
  let t := (j : K) * dT
  let x ← minimumJerk s.position.x s'.position.x t swingLength
  let y ← minimumJerk s.position.y s'.position.y t swingLength
  let z ← minimumJerk z0 z1 (t - (j0 : K) * dT) half
  let pitch ← minimumJerk p0 p1 (t - (j0 : K) * dT) half
  let yaw ← minimumJerk s.angle s'.angle t swingLength
  .ok (sampleOf x y z pitch yaw)

/-- A sequence of samples, the first failure stops it. -/
def collect {α : Type} (f : Nat → Out α) : List Nat → Out (List α)
  | [] => .ok []
  | j :: l => do
    let a ← f j
    let b ← collect f l
    .ok (a :: b)

variable [FloorRing K]

/-- `round((endOfPhase - startSwingInstant) * swingApex)`: number of samples of the first half,
src/FeetMinimumJerkGenerator.cpp:138.  (The comparison is made between doubles; a negative value gives no iteration.) -/
def rising (cfg : FeetSettings K) (n : Nat) : Nat := (stdRound ((n : K) * cfg.swingApex)).toNat

/-- The samples of a swing of `n` samples, src/FeetMinimumJerkGenerator.cpp:105-265.  `swingApex < 1`, so the first loop does
not go past the end of the phase (`rising_le`). -/
def swing (cfg : FeetSettings K) (dT : K) (s s' : Step K) (n : Nat) : Out (List (FootSample K)) := do
  let swingLength := (n : K) * dT
  let m := rising cfg n
  let up ← collect (swingSample dT s s' n 0 cfg.stepHeight 0 cfg.pitchDelta (swingLength * cfg.swingApex) 0) (List.range m)
  let down ← collect (swingSample dT s s' n cfg.stepHeight 0 cfg.pitchDelta 0 (swingLength * (1 - cfg.swingApex)) m)
    (List.range' m (n - m))
  .ok (up ++ down)

/-- `interpolateFoot`, src/FeetMinimumJerkGenerator.cpp:69-286. -/
def interpolateFoot (cfg : FeetSettings K) (dT : K) (shifts : List Nat) (phases : List Phase) (steps : List (Step K)) :
    Out (List (FootSample K)) :=
  if cfg.stepHeight < 0 then .fail
  else do
    let r ← overPhases (footBody (swing cfg dT)) phases shifts steps
    .ok r.2

/-- `computeNewTrajectories`, src/FeetMinimumJerkGenerator.cpp:295-310. -/
def computeNewTrajectories (cfg : FeetSettings K) (dT : K) (left right : FootPrint K) (lp rp : List Phase)
    (shifts : List Nat) : Out (List (FootSample K) × List (FootSample K)) := do
  let l ← interpolateFoot cfg dT shifts lp left.steps
  let r ← interpolateFoot cfg dT shifts rp right.steps
  .ok (l, r)

end MinJerk

namespace FeetSettings

/-- Initial values, src/FeetMinimumJerkGenerator.cpp:20. -/
def new : FeetSettings K := ⟨-1, 0, 1 / 2, 0⟩

/-- The setters, src/FeetMinimumJerkGenerator.cpp:316-360. -/
inductive Op (K : Type)
  | setStepHeight (h : K)
  | setPitchDelta (p : K)
  | setFootApexTime (r : K)
  | setFootLandingVelocity (v : K)

/-- Effect of a setter, src/FeetMinimumJerkGenerator.cpp:316-360. -/
def run (s : FeetSettings K) : Op K → Bool × FeetSettings K
  | .setStepHeight h => if h < 0 then (false, s) else (true, { s with stepHeight := h })
  | .setPitchDelta p => (true, { s with pitchDelta := Planner.deg2rad p })
  | .setFootApexTime r => if r ≤ 0 ∨ 1 ≤ r then (false, s) else (true, { s with swingApex := r })
  | .setFootLandingVelocity v => (true, { s with landingVelocity := v })

/-- A sequence of setter calls. -/
def runAll (s : FeetSettings K) (ops : List (Op K)) : FeetSettings K := ops.foldl (fun s o => (s.run o).2) s

end FeetSettings
end Uni
