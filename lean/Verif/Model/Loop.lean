import Verif.Model.Generator

/-! # The loop shared by the trajectory generators

`FeetMinimumJerkGenerator`, `FeetCubicSplineGenerator`, `CoMHeightTrajectoryGenerator` and `ZMPTrajectoryGenerator` all
contain the same loop

```
size_t instant = 0;
for (size_t phase = 1; phase < phaseShift.size(); ++phase) {
    endOfPhase = phaseShift[phase];
    if (stepPhase[instant] == ...) ... while (instant < endOfPhase) { output[instant] = ...; ++instant; }
}
```
(src/FeetMinimumJerkGenerator.cpp:95-282, src/FeetCubicSplineGenerator.cpp:85-197, src/CoMHeightTrajectoryGenerator.cpp:62-101,
src/ZMPTrajectoryGenerator.cpp).  It is modelled once. -/

set_option autoImplicit false

namespace Uni

/-- The loop over the phases.  `body phase last p start stop s` are the statements executed for the phase number `phase`
(`last` if no phase follows), where `p` is the element of the phase vector at the index `start` and the samples to be written
are `start, …, stop - 1`; it returns the new values of the local variables and these samples.

The phase vector is read at `start` also if the phase is empty, and a read past its end is undefined.  The output vectors have
the size of the phase vector: a write past their end is undefined too (the model does not look at the body in that case).
A phase that ends before it begins (never produced by `createPhasesTimings`) makes `endOfPhase - instant` wrap.
Elements of the output that no phase covers are not part of the result. -/
def phaseLoop {S O : Type} (body : Nat → Bool → Phase → Nat → Nat → S → Out (S × List O)) (phases : List Phase) :
    List Nat → Nat → Nat → S → Out (S × List O)
  | [], _, _, s => .ok (s, [])
  | stop :: rest, phase, start, s =>
    match phases[start]? with
    | none => .ub .outOfRange
    | some p =>
      if phases.length < stop then .ub .outOfRange
      else if stop < start then .ub .unsignedWrap
      else do
        let a ← body phase rest.isEmpty p start stop s
        let b ← phaseLoop body phases rest (phase + 1) stop a.1
        .ok (b.1, a.2 ++ b.2)

/-- `phaseShift` as it is used by the loop: "the first value is useless". -/
def overPhases {S O : Type} (body : Nat → Bool → Phase → Nat → Nat → S → Out (S × List O)) (phases : List Phase)
    (shifts : List Nat) (s : S) : Out (S × List O) := phaseLoop body phases shifts.tail 1 0 s

end Uni
