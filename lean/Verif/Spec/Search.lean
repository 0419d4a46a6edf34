import Mathlib.Algebra.Order.Field.Basic

/-! # The search for the next landing time

A search examines an ordered sequence of sample times.  A sample may come too early (gate), or the moving
foot would hardly move (tiny): the robot is then considered to be standing still and a period is added to
the pause.  The duration of a step is net of the pause.  A candidate is a sample at which the step is
possible.  When the step is due (its net duration exceeds the maximum, or the horizon ends) the best
candidate is chosen, if any. -/

set_option autoImplicit false

namespace Uni.Spec
variable {K : Type*}

/-- The data of a search. -/
structure Search (K : Type*) where
  /-- Shortest step. -/
  minTime : K
  /-- Longest step (net of the pause). -/
  maxTime : K
  /-- Sampling period. -/
  dT : K
  /-- Landing time of the foot on the ground. -/
  prevTime : K
  /-- No landing up to this time. -/
  earliest : K
  /-- End of the horizon. -/
  endTime : K
  /-- Pause already spent when the search starts. -/
  pause0 : K
  /-- The sample times. -/
  time : Nat → K
  /-- The step at this sample would be tiny. -/
  tiny : Nat → Bool
  /-- Bringing the moving foot beside the other one would be a tiny step. -/
  closeTiny : Bool
  /-- The step at this sample with this net duration satisfies all the constraints. -/
  ok : Nat → K → Prop
  /-- Its cost. -/
  cost : Nat → K → K

namespace Search
variable [Field K] [LinearOrder K]

/-- A step landing at this sample is not too early. -/
def Gate (s : Search K) (k : Nat) : Prop := s.minTime ≤ s.time k - s.prevTime ∧ s.earliest < s.time k

instance (s : Search K) (k : Nat) : Decidable (s.Gate k) := inferInstanceAs (Decidable (_ ∧ _))

/-- The time spent standing still before sample `k`: a period for each tiny sample; when the step becomes
due and the search goes on, everything up to then counts as pause. -/
def pause (s : Search K) : Nat → K
  | 0 => s.pause0
  | k + 1 =>
    if s.Gate k then
      if s.tiny k then s.pause k + s.dT
      else if s.maxTime < s.time k - s.prevTime - s.pause k ∨ s.time k = s.endTime then s.time k - s.prevTime
      else s.pause k
    else s.pause k

/-- The net duration of a step landing at sample `k`. -/
def net (s : Search K) (k : Nat) : K := s.time k - s.prevTime - s.pause k

/-- The step is due at sample `k`. -/
def Due (s : Search K) (k : Nat) : Prop :=
  s.Gate k ∧ s.tiny k = false ∧ (s.maxTime < s.net k ∨ s.time k = s.endTime)

/-- Sample `k` is a possible landing. -/
def Candidate (s : Search K) (k : Nat) : Prop :=
  s.Gate k ∧ s.tiny k = false ∧ ¬ (s.maxTime < s.net k ∨ s.time k = s.endTime) ∧ 0 < s.net k ∧ s.ok k (s.net k)

/-- The search reaches sample `n`: no decision was taken before (each time the step was due there was no
candidate and nothing to close). -/
def Reaches (s : Search K) (n : Nat) : Prop :=
  ∀ j < n, s.time j ≤ s.endTime ∧ (s.Due j → (∀ i < j, ¬ s.Candidate i) ∧ s.closeTiny = true)

/-- At sample `n` the search ends with the landing at sample `m`: it is the candidate of least cost, the
latest one among those of least cost. -/
def Optimal (s : Search K) (n m : Nat) : Prop :=
  s.Reaches n ∧ s.time n ≤ s.endTime ∧ s.Due n ∧ m < n ∧ s.Candidate m ∧
    ∀ j < n, s.Candidate j → s.cost m (s.net m) ≤ s.cost j (s.net j) ∧
      (s.cost j (s.net j) = s.cost m (s.net m) → j ≤ m)

/-- At sample `n` the search ends without candidates: the feet are brought together then. -/
def Closes (s : Search K) (n : Nat) : Prop :=
  s.Reaches n ∧ s.time n ≤ s.endTime ∧ s.Due n ∧ (∀ j < n, ¬ s.Candidate j) ∧ s.closeTiny = false

/-- The horizon ends without a decision. -/
def Exhausted (s : Search K) : Prop := ∃ n, s.Reaches n ∧ s.endTime < s.time n

end Search
end Uni.Spec
