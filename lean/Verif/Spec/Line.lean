import Verif.Spec.Stop

/-! # Walking along one line -/

set_option autoImplicit false

namespace Uni.Spec

/-- The robot is driven directly, by the command `cmd`, which is within the limits; steps take time. -/
structure ToldTo (cmd : Control ℝ) (p : Planner ℝ) : Prop where
  controller : p.controller = .direct
  command : p.ctrl.direct.desired = cmd
  minTime : 0 < p.minTime
  integratorStep : 0 < p.integratorStep
  limits : WithinLimits p cmd

/-- A command to go straight forward or backward, or to turn on the spot. -/
def Unswerving (cmd : Control ℝ) : Prop := cmd.lateral = 0 ∧ Plain cmd

/-- The pose of the unicycle to which a contact of the left (right) foot belongs. -/
noncomputable def poseOf (p : Planner ℝ) (left : Bool) (s : Step ℝ) : UState ℝ := stateFor (if left then leftFoot p ⟨[], ""⟩ else rightFoot p ⟨[], ""⟩) s

/-- The foot stands beside a pose that the unicycle reaches from the pose `u` by the command `cmd`. -/
def BesideWay (p : Planner ℝ) (u : UState ℝ) (cmd : Control ℝ) (left : Bool) (s : Step ℝ) : Prop :=
  ∃ r, 0 ≤ r ∧ poseOf p left s = goOn u cmd r

/-- All contacts of the walk are beside the way from `u` by the command `cmd`. -/
def AllBeside (p : Planner ℝ) (u : UState ℝ) (cmd : Control ℝ) (w : Walker ℝ) : Prop :=
  (∀ s ∈ w.left.steps, BesideWay p u cmd true s) ∧ ∀ s ∈ w.right.steps, BesideWay p u cmd false s

/-- The contact `y` is not behind the contact `x`: the command `cmd` leads from the pose of `x` to the pose of `y`. -/
def NotBehind (p : Planner ℝ) (cmd : Control ℝ) (f g : Bool) (x y : Step ℝ) : Prop := ∃ s, 0 ≤ s ∧ poseOf p g y = goOn (poseOf p f x) cmd s

/-- No contact is behind one that was made before, or at the same time. -/
def Advances (p : Planner ℝ) (cmd : Control ℝ) (left right : List (Step ℝ)) : Prop :=
  ∀ f g : Bool, ∀ x ∈ (if f then left else right), ∀ y ∈ (if g then left else right), x.impactTime ≤ y.impactTime → NotBehind p cmd f g x y

/-- When a walk is replaced. -/
def leavingTime (dT : ℝ) (l : Leg ℝ) : ℝ := l.count * dT + l.start

end Uni.Spec
