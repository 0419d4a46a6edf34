import Verif.Model.Basic

/-! # What a plan is: the landings added by one planning call, in the order they were added -/

set_option autoImplicit false

namespace Uni.Spec
variable {K : Type*}

/-- How a step was decided: by the optimisation, as a step closing the feet because nothing feasible was
found in time, or by the terminal step. -/
inductive StepKind
  | optimised
  | parallel
  | terminal
  deriving DecidableEq, Repr

/-- A landing: which foot, which step. -/
structure Landing (K : Type*) where
  left : Bool
  step : Step K
  kind : StepKind

/-- The steps of one foot in a log. -/
def stepsOf (left : Bool) (log : List (Landing K)) : List (Step K) :=
  (log.filter (fun e => e.left == left)).map (fun e => e.step)

/-- The landings alternate between the feet, the first one being of the given foot. -/
def Alternates : Bool → List (Landing K) → Prop
  | _, [] => True
  | b, e :: es => e.left = b ∧ Alternates (!b) es

/-- Each landing satisfies `P` with respect to the step the robot is standing on, which is the
previous landing (for the first one: `prev`). -/
def Along (P : Step K → Landing K → Prop) : Step K → List (Landing K) → Prop
  | _, [] => True
  | prev, e :: es => P prev e ∧ Along P e.step es

theorem Along.mono {P Q : Step K → Landing K → Prop} (h : ∀ s e, P s e → Q s e) :
    ∀ {log : List (Landing K)} {prev : Step K}, Along P prev log → Along Q prev log
  | [], _, _ => trivial
  | _ :: _, _, ha => ⟨h _ _ ha.1, ha.2.mono h⟩

theorem Along.all {Q : Landing K → Prop} :
    ∀ {log : List (Landing K)} {prev : Step K}, Along (fun _ e => Q e) prev log → ∀ e ∈ log, Q e
  | [], _, _, _, h => absurd h (by simp)
  | _ :: _, _, ha, e, h => by
    rcases List.mem_cons.mp h with rfl | h
    · exact ha.1
    · exact ha.2.all e h

theorem Along.and {P Q : Step K → Landing K → Prop} :
    ∀ {log : List (Landing K)} {prev : Step K}, Along (fun s e => P s e ∧ Q s e) prev log →
      Along P prev log ∧ Along Q prev log
  | [], _, _ => ⟨trivial, trivial⟩
  | _ :: _, _, ha => ⟨⟨ha.1.1, ha.2.and.1⟩, ⟨ha.1.2, ha.2.and.2⟩⟩

end Uni.Spec
