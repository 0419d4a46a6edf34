import Verif.Model.Walker

/-! # What the names of the feet are: the same objects with other names -/

set_option autoImplicit false

namespace Uni.Spec.Names
variable {K : Type}

/-- The names are replaced with the function `ρ`: a step. -/
def step (ρ : String → String) (s : Step K) : Step K := ⟨s.position, s.angle, s.impactTime, ρ s.footName⟩

/-- A footprint: its own name and the names of its steps. -/
def footPrint (ρ : String → String) (f : FootPrint K) : FootPrint K := ⟨f.steps.map (step ρ), ρ f.footName⟩

/-- A pointer to a step. -/
def ptr (ρ : String → String) (q : Ptr K) : Ptr K := ⟨q.left, q.index, step ρ q.step⟩

/-- The ZMP generator: the previous steps it has been told. -/
def zmp (ρ : String → String) (z : Zmp K) : Zmp K :=
  { z with previousLeft := step ρ z.previousLeft, previousRight := step ρ z.previousRight }

/-- The generator: the footprints and the previous steps. -/
def walker (ρ : String → String) (w : Walker K) : Walker K :=
  { w with left := footPrint ρ w.left, right := footPrint ρ w.right,
           zmp := w.zmp.map fun p => ⟨zmp ρ p.state, p.result⟩ }

/-- The outcome of a call. -/
def result (ρ : String → String) : Walker.Result K → Walker.Result K
  | .done b w => .done b (walker ρ w)
  | .ub why => .ub why
  | .outOfFuel => .outOfFuel

/-- The outcome of a call of the planner. -/
def planResult (ρ : String → String) : PlanResult K → PlanResult K
  | .done b p l r => .done b p (footPrint ρ l) (footPrint ρ r)
  | .ub why => .ub why
  | .outOfFuel => .outOfFuel

/-- The arguments of a call. -/
def call (ρ : String → String) : Walker.Call K → Walker.Call K
  | .fromFootPrints l r t dT => .fromFootPrints (footPrint ρ l) (footPrint ρ r) t dT
  | .generate t dT e => .generate t dT e
  | .reGenerate t dT e q => .reGenerate t dT e q

/-- Measured contacts with any other names. -/
def SameContacts : Gen.Request K → Gen.Request K → Prop
  | .steps l r, .steps l' r' =>
    (l'.position = l.position ∧ l'.angle = l.angle ∧ l'.impactTime = l.impactTime) ∧
      r'.position = r.position ∧ r'.angle = r.angle ∧ r'.impactTime = r.impactTime
  | q, q' => q' = q

/-- The sort does not look at the names. -/
def Blind (ρ : String → String) (sort sort' : Walker.Sorter K) : Prop :=
  ∀ l r, sort' (footPrint ρ l) (footPrint ρ r) = (sort l r).map (ptr ρ)

/-- The steps of a footprint carry its name. -/
def Consistent (f : FootPrint K) : Prop := ∀ s ∈ f.steps, s.footName = f.footName

end Uni.Spec.Names
