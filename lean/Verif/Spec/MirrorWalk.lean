import Verif.Spec.MirrorPlan
import Verif.Spec.Ties

/-! # Requests to the generator in a mirror -/

set_option autoImplicit false

namespace Uni.Spec

namespace Mirror
variable {K : Type} [Ring K]

/-- A setting of the generator or of its planner. -/
def walkerOp : Walker.Op K → Walker.Op K
  | .planner o => .planner (plannerOp o)
  | o => Mirror.op o

/-- The measured contacts: those of the other foot. -/
def request : Gen.Request K → Gen.Request K
  | .plain => .plain
  | .steps l r => .steps (step r) (step l)
  | .oneFoot b p a => .oneFoot (!b) (vector p) (-a)
  | .twoFeet pL aL pR aR => .twoFeet (vector pR) (-aR) (vector pL) (-aL)

/-- A request. -/
def call : Walker.Call K → Walker.Call K
  | .fromFootPrints l r t dT => .fromFootPrints (footPrint r) (footPrint l) t dT
  | .generate t dT e => .generate t dT e
  | .reGenerate t dT e q => .reGenerate t dT e (request q)
end Mirror

/-- Two generators, one of them in the mirror. -/
structure WalkersMirrored {K : Type} [Ring K] [LinearOrder K] (w w' : Walker K) : Prop where
  settings : SettingsMirrored w w'
  planner : PlannerMirrored w.planner w'.planner
  left : w'.left = Mirror.footPrint w.right
  right : w'.right = Mirror.footPrint w.left

/-- The measured contacts leave the feet parallel: the feet are both found turned in the same way, less than half a turn from the
direction `a` in which they should stand, and if only one of them is corrected, it is found in that direction. -/
def Parallel (a : ℝ) : Gen.Request ℝ → Prop
  | .plain => True
  | .steps l r => l.angle = r.angle ∧ |l.angle - a| < Real.pi
  | .oneFoot _ _ b => b = a
  | .twoFeet _ b _ c => b = c ∧ |b - a| < Real.pi

/-- The requests during which the robot does not turn. -/
def CallStraight (integ : Integrator ℝ) (w : Walker ℝ) : Walker.Call ℝ → Prop
  | .fromFootPrints _ _ _ _ => True
  | .generate _ _ _ => IntegratorMirrored w.planner integ ∧ NeverTurns w.planner integ ∧ FeetAhead w.planner w.left w.right
  | .reGenerate _ _ _ q => IntegratorMirrored w.planner integ ∧ NeverTurns w.planner integ ∧ w.planner.leftYaw = 0 ∧
    w.planner.rightYaw = 0 ∧ ∃ a, (∀ s ∈ w.left.steps ++ w.right.steps, s.angle = a) ∧ Parallel a q

/-- The generator after a sequence of settings and of requests, if all these are satisfied. -/
noncomputable def afterCalls (integ : Integrator ℝ) (fuel : Nat) (sort : Walker.Sorter ℝ) (w : Walker ℝ) :
    List (Walker.Op ℝ ⊕ Walker.Call ℝ) → Option (Walker ℝ)
  | [] => some w
  | .inl o :: es => afterCalls integ fuel sort (w.run o) es
  | .inr c :: es =>
    match w.call integ fuel sort c with
    | .done true w => afterCalls integ fuel sort w es
    | _ => none

/-- The settings and requests of the mirror. -/
def Mirror.events (es : List (Walker.Op ℝ ⊕ Walker.Call ℝ)) : List (Walker.Op ℝ ⊕ Walker.Call ℝ) :=
  es.map (Sum.map Mirror.walkerOp Mirror.call)

/-- During all the requests of a history the robot does not turn, and only first contacts are simultaneous. -/
def StraightHistory (integ : Integrator ℝ) (fuel : Nat) (sort : Walker.Sorter ℝ) (w : Walker ℝ) :
    List (Walker.Op ℝ ⊕ Walker.Call ℝ) → Prop
  | [] => True
  | .inl o :: es => StraightHistory integ fuel sort (w.run o) es
  | .inr c :: es => CallUntied w c ∧ CallStraight integ w c ∧
    ∀ w1, w.call integ fuel sort c = .done true w1 → StraightHistory integ fuel sort w1 es

end Uni.Spec
