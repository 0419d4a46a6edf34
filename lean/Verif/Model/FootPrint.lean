import Verif.Model.Basic

/-! # `FootPrint` (src/FootPrint.cpp) -/

set_option autoImplicit false

namespace Uni
variable {K : Type*}

/-- `class FootPrint` (include/FootPrint.h:24-26).  The shared pointer `m_steps` is represented by the
list it points to: both constructors leave it non-null (src/FootPrint.cpp:12-21; the second one
dereferences its argument), so the `!m_steps` guards never fire.  Sharing one `StepList` between
several footprints is not modelled. -/
@[ext] structure FootPrint (K : Type*) where
  steps : List (Step K)
  footName : String
  deriving DecidableEq, Repr

namespace FootPrint

/-- `FootPrint::FootPrint()`, src/FootPrint.cpp:12-15. -/
def empty : FootPrint K := ⟨[], "footprint"⟩

/-- `FootPrint::FootPrint(std::shared_ptr<StepList>&)`, src/FootPrint.cpp:17-21: the result of
the (unstable) `std::sort` is `sorted`, any sorted permutation of the given list. -/
def FromSteps [LE K] (given : List (Step K)) (fp : FootPrint K) : Prop :=
  fp.footName = "footprint" ∧ fp.steps.Perm given ∧
    fp.steps.Pairwise (fun a b => a.impactTime ≤ b.impactTime)

/-- `FootPrint::addStep(position, theta, impactTime)`, src/FootPrint.cpp:23-45. -/
def addStepRaw [Zero K] [LT K] [DecidableLT K] (fp : FootPrint K) (position : Vec2 K) (theta impactTime : K) :
    Bool × FootPrint K :=
  if impactTime < 0 then (false, fp)
  else (true, { fp with steps := fp.steps ++ [⟨position, theta, impactTime, fp.footName⟩] })

/-- `FootPrint::addStep(const Step&)`, src/FootPrint.cpp:47-50 (the name in the argument is ignored). -/
def addStep [Zero K] [LT K] [DecidableLT K] (fp : FootPrint K) (s : Step K) : Bool × FootPrint K :=
  fp.addStepRaw s.position s.angle s.impactTime

/-- `FootPrint::getLastStep`, src/FootPrint.cpp:52-62 (`none` is `return false`). -/
def getLastStep (fp : FootPrint K) : Option (Step K) := fp.steps.getLast?

/-- `FootPrint::numberOfSteps`, src/FootPrint.cpp:100-106. -/
def numberOfSteps (fp : FootPrint K) : Nat := fp.steps.length

/-- `FootPrint::dropPastSteps`, src/FootPrint.cpp:64-70: erases `[begin, begin + (n-1))`. -/
def dropPastSteps (fp : FootPrint K) : Bool × FootPrint K :=
  if fp.numberOfSteps < 1 then (false, fp)
  else (true, { fp with steps := fp.steps.drop (fp.numberOfSteps - 1) })

/-- `FootPrint::clearSteps`, src/FootPrint.cpp:89-92. -/
def clearSteps (fp : FootPrint K) : FootPrint K := { fp with steps := [] }

/-- `FootPrint::clearLastStep`, src/FootPrint.cpp:94-98. -/
def clearLastStep (fp : FootPrint K) : FootPrint K :=
  if fp.numberOfSteps ≠ 0 then { fp with steps := fp.steps.dropLast } else fp

/-- `FootPrint::keepOnlyPresentStep`, src/FootPrint.cpp:72-87: reverse `find_if`, then `clearSteps`
and `addStep` of the found step. -/
def keepOnlyPresentStep [Zero K] [LE K] [DecidableLE K] [LT K] [DecidableLT K]
    (fp : FootPrint K) (time : K) : Bool × FootPrint K :=
  match fp.steps.reverse.find? (fun a => decide (a.impactTime ≤ time)) with
  | none => (false, fp)
  | some presentStep => fp.clearSteps.addStep presentStep

/-- `FootPrint::setFootName`, src/FootPrint.cpp:118-121. -/
def setFootName (fp : FootPrint K) (name : String) : FootPrint K := { fp with footName := name }

/-- The mutating public methods of `FootPrint` other than `setFootName`, with their arguments. -/
inductive Op (K : Type*)
  | addStep (s : Step K)
  | addStepRaw (position : Vec2 K) (theta impactTime : K)
  | dropPastSteps
  | keepOnlyPresentStep (time : K)
  | clearSteps
  | clearLastStep

/-- Dispatch of one call; `void` methods report `true`. -/
def run [Zero K] [LE K] [DecidableLE K] [LT K] [DecidableLT K] (fp : FootPrint K) : Op K → Bool × FootPrint K
  | .addStep s => fp.addStep s
  | .addStepRaw p θ t => fp.addStepRaw p θ t
  | .dropPastSteps => fp.dropPastSteps
  | .keepOnlyPresentStep t => fp.keepOnlyPresentStep t
  | .clearSteps => (true, fp.clearSteps)
  | .clearLastStep => (true, fp.clearLastStep)

/-- State after a sequence of calls. -/
def runAll [Zero K] [LE K] [DecidableLE K] [LT K] [DecidableLT K] (fp : FootPrint K) (ops : List (Op K)) :
    FootPrint K :=
  ops.foldl (fun s o => (s.run o).2) fp

end FootPrint
end Uni
