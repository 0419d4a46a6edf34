import Mathlib.Algebra.Order.Floor.Ring
import Mathlib.Algebra.Order.Ring.Abs
import Mathlib.Data.Rat.Floor
import Mathlib.Analysis.Real.Sqrt
import Mathlib.Analysis.SpecialFunctions.Trigonometric.Basic
import Mathlib.Analysis.SpecialFunctions.Complex.Arg

/-!
# Shared vocabulary of the model

`double` is modelled by an ordered field `K`; the definitions are generic so that they can be
executed with `K = ℚ` and reasoned about with `K = ℝ`.  IEEE rounding is not modelled.
-/

set_option autoImplicit false

universe u

namespace Uni

/-- The `<cmath>` functions used by the code.  No laws are attached: theorems which need the laws
are stated for `ℝ`. -/
class Trig (K : Type*) where
  cos : K → K
  sin : K → K
  sqrt : K → K
  exp : K → K
  tanh : K → K
  /-- `atan2 y x` -/
  atan2 : K → K → K
  pi : K

noncomputable instance : Trig ℝ where
  cos := Real.cos
  sin := Real.sin
  sqrt := Real.sqrt
  exp := Real.exp
  tanh := Real.tanh
  atan2 := fun y x => Complex.arg ⟨x, y⟩
  pi := Real.pi

@[simp] theorem cos_real (x : ℝ) : Trig.cos x = Real.cos x := rfl
@[simp] theorem sin_real (x : ℝ) : Trig.sin x = Real.sin x := rfl
@[simp] theorem sqrt_real (x : ℝ) : Trig.sqrt x = Real.sqrt x := rfl
@[simp] theorem exp_real (x : ℝ) : Trig.exp x = Real.exp x := rfl
@[simp] theorem tanh_real (x : ℝ) : Trig.tanh x = Real.tanh x := rfl
@[simp] theorem pi_real : (Trig.pi : ℝ) = Real.pi := rfl

/-- `iDynTree::Vector2`. -/
@[ext] structure Vec2 (K : Type*) where
  x : K
  y : K
  deriving DecidableEq, Repr

namespace Vec2
variable {K : Type*}

instance [Add K] : Add (Vec2 K) := ⟨fun a b => ⟨a.x + b.x, a.y + b.y⟩⟩
instance [Sub K] : Sub (Vec2 K) := ⟨fun a b => ⟨a.x - b.x, a.y - b.y⟩⟩
instance [Neg K] : Neg (Vec2 K) := ⟨fun a => ⟨-a.x, -a.y⟩⟩
instance [Zero K] : Zero (Vec2 K) := ⟨⟨0, 0⟩⟩
/-- scalar multiple -/
def smul [Mul K] (c : K) (v : Vec2 K) : Vec2 K := ⟨c * v.x, c * v.y⟩
instance [Mul K] : HMul K (Vec2 K) (Vec2 K) := ⟨smul⟩

@[simp] theorem add_x [Add K] (a b : Vec2 K) : (a + b).x = a.x + b.x := rfl
@[simp] theorem add_y [Add K] (a b : Vec2 K) : (a + b).y = a.y + b.y := rfl
@[simp] theorem sub_x [Sub K] (a b : Vec2 K) : (a - b).x = a.x - b.x := rfl
@[simp] theorem sub_y [Sub K] (a b : Vec2 K) : (a - b).y = a.y - b.y := rfl
@[simp] theorem neg_x [Neg K] (a : Vec2 K) : (-a).x = -a.x := rfl
@[simp] theorem neg_y [Neg K] (a : Vec2 K) : (-a).y = -a.y := rfl
@[simp] theorem zero_x [Zero K] : (0 : Vec2 K).x = 0 := rfl
@[simp] theorem zero_y [Zero K] : (0 : Vec2 K).y = 0 := rfl
@[simp] theorem smul_x [Mul K] (c : K) (v : Vec2 K) : (c * v).x = c * v.x := rfl
@[simp] theorem smul_y [Mul K] (c : K) (v : Vec2 K) : (c * v).y = c * v.y := rfl

/-- `Eigen::VectorXd::squaredNorm`. -/
def normSq [Mul K] [Add K] (v : Vec2 K) : K := v.x * v.x + v.y * v.y

/-- `Eigen::VectorXd::norm` for a 2-vector. -/
def norm [Mul K] [Add K] [Trig K] (v : Vec2 K) : K := Trig.sqrt v.normSq

/-- dot product -/
def dot [Mul K] [Add K] (v w : Vec2 K) : K := v.x * w.x + v.y * w.y
end Vec2

/-- Multiplication by the rotation matrix of angle `θ`
(`UnicycleFoot::computeRotationMatrix`, src/UnicycleFoot.cpp:14-28, followed by the Eigen product). -/
def rot {K : Type*} [Ring K] [Trig K] (θ : K) (v : Vec2 K) : Vec2 K :=
  ⟨Trig.cos θ * v.x - Trig.sin θ * v.y, Trig.sin θ * v.x + Trig.cos θ * v.y⟩

/-- Multiplication by the transpose of the rotation matrix of angle `θ`. -/
def rotT {K : Type*} [Ring K] [Trig K] (θ : K) (v : Vec2 K) : Vec2 K :=
  ⟨Trig.cos θ * v.x + Trig.sin θ * v.y, -(Trig.sin θ * v.x) + Trig.cos θ * v.y⟩

/-- `UnicycleState` (include/UnicycleState.h): planar position and heading of the unicycle. -/
@[ext] structure UState (K : Type*) where
  position : Vec2 K
  angle : K
  deriving DecidableEq, Repr

/-- `Step` (`struct Step`, include/FootPrint.h). -/
@[ext] structure Step (K : Type*) where
  position : Vec2 K
  angle : K
  impactTime : K
  footName : String
  deriving DecidableEq, Repr

/-- Kinds of undefined behaviour (or wrap-around) that the model keeps distinct from results. -/
inductive UB
  /-- a `size_t` subtraction whose mathematical value is negative (wraps to a huge number) -/
  | unsignedWrap
  /-- conversion of a negative `double` to `size_t` -/
  | negativeToUnsigned
  /-- `container[i]` with `i` out of range -/
  | outOfRange
  /-- dereference of an end iterator / empty container `front`/`back` -/
  | badIterator
  /-- floating division by zero (inf/NaN in C++, outside the number model) -/
  | divByZero
  /-- read of a variable that was never initialised -/
  | uninitialised
  /-- conversion to `size_t` of a `double` that is not a number, infinite or too large (`Model/Special` only) -/
  | notRepresentable
  /-- `std::sort` with a comparison that is no strict weak order (`Model/Special` only) -/
  | notAnOrder
  deriving DecidableEq, Repr

/-- Outcome of a `bool` method without state: success, `return false`, undefined behaviour. -/
inductive Out (α : Type u)
  | ok (a : α)
  | fail
  | ub (why : UB)
  deriving DecidableEq, Repr

namespace Out
variable {α β : Type u}
/-- sequencing -/
def bind (x : Out α) (f : α → Out β) : Out β :=
  match x with
  | ok a => f a
  | fail => fail
  | ub w => ub w
instance : Monad Out where
  pure := ok
  bind := bind

@[simp] theorem bind_ok (a : α) (f : α → Out β) : (Out.ok a >>= f) = f a := rfl
@[simp] theorem bind_fail (f : α → Out β) : ((Out.fail : Out α) >>= f) = Out.fail := rfl
@[simp] theorem bind_ub (w : UB) (f : α → Out β) : ((Out.ub w : Out α) >>= f) = Out.ub w := rfl
@[simp] theorem pure_eq (a : α) : (pure a : Out α) = Out.ok a := rfl

theorem bind_eq_ok {x : Out α} {f : α → Out β} {b : β} :
    (x >>= f) = Out.ok b ↔ ∃ a, x = Out.ok a ∧ f a = Out.ok b := by
  cases x <;> simp
end Out

/-- `size_t` subtraction: wrap-around is a distinct outcome. -/
def subSize (a b : Nat) : Out Nat := if b ≤ a then .ok (a - b) else .ub .unsignedWrap

/-- `std::round`: nearest integer, halves away from zero. -/
def stdRound {K : Type*} [Ring K] [LinearOrder K] [FloorRing K] [Div K] (x : K) : ℤ :=
  if 0 ≤ x then ⌊x + 1 / 2⌋ else -⌊-x + 1 / 2⌋

/-- `static_cast<size_t>(std::round(x))`: a negative rounded value is undefined behaviour. -/
def roundSize {K : Type*} [Ring K] [LinearOrder K] [FloorRing K] [Div K] (x : K) : Out Nat :=
  if 0 ≤ stdRound x then .ok (stdRound x).toNat else .ub .negativeToUnsigned

end Uni
