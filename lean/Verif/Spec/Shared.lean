import Verif.Model.Shared

/-! # Footprints as values

What a program may rely on if footprints were values: the state of an object depends on the calls made on it alone. -/

set_option autoImplicit false

namespace Uni.Spec
open Uni.Shared
variable {K : Type*} [Zero K] [LE K] [DecidableLE K] [LT K] [DecidableLT K]

/-- What the commands of a program that are about the object `i` make of a value. -/
def alone (i : Nat) (fp : FootPrint K) : List (Cmd K) → FootPrint K
  | [] => fp
  | .call j op :: cs => alone i (if j = i then (fp.run op).2 else fp) cs
  | .setName j name :: cs => alone i (if j = i then fp.setFootName name else fp) cs
  | _ :: cs => alone i fp cs

/-- The object `i` is used only by its methods, and the list `a` is not touched behind its back. -/
def Discreet (i a : Nat) : Cmd K → Prop
  | .wrap b => b ≠ some a
  | .copy j => j ≠ i
  | .assign j k => j ≠ i ∧ k ≠ i
  | .move j _ => j ≠ i
  | .write b _ => b ≠ a
  | .new | .alloc _ | .call _ _ | .setName _ _ => True

/-- The object `i` is neither assigned to nor moved from. -/
def Keeps (i : Nat) : Cmd K → Prop
  | .assign j _ => j ≠ i
  | .move j _ => j ≠ i
  | _ => True

/-- The object `i` points to the list `a`. -/
def PointsTo (s : Store K) (i a : Nat) : Prop := ∃ o, s.objs[i]? = some o ∧ o.list = some a

/-- The object `i` points to the list `a`, and no other object does. -/
def Owns (s : Store K) (i a : Nat) : Prop := PointsTo s i a ∧ ∀ j, PointsTo s j a → j = i

/-- No pointer is dangling. -/
def Sound (s : Store K) : Prop := ∀ i a, PointsTo s i a → a < s.lists.length

end Uni.Spec
