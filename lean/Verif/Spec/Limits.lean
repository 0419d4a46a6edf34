import Verif.Model.BaseController

/-! # Specification of velocity limits: the last accepted value of each setting -/

set_option autoImplicit false

namespace Uni.Spec
variable {K : Type*} [Zero K] [LT K] [DecidableLT K]

/-- The last accepted (i.e. non-negative) pair of saturations in a history, newest call last. -/
def lastSaturations : List (BaseCtrl.Op K) → Option (K × K)
  | [] => none
  | .setSaturations l a :: rest =>
    match lastSaturations rest with
    | some r => some r
    | none => if l < 0 ∨ a < 0 then none else some (l, a)
  | _ :: rest => lastSaturations rest

end Uni.Spec
