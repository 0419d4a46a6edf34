/-! # Vectors that a call has overwritten in part -/

set_option autoImplicit false

namespace Uni.Spec

/-- A vector `v` of `n` elements whose first `a` elements are new, the others are what they were, or `d` where there was
nothing. -/
structure Mixed {O : Type} (d : O) (n a : Nat) (new old v : List O) : Prop where
  length : v.length = n
  new : ∀ j, j < a → v[j]? = new[j]?
  old : ∀ j, a ≤ j → j < n → v[j]? = some (old[j]?.getD d)

end Uni.Spec
