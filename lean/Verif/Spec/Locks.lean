import Verif.Model.Locks

/-! # What concurrent calls should guarantee -/

set_option autoImplicit false

namespace Uni.Spec
open Conc
variable {ι R L : Type} {V : R → Type} {ρ : Type} [DecidableEq ι] [DecidableEq R] [DecidableEq L]

/-- The call has returned. -/
def Returned (c : Config ι R L V ρ) (i : ι) : Prop := ∃ x, c.code i = .ret x

/-- Linearisability: the calls that have returned have returned what they would have returned one after the other, in an order
in which a call that has returned before another one was begun comes first; and when no call is on its way the objects are as
after these calls.  `τ`: what has happened. -/
def Linear (s : Store R V) (code : ι → Prog R L V ρ) (τ : List ι) (c : Config ι R L V ρ) : Prop :=
  ∃ order : List ι, order.Nodup ∧ (∀ i ∈ order, i ∈ τ) ∧ (∀ i, Returned c i → i ∈ order) ∧
    (∀ before i after x, order = before ++ i :: after → c.code i = .ret x → x = (alone (code i) (serial code s before)).1) ∧
    (∀ τ₁ τ₂ c₁, τ = τ₁ ++ τ₂ → run (start s code) τ₁ = some c₁ →
      ∃ first, first <+: order ∧ (∀ i, Returned c₁ i → i ∈ first) ∧ ∀ i ∈ first, i ∈ τ₁) ∧
    ((∀ i ∈ τ, Returned c i) → c.store = serial code s order)

/-- Two calls are about to access the same object, and one of them writes: undefined behaviour in C++. -/
def Race (c : Config ι R L V ρ) : Prop :=
  ∃ i j r f k g m, i ≠ j ∧ c.code i = .access r f k ∧ c.code j = .access r g m ∧ ∃ v, f v ≠ v

/-- Nobody can go on although somebody has not returned. -/
def Deadlock (c : Config ι R L V ρ) : Prop := (∃ i, ¬ Returned c i) ∧ ∀ i, step c i = none

/-- A call that touches object `r` only while it holds the mutex `guard r`. -/
def Guarded (guard : R → L) (held : Set L) : Prog R L V ρ → Prop
  | .ret _ => True
  | .acquire l k => Guarded guard (insert l held) k
  | .release l k => Guarded guard (held \ {l}) k
  | .access r _ k => guard r ∈ held ∧ ∀ v, Guarded guard held (k v)

/-- Two-phase locking: moreover, once it has released a mutex that protects something it acquires none of them any more; it
protects something, and releases everything. -/
def TwoPhase (guard : R → L) (held : Set L) (shrinking : Prop) : Prog R L V ρ → Prop
  | .ret _ => shrinking ∧ ∀ r, guard r ∉ held
  | .acquire l k => l ∉ held ∧ ((∃ r, guard r = l) → ¬ shrinking) ∧ TwoPhase guard (insert l held) shrinking k
  | .release l k => l ∈ held ∧ TwoPhase guard (held \ {l}) (shrinking ∨ ∃ r, guard r = l) k
  | .access r _ k => guard r ∈ held ∧ ∀ v, TwoPhase guard held shrinking (k v)

/-- Mutexes are acquired in the order of their ranks and are all released. -/
def Ordered (rank : L → Nat) (held : Set L) : Prog R L V ρ → Prop
  | .ret _ => ∀ l, l ∉ held
  | .acquire l k => (∀ m ∈ held, rank m < rank l) ∧ Ordered rank (insert l held) k
  | .release l k => l ∈ held ∧ Ordered rank (held \ {l}) k
  | .access _ _ k => ∀ v, Ordered rank held (k v)

end Uni.Spec
