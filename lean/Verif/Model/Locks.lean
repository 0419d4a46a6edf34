import Mathlib.Logic.Function.Basic
import Mathlib.Data.Set.Insert

/-! # Threads and mutexes

An interleaving model of `std::mutex` and `std::lock_guard`: every call is a program of accesses to shared objects and of lock
operations, and the scheduler decides who does the next one. -/

set_option autoImplicit false

namespace Uni.Conc

/-- The code of a call.  `R` are the shared objects, `V r` the values of object `r`, `L` the mutexes.  An access replaces the value
of one object, as a function of the old one, which is also what the call goes on with. -/
inductive Prog (R L : Type) (V : R → Type) (ρ : Type)
  | ret (x : ρ)
  | acquire (l : L) (k : Prog R L V ρ)
  | release (l : L) (k : Prog R L V ρ)
  | access (r : R) (f : V r → V r) (k : V r → Prog R L V ρ)

/-- The values of the shared objects. -/
abbrev Store (R : Type) (V : R → Type) := ∀ r, V r

/-- Calls that run at the same time; `owner l` is the call that holds the mutex `l`. -/
structure Config (ι R L : Type) (V : R → Type) (ρ : Type) where
  store : Store R V
  owner : L → Option ι
  code : ι → Prog R L V ρ

variable {ι R L : Type} {V : R → Type} {ρ : Type} [DecidableEq ι] [DecidableEq R] [DecidableEq L]

/-- The calls are about to start. -/
def start (s : Store R V) (code : ι → Prog R L V ρ) : Config ι R L V ρ := ⟨s, fun _ => none, code⟩

/-- Call `i` does its next operation.  `none`: it has returned, or it waits for a mutex (for ever if it is its own; undefined
behaviour in C++), or it releases a mutex that it does not hold. -/
def step (c : Config ι R L V ρ) (i : ι) : Option (Config ι R L V ρ) :=
  match c.code i with
  | .ret _ => none
  | .acquire l k =>
    if c.owner l = none then
      some { c with owner := Function.update c.owner l (some i), code := Function.update c.code i k }
    else none
  | .release l k =>
    if c.owner l = some i then
      some { c with owner := Function.update c.owner l none, code := Function.update c.code i k }
    else none
  | .access r f k =>
    some { c with store := Function.update c.store r (f (c.store r)), code := Function.update c.code i (k (c.store r)) }

/-- The calls do their operations in the order given. -/
def run (c : Config ι R L V ρ) : List ι → Option (Config ι R L V ρ)
  | [] => some c
  | i :: τ => (step c i).bind fun c => run c τ

/-- A call that is alone: what it returns and what it leaves. -/
def alone : Prog R L V ρ → Store R V → ρ × Store R V
  | .ret x, s => (x, s)
  | .acquire _ k, s => alone k s
  | .release _ k, s => alone k s
  | .access r f k, s => alone (k (s r)) (Function.update s r (f (s r)))

/-- Calls one after the other. -/
def serial (code : ι → Prog R L V ρ) (s : Store R V) (order : List ι) : Store R V :=
  order.foldl (fun s i => (alone (code i) s).2) s

/-- The same code, in a program that has one more mutex, `none`. -/
def Prog.lift : Prog R L V ρ → Prog R (Option L) V ρ
  | .ret x => .ret x
  | .acquire l k => .acquire (some l) k.lift
  | .release l k => .release (some l) k.lift
  | .access r f k => .access r f fun v => (k v).lift

/-- The code up to its end, where the caller releases the mutex `none`. -/
def Prog.inside : Prog R L V ρ → Prog R (Option L) V ρ
  | .ret x => .release none (.ret x)
  | .acquire l k => .acquire (some l) k.inside
  | .release l k => .release (some l) k.inside
  | .access r f k => .access r f fun v => (k v).inside

/-- A call for which the caller takes the mutex `none`. -/
def Prog.under (p : Prog R L V ρ) : Prog R (Option L) V ρ := .acquire none p.inside

end Uni.Conc
