import Verif.Model.FootPrint

/-! # `FootPrint` objects with the list they point to

`FootPrint` has a member `std::shared_ptr<StepList> m_steps` (include/FootPrint.h:26) and the copy and move operations that the
compiler writes: a copy points to the same list.  `Model/FootPrint` describes an object whose list nobody else points to; this
is the object with the pointer.  The life of the objects is not modelled: none is destroyed. -/

set_option autoImplicit false

namespace Uni.Shared
variable {K : Type*}

/-- `class FootPrint`, include/FootPrint.h:25-27: the list pointed to (`none` is the null pointer) and the name. -/
@[ext] structure Obj where
  list : Option Nat
  footName : String
  deriving DecidableEq, Repr

/-- The lists allocated so far and the objects constructed so far. -/
@[ext] structure Store (K : Type*) where
  lists : List (List (Step K))
  objs : List Obj
  deriving DecidableEq, Repr

/-- What a program can do with footprints and with lists of steps. -/
inductive Cmd (K : Type*)
  /-- `FootPrint()` -/
  | new
  /-- `std::make_shared<StepList>(l)` -/
  | alloc (l : List (Step K))
  /-- `FootPrint(steps)` -/
  | wrap (a : Option Nat)
  /-- copy constructor -/
  | copy (i : Nat)
  /-- `i = j` -/
  | assign (i j : Nat)
  /-- move constructor; `rest` is the name left in the old object, which the standard does not fix -/
  | move (i : Nat) (rest : String)
  /-- a method of the object `i` that changes the steps -/
  | call (i : Nat) (op : FootPrint.Op K)
  /-- `setFootName` -/
  | setName (i : Nat) (name : String)
  /-- anything written through a pointer to the list, or through the reference returned by the non-const `getSteps()`,
  src/FootPrint.cpp:113-116 -/
  | write (a : Nat) (l : List (Step K))

/-- Outcome of a command: return value (`true` for what returns nothing) and store, a null pointer dereferenced, or a command
about an object or a list that does not exist (not a program). -/
inductive Result (K : Type*)
  | done (b : Bool) (s : Store K)
  | null
  | absent
  deriving DecidableEq, Repr

namespace Store

/-- The steps and the name of an object, if it has a list: the value of `Model/FootPrint`. -/
def value (s : Store K) (i : Nat) : Option (FootPrint K) :=
  match s.objs[i]? with
  | none => none
  | some o =>
    match o.list with
    | none => none
    | some a =>
      match s.lists[a]? with
      | none => none
      | some l => some ⟨l, o.footName⟩

/-- Methods called on an object with the null pointer, src/FootPrint.cpp:23-98: `addStep` and `numberOfSteps` check the
pointer, the others dereference it. -/
def nullCall : FootPrint.Op K → Option Bool
  | .addStep _ => some false
  | .addStepRaw _ _ _ => some false
  | .dropPastSteps => some false
  | .clearLastStep => some true
  | .keepOnlyPresentStep _ => none
  | .clearSteps => none

/-- One command.  `sort` is the result of the `std::sort` of the constructor from a list, src/FootPrint.cpp:17-21. -/
def exec [Zero K] [LE K] [DecidableLE K] [LT K] [DecidableLT K] (sort : List (Step K) → List (Step K)) (s : Store K) :
    Cmd K → Result K
  | .new => .done true ⟨s.lists ++ [[]], s.objs ++ [⟨some s.lists.length, "footprint"⟩]⟩
  | .alloc l => .done true { s with lists := s.lists ++ [l] }
  | .wrap none => .null
  | .wrap (some a) =>
    match s.lists[a]? with
    | none => .absent
    | some l => .done true ⟨s.lists.set a (sort l), s.objs ++ [⟨some a, "footprint"⟩]⟩
  | .copy i =>
    match s.objs[i]? with
    | none => .absent
    | some o => .done true { s with objs := s.objs ++ [o] }
  | .assign i j =>
    match s.objs[i]?, s.objs[j]? with
    | some _, some o => .done true { s with objs := s.objs.set i o }
    | _, _ => .absent
  | .move i rest =>
    match s.objs[i]? with
    | none => .absent
    | some o => .done true { s with objs := s.objs.set i ⟨none, rest⟩ ++ [o] }
  | .call i op =>
    match s.objs[i]? with
    | none => .absent
    | some o =>
      match o.list with
      | none =>
        match nullCall op with
        | some b => .done b s
        | none => .null
      | some a =>
        match s.lists[a]? with
        | none => .absent
        | some l => .done ((⟨l, o.footName⟩ : FootPrint K).run op).1
            { s with lists := s.lists.set a ((⟨l, o.footName⟩ : FootPrint K).run op).2.steps }
  | .setName i name =>
    match s.objs[i]? with
    | none => .absent
    | some o => .done true { s with objs := s.objs.set i { o with footName := name } }
  | .write a l =>
    if a < s.lists.length then .done true { s with lists := s.lists.set a l } else .absent

/-- A program: the store after all its commands, if each of them came back. -/
def execAll [Zero K] [LE K] [DecidableLE K] [LT K] [DecidableLT K] (sort : List (Step K) → List (Step K)) :
    Store K → List (Cmd K) → Option (Store K)
  | s, [] => some s
  | s, c :: cs =>
    match s.exec sort c with
    | .done _ s' => execAll sort s' cs
    | _ => none

end Store
end Uni.Shared
