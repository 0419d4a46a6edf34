import Verif.Model.Basic

/-! # Specification of a footprint: a stack of landings, newest first

Independent of the code's representation (a deque filled at the back). -/

set_option autoImplicit false

namespace Uni.Spec
variable {K : Type*}

/-- What a landing records. -/
structure Touchdown (K : Type*) where
  position : Vec2 K
  angle : K
  time : K
  deriving DecidableEq

/-- The abstract footprint: landings, newest first. -/
abbrev Log (K : Type*) := List (Touchdown K)

/-- The requests a user can make. -/
inductive Req (K : Type*)
  | land (l : Touchdown K)
  | forgetAllButNewest
  | keepPresentAt (t : K)
  | forgetAll
  | forgetNewest

/-- `Reply req log answer log'`: on request `req` in state `log`, a footprint must answer `answer`
and move to `log'`. -/
inductive Reply [LinearOrder K] [Zero K] : Req K → Log K → Bool → Log K → Prop
  | landOk (l log) (h : 0 ≤ l.time) : Reply (.land l) log true (l :: log)
  | landBad (l log) (h : l.time < 0) : Reply (.land l) log false log
  | newestOk (l log) : Reply .forgetAllButNewest (l :: log) true [l]
  | newestBad : Reply .forgetAllButNewest [] false []
  /-- `l` is the newest landing not after `t`: everything newer is after `t`. -/
  | presentOk (t l newer older) (h : l.time ≤ t) (hn : ∀ x ∈ newer, t < x.time) :
      Reply (.keepPresentAt t) (newer ++ l :: older) true [l]
  | presentBad (t log) (h : ∀ x ∈ log, t < x.time) : Reply (.keepPresentAt t) log false log
  | all (log) : Reply .forgetAll log true []
  | lastOk (l log) : Reply .forgetNewest (l :: log) true log
  | lastNone : Reply .forgetNewest [] true []

end Uni.Spec
