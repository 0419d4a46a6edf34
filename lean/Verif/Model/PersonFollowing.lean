import Verif.Model.Ellipse
import Verif.Model.BaseController
import Mathlib.Data.List.Sort

/-! # `PersonFollowingController` (src/PersonFollowingController.cpp) -/

set_option autoImplicit false

namespace Uni
variable {K : Type*}

/-- `TrajectoryPoint` (include/PersonFollowingController.h:19-23). -/
@[ext] structure TrajPoint (K : Type*) where
  initTime : K
  y : Vec2 K
  yDot : Vec2 K
  deriving DecidableEq, Repr

/-- `class PersonFollowingController` (include/PersonFollowingController.h).  The scratch members
`m_inverseB`, `m_R`, `m_personPosition`, `m_personDistanceNorm` are not modelled. -/
structure PersonCtrl (K : Type*) where
  base : BaseCtrl K
  personDistance : Vec2 K
  time : K
  theta : K
  unicyclePosition : Vec2 K
  y : Vec2 K
  gain : K
  traj : List (TrajPoint K)
  offsetMajor : K
  offsetMinor : K
  outer : Ellipse K
  inner : Ellipse K
  conservative : K

namespace PersonCtrl
variable [Field K] [LinearOrder K] [Trig K]

/-- Constructor, src/PersonFollowingController.cpp:27-56: the trajectory contains one point, at the
origin from time 0. -/
def new : PersonCtrl K where
  base := BaseCtrl.new
  personDistance := ⟨1 / 5, 0⟩
  time := 0
  theta := 0
  unicyclePosition := 0
  y := 0
  gain := 10
  traj := [⟨0, 0, 0⟩]
  offsetMajor := 0
  offsetMinor := 0
  outer := Ellipse.clear
  inner := Ellipse.clear
  conservative := 2

/-- `setPersonDistance`, src/PersonFollowingController.cpp:100-111. -/
def setPersonDistance (c : PersonCtrl K) (x y : K) : Bool × PersonCtrl K :=
  if x = 0 then (false, c) else (true, { c with personDistance := ⟨x, y⟩ })

/-- `setGain`, src/PersonFollowingController.cpp:133-141. -/
def setGain (c : PersonCtrl K) (g : K) : Bool × PersonCtrl K :=
  if g ≤ 0 then (false, c) else (true, { c with gain := g })

/-- `getPersonPosition`, src/PersonFollowingController.cpp:118-131. -/
def getPersonPosition (c : PersonCtrl K) (p : Vec2 K) (θ : K) : Vec2 K := p + rot θ c.personDistance

/-- `setUnicycleStateFeedback`, src/PersonFollowingController.cpp:87-98. -/
def setFeedback (c : PersonCtrl K) (t : K) (p : Vec2 K) (θ : K) : PersonCtrl K :=
  { c with time := t, theta := θ, unicyclePosition := p, y := c.getPersonPosition p θ }

/-- `setDesiredPoint`, src/PersonFollowingController.cpp:143-155, as a relation: `std::sort` is not
stable, so the new trajectory is *some* permutation of the old one plus the new point which is sorted
by initial time. -/
def SetDesiredPoint (c : PersonCtrl K) (p : TrajPoint K) (ok : Bool) (c' : PersonCtrl K) : Prop :=
  (p.initTime < 0 ∧ ok = false ∧ c' = c) ∨
  (¬ p.initTime < 0 ∧ ok = true ∧ ∃ sorted : List (TrajPoint K),
    sorted.Perm (c.traj ++ [p]) ∧ sorted.Pairwise (fun a b => ¬ b.initTime < a.initTime) ∧
    c' = { c with traj := sorted })

/-- A deterministic instance of `SetDesiredPoint` (insertion sort), used when the planner is run. -/
def setDesiredPoint (c : PersonCtrl K) (p : TrajPoint K) : Bool × PersonCtrl K :=
  if p.initTime < 0 then (false, c)
  else (true, { c with traj := (c.traj ++ [p]).insertionSort (fun a b => a.initTime ≤ b.initTime) })

/-- `clearDesiredTrajectory`, src/PersonFollowingController.cpp:168-171. -/
def clearDesiredTrajectory (c : PersonCtrl K) : PersonCtrl K := { c with traj := [] }

/-- The reverse `find_if` of `getDesiredPoint` (src/PersonFollowingController.cpp:284-287): scanning
from the back, the first point with `initTime ≤ time`, together with the point visited just before it
(the next point in time, `point-1` for a reverse iterator), if any. -/
def findRev (time : K) : Option (TrajPoint K) → List (TrajPoint K) → Option (TrajPoint K × Option (TrajPoint K))
  | _, [] => none
  | next, p :: rest => if p.initTime ≤ time then some (p, next) else findRev time (some p) rest

/-- `interpolateReferences`, src/PersonFollowingController.cpp:15-25; a zero denominator is a
distinct outcome. -/
def interpolateReferences (time : K) (p q : TrajPoint K) : Out (Vec2 K × Vec2 K) :=
  if q.initTime - p.initTime = 0 then .ub .divByZero
  else
    let ratio := (q.initTime - time) / (q.initTime - p.initTime)
    .ok (ratio * p.y + (1 - ratio) * q.y, ratio * p.yDot + (1 - ratio) * q.yDot)

/-- `getDesiredPoint`, src/PersonFollowingController.cpp:263-300, on the stored trajectory. -/
def desiredPoint (traj : List (TrajPoint K)) (time : K) : Out (Vec2 K × Vec2 K) :=
  if time < 0 then .fail
  else
    match traj with
    | [] => .fail
    | first :: _ =>
      if time < first.initTime then .fail
      else
        match findRev time none traj.reverse with
        | none => .fail
        | some (p, none) => .ok (p.y, p.yDot)
        | some (p, some q) => interpolateReferences time p q

/-- `getDesiredPoint` as a method. -/
def getDesiredPoint (c : PersonCtrl K) (time : K) : Out (Vec2 K × Vec2 K) := desiredPoint c.traj time

/-- `clearDesiredTrajectoryUpTo`, src/PersonFollowingController.cpp:173-201, on the stored
trajectory (`ub` if the interpolation would divide by zero). -/
def clearUpTo (traj : List (TrajPoint K)) (time : K) : Out (Bool × List (TrajPoint K)) :=
  if time < 0 then .ok (false, traj)
  else
    match traj with
    | [] => .ok (true, [])
    | _ :: _ =>
      match desiredPoint traj time with
      | .ub w => .ub w
      | .fail => .ok (false, traj)
      | .ok (y, yDot) =>
        .ok (true, ⟨time, y, yDot⟩ :: traj.dropWhile (fun p => decide (p.initTime ≤ time)))

/-- `setFreeSpaceEllipse`, src/PersonFollowingController.cpp:203-225: both members are assigned before
the checks. -/
def setFreeSpaceEllipse (c : PersonCtrl K) (e : Ellipse K) : Bool × PersonCtrl K :=
  let c := { c with outer := e, inner := e }
  if e.isSet then
    let a := e.semiMajor - c.offsetMajor
    let b := e.semiMinor - c.offsetMinor
    if a ≤ 0 ∨ b ≤ 0 then (false, c)
    else
      let r := c.inner.setEllipse a b e.angle e.d.x e.d.y
      (r.1, { c with inner := r.2 })
  else (true, c)

/-- `setFreeSpaceEllipseConservativeFactor`, src/PersonFollowingController.cpp:227-237. -/
def setConservativeFactor (c : PersonCtrl K) (f : K) : Bool × PersonCtrl K :=
  if f < 0 then (false, c) else (true, { c with conservative := f })

/-- `setInnerFreeSpaceEllipseOffsets`, src/PersonFollowingController.cpp:244-261. -/
def setInnerOffsets (c : PersonCtrl K) (oa ob : K) : Bool × PersonCtrl K :=
  if oa < 0 then (false, c)
  else if ob < 0 then (false, c)
  else
    let c := { c with offsetMajor := oa, offsetMinor := ob }
    c.setFreeSpaceEllipse c.outer

/-- The blending factor before `tanh`, src/PersonFollowingController.cpp:326-342; `garbage` is the
uninitialised entry read by `getTangentVector`. -/
def blending (c : PersonCtrl K) (garbage : K) (p : Vec2 K) (θ : K) (y : Vec2 K) : K :=
  if c.inner.isSet then
    let person := c.getPersonPosition p θ
    match c.outer.getClosestIntersectionsWithLine p person with
    | some i =>
      let t := c.outer.getTangentVector garbage i
      let m := y - person
      if 1 / 10 ^ 4 < m.norm then |m.dot t| / m.norm else 0
    | none => 0
  else 0

/-- The reference tracked, given the raw reference `y`:
`getDesiredPointInFreeSpaceEllipse`, src/PersonFollowingController.cpp:309-345. -/
def referenceInEllipse (c : PersonCtrl K) (garbage : K) (p : Vec2 K) (θ : K) (y : Vec2 K) : Vec2 K :=
  if c.inner.isSet && c.inner.isPointInside y then y
  else
    let fromOuter := if c.outer.isSet then c.outer.projectPointInsideEllipse y p else y
    let fromInner := if c.inner.isSet then c.inner.projectPointInsideEllipse y p else fromOuter
    let k := Trig.tanh (c.conservative * c.blending garbage p θ y)
    k * fromInner + (1 - k) * fromOuter

/-- `getDesiredPointInFreeSpaceEllipse`, src/PersonFollowingController.cpp:302-348. -/
def getDesiredPointInFreeSpaceEllipse (c : PersonCtrl K) (garbage : K) (time : K) (p : Vec2 K) (θ : K) :
    Out (Vec2 K × Vec2 K) := do
  let r ← c.getDesiredPoint time
  .ok (c.referenceInEllipse garbage p θ r.1, r.2)

/-- The control law for a given reference, src/PersonFollowingController.cpp:60-84.
`personDistance.x` is never zero (constructor and `setPersonDistance`). -/
def controlLaw (c : PersonCtrl K) (yDes yDotDes : Vec2 K) : Control K :=
  let s := Trig.sin c.theta
  let co := Trig.cos c.theta
  let dx := c.personDistance.x
  let dy := c.personDistance.y
  let e : Vec2 K := yDotDes - c.gain * (c.y - yDes)
  ⟨(-dy / dx * s + co) * e.x + (dy / dx * co + s) * e.y, -s / dx * e.x + co / dx * e.y, 0⟩

/-- `doUnicycleControl`, src/PersonFollowingController.cpp:58-85. -/
def doUnicycleControl (c : PersonCtrl K) (garbage : K) : Out (Control K) := do
  let r ← c.getDesiredPointInFreeSpaceEllipse garbage c.time c.unicyclePosition c.theta
  .ok (c.controlLaw r.1 r.2)

/-- Ellipse-related setters (the ellipse passed is any value of the class). -/
inductive EOp (K : Type*)
  | setFreeSpaceEllipse (e : Ellipse K)
  | setConservativeFactor (f : K)
  | setInnerOffsets (oa ob : K)

/-- Dispatch. -/
def runE (c : PersonCtrl K) : EOp K → Bool × PersonCtrl K
  | .setFreeSpaceEllipse e => c.setFreeSpaceEllipse e
  | .setConservativeFactor f => c.setConservativeFactor f
  | .setInnerOffsets oa ob => c.setInnerOffsets oa ob

end PersonCtrl
end Uni
