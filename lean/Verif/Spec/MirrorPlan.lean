import Verif.Spec.Mirror
import Verif.Model.Integrate

/-! # The same plan in a mirror -/

set_option autoImplicit false

namespace Uni.Spec
variable {K : Type}

namespace Mirror
section
variable [Neg K]

/-- A pose of the unicycle. -/
def pose (u : UState K) : UState K := ⟨vector u.position, -u.angle⟩

/-- Velocities of the unicycle. -/
def control (v : Control K) : Control K := ⟨v.forward, -v.angular, -v.lateral⟩

/-- A point of the desired trajectory. -/
def desired (q : TrajPoint K) : TrajPoint K := ⟨q.initTime, vector q.y, vector q.yDot⟩

/-- An ellipse: its centre is reflected and it is turned the other way. -/
def ellipse (e : Ellipse K) : Ellipse K :=
  ⟨⟨e.C.m00, -e.C.m01, -e.C.m10, e.C.m11⟩, ⟨e.Cinv.m00, -e.Cinv.m01, -e.Cinv.m10, e.Cinv.m11⟩, vector e.d, e.semiMajor, e.semiMinor,
    -e.angle, e.isSet⟩

/-- The person following controller. -/
def person (c : PersonCtrl K) : PersonCtrl K :=
  { c with
    personDistance := vector c.personDistance, theta := -c.theta, unicyclePosition := vector c.unicyclePosition, y := vector c.y,
    traj := c.traj.map desired, outer := ellipse c.outer, inner := ellipse c.inner }

/-- The controllers. -/
def controllers (c : Controllers K) : Controllers K where
  person := person c.person
  direct := { c.direct with desired := control c.direct.desired }
  directBase := c.directBase
  nav := { c.nav with desired := control c.nav.desired, path := c.nav.path.map pose, state := c.nav.state.map pose }

/-- The planner: left and right are exchanged. -/
def planner (p : Planner K) : Planner K :=
  { p with
    ctrl := controllers p.ctrl, problem := { p.problem with freeSpace := ellipse p.problem.freeSpace }
    startLeft := !p.startLeft, swingLeft := !p.swingLeft, leftYaw := -p.rightYaw, rightYaw := -p.leftYaw }

/-- A setting of the planner. -/
def plannerOp : Planner.Op K → Planner.Op K
  | .setDesiredPersonDistance x y => .setDesiredPersonDistance x (-y)
  | .addPoint t y yDot => .addPoint t (vector y) (vector yDot)
  | .setDesiredDirectControl v => .setDesiredDirectControl (control v)
  | .startWithLeft b => .startWithLeft (!b)
  | .setLeftFootYawOffset x => .setRightFootYawOffset (-x)
  | .setRightFootYawOffset x => .setLeftFootYawOffset (-x)
  | .setFreeSpaceEllipse e => .setFreeSpaceEllipse (ellipse e)
  | .setNavigationPath path => .setNavigationPath (path.map pose)
  | o => o
end
end Mirror

section
variable [Neg K]

/-- Two planners, one of them in the mirror.  (Which foot swings is decided anew at the beginning of each plan.) -/
def PlannerMirrored (p p' : Planner K) : Prop := p' = { Mirror.planner p with swingLeft := p'.swingLeft }

/-- The outcomes of two planning calls: the footprints are exchanged and reflected. -/
def PlanMirrored : PlanResult K → PlanResult K → Prop
  | .done ok p l r, x => ∃ p', PlannerMirrored p p' ∧ x = .done ok p' (Mirror.footPrint r) (Mirror.footPrint l)
  | .ub why, x => x = .ub why
  | .outOfFuel, x => x = .outOfFuel
end

/-- The planner `q` drives the unicycle as `p` does: same controller, same command, same free space. -/
structure DrivesAs (p q : Planner K) : Prop where
  controller : q.controller = p.controller
  command : q.ctrl.direct.desired = p.ctrl.direct.desired
  space : q.ctrl.person.outer = p.ctrl.person.outer ∧ q.ctrl.person.inner = p.ctrl.person.inner

/-- In the mirror the integrator computes the reflected motion. -/
def IntegratorMirrored [Neg K] (p : Planner K) (integ : Integrator K) : Prop := ∀ (q : Planner K) (u : UState K) (a b : K), DrivesAs p q →
  integ (Mirror.planner q) (Mirror.pose u) a b =
    (Mirror.controllers (integ q u a b).1, (integ q u a b).2.map fun sol t => Mirror.pose (sol t))

/-- The unicycle does not turn. -/
def NeverTurns (p : Planner K) (integ : Integrator K) : Prop := ∀ (q : Planner K) (u : UState K) (a b : K) (sol : K → UState K), DrivesAs p q →
  (integ q u a b).2 = some sol → ∀ t, (sol t).angle = u.angle

/-- The feet point in the direction of the unicycle, and so they stand. -/
structure FeetAhead [Zero K] (p : Planner K) (left right : FootPrint K) : Prop where
  leftYaw : p.leftYaw = 0
  rightYaw : p.rightYaw = 0
  same : ∀ l r, left.steps.getLast? = some l → right.steps.getLast? = some r → l.angle = r.angle

end Uni.Spec
