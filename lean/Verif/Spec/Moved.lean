import Verif.Model.Walker

/-! # The same walk somewhere else, later

What it means that two generators are in the same situation except that everything that is expressed in the world (contacts,
references, free space, initial state of the DCM) is displaced and happens later. -/

set_option autoImplicit false

namespace Uni.Spec

/-- A displacement: rotation of the plane about the origin by `turn`, then translation by `shift`; everything happens `delay`
later. -/
structure Move where
  turn : ℝ
  shift : Vec2 ℝ
  delay : ℝ

namespace Move
variable (g : Move)

/-- A vector that is not attached to a point (a velocity). -/
noncomputable def vector (v : Vec2 ℝ) : Vec2 ℝ :=
  ⟨Real.cos g.turn * v.x - Real.sin g.turn * v.y, Real.sin g.turn * v.x + Real.cos g.turn * v.y⟩

/-- A point. -/
noncomputable def point (p : Vec2 ℝ) : Vec2 ℝ :=
  ⟨Real.cos g.turn * p.x - Real.sin g.turn * p.y + g.shift.x, Real.sin g.turn * p.x + Real.cos g.turn * p.y + g.shift.y⟩

/-- A pose of the unicycle. -/
noncomputable def pose (u : UState ℝ) : UState ℝ := ⟨g.point u.position, u.angle + g.turn⟩

/-- A step. -/
noncomputable def step (s : Step ℝ) : Step ℝ := ⟨g.point s.position, s.angle + g.turn, s.impactTime + g.delay, s.footName⟩

/-- A footprint. -/
noncomputable def footPrint (f : FootPrint ℝ) : FootPrint ℝ := ⟨f.steps.map g.step, f.footName⟩

/-- A pointer to a step. -/
noncomputable def ptr (q : Ptr ℝ) : Ptr ℝ := ⟨q.left, q.index, g.step q.step⟩

/-- A point of the desired trajectory. -/
noncomputable def desired (p : TrajPoint ℝ) : TrajPoint ℝ := ⟨p.initTime + g.delay, g.point p.y, g.vector p.yDot⟩

/-- An ellipse: its image matrix is rotated, its centre displaced.  An ellipse that is not set stays so. -/
noncomputable def ellipse (e : Ellipse ℝ) : Ellipse ℝ :=
  if e.isSet then
    { C := ⟨(g.vector ⟨e.C.m00, e.C.m10⟩).x, (g.vector ⟨e.C.m01, e.C.m11⟩).x,
            (g.vector ⟨e.C.m00, e.C.m10⟩).y, (g.vector ⟨e.C.m01, e.C.m11⟩).y⟩
      Cinv := ⟨(g.vector ⟨e.Cinv.m00, e.Cinv.m01⟩).x, (g.vector ⟨e.Cinv.m00, e.Cinv.m01⟩).y,
               (g.vector ⟨e.Cinv.m10, e.Cinv.m11⟩).x, (g.vector ⟨e.Cinv.m10, e.Cinv.m11⟩).y⟩
      d := g.point e.d
      semiMajor := e.semiMajor
      semiMinor := e.semiMinor
      angle := e.angle + g.turn
      isSet := true }
  else e

/-- A vector in space. -/
noncomputable def vector3 (v : Vec3 ℝ) : Vec3 ℝ := ⟨(g.vector ⟨v.x, v.y⟩).x, (g.vector ⟨v.x, v.y⟩).y, v.z⟩

/-- A pose of a foot, with its twist and acceleration. -/
noncomputable def foot (f : FootSample ℝ) : FootSample ℝ where
  pos := ⟨(g.point ⟨f.pos.x, f.pos.y⟩).x, (g.point ⟨f.pos.x, f.pos.y⟩).y, f.pos.z⟩
  pitch := f.pitch
  yaw := f.yaw + g.turn
  vel := g.vector3 f.vel
  omega := g.vector3 f.omega
  acc := g.vector3 f.acc
  alpha := g.vector3 f.alpha

/-- The poses of both feet. -/
noncomputable def feet (o : FeetOut ℝ) : FeetOut ℝ := (o.1.map g.foot, o.2.map g.foot)

/-- A sample of the DCM. -/
noncomputable def dcm (s : DcmSample ℝ) : DcmSample ℝ := ⟨g.point s.pos, g.vector s.vel, g.point s.zmp⟩

/-- A boundary condition of the DCM (its time counts from the beginning of the walk). -/
noncomputable def dcmPoint (p : DcmPoint ℝ) : DcmPoint ℝ := ⟨p.time, g.point p.pos, g.vector p.vel⟩

/-- A piece of the DCM trajectory. -/
noncomputable def piece : Piece ℝ → Piece ℝ
  | .single a b z t p => .single a b (g.point z) t (g.point p)
  | .cubic i f => .cubic (g.dcmPoint i) (g.dcmPoint f)
  | .quintic i f a j => .quintic (g.dcmPoint i) (g.dcmPoint f) (g.vector a) (g.vector j)

/-- The DCM trajectory. -/
noncomputable def dcmOut (o : DcmOut ℝ) : DcmOut ℝ := ⟨o.pieces.map g.piece, o.samples.map g.dcm, o.weights⟩

/-- The measured contacts of a request. -/
noncomputable def request : Gen.Request ℝ → Gen.Request ℝ
  | .plain => .plain
  | .steps l r => .steps (g.step l) (g.step r)
  | .oneFoot b p a => .oneFoot b (g.point p) (a + g.turn)
  | .twoFeet p a q b => .twoFeet (g.point p) (a + g.turn) (g.point q) (b + g.turn)

/-- A request. -/
noncomputable def call : Walker.Call ℝ → Walker.Call ℝ
  | .fromFootPrints l r t dT => .fromFootPrints (g.footPrint l) (g.footPrint r) (t + g.delay) dT
  | .generate t dT e => .generate (t + g.delay) dT (e + g.delay)
  | .reGenerate t dT e q => .reGenerate (t + g.delay) dT (e + g.delay) (g.request q)

/-- A setting of the planner. -/
noncomputable def plannerOp : Planner.Op ℝ → Planner.Op ℝ
  | .addPoint t y yDot => .addPoint (t + g.delay) (g.point y) (g.vector yDot)
  | .setFreeSpaceEllipse e => .setFreeSpaceEllipse (g.ellipse e)
  | .setNavigationPath path => .setNavigationPath (path.map g.pose)
  | o => o

/-- A setting. -/
noncomputable def op : Walker.Op ℝ → Walker.Op ℝ
  | .planner o => .planner (g.plannerOp o)
  | .zmp (.setPreviousSteps l r) => .zmp (.setPreviousSteps (g.step l) (g.step r))
  | .dcm (.setDCMInitialState p v) => .dcm (.setDCMInitialState (g.point p) (g.vector v))
  | o => o

/-- A setting or a request. -/
noncomputable def event : Walker.Op ℝ ⊕ Walker.Call ℝ → Walker.Op ℝ ⊕ Walker.Call ℝ
  | .inl o => .inl (g.op o)
  | .inr c => .inr (g.call c)

end Move

/-- The controllers of two planners: same parameters, same commands, references displaced.  The direct and the navigation
controller are silent at corresponding times.  (What a controller remembers of the last feedback plays no role: it is
overwritten before it is used.)  `person` tells whether the desired trajectory matters. -/
structure CtrlMoved (g : Move) (person : Bool) (c c' : Controllers ℝ) : Prop where
  base : c'.person.base = c.person.base
  distance : c'.person.personDistance = c.person.personDistance
  gain : c'.person.gain = c.person.gain
  traj : person = true → c'.person.traj = c.person.traj.map g.desired
  offsets : c'.person.offsetMajor = c.person.offsetMajor ∧ c'.person.offsetMinor = c.person.offsetMinor
  conservative : c'.person.conservative = c.person.conservative
  outer : c'.person.outer = g.ellipse c.person.outer
  inner : c'.person.inner = g.ellipse c.person.inner
  direct : c'.direct.desired = c.direct.desired
  directSilent : ∀ t, 0 ≤ t → (t + g.delay < c'.direct.deactivationEnd ↔ t < c.direct.deactivationEnd)
  directBase : c'.directBase = c.directBase
  navBase : c'.nav.base = c.nav.base
  navLimits : c'.nav.maxVel = c.nav.maxVel
  navDesired : c'.nav.desired = c.nav.desired
  navSilent : ∀ t, 0 ≤ t → (t + g.delay < c'.nav.deactivationEnd ↔ t < c.nav.deactivationEnd)
  navPeriod : c'.nav.dt = c.nav.dt
  navPath : c'.nav.path = c.nav.path.map g.pose
  navIndex : c'.nav.poseIndex = c.nav.poseIndex ∧ c'.nav.eta = c.nav.eta ∧ c'.nav.newPath = c.nav.newPath

/-- Two planners with the same settings, controllers as above, free space displaced. -/
structure PlannerMoved (g : Move) (p p' : Planner ℝ) : Prop where
  ctrl : CtrlMoved g (decide (p.controller = .personFollowing)) p.ctrl p'.ctrl
  rest : p' = { p with
    ctrl := p'.ctrl, problem := { p.problem with freeSpace := g.ellipse p.problem.freeSpace }, initTime := p'.initTime,
    endTime := p'.endTime }

/-- With the given controller the integrated motion does not depend on where and when it takes place. -/
def IntegratorMoved (g : Move) (k : ControllerKind) (integ : Integrator ℝ) : Prop :=
  ∀ p p' : Planner ℝ, p.controller = k → PlannerMoved g p p' → p'.initTime = p.initTime + g.delay → p'.endTime = p.endTime + g.delay →
    0 ≤ p.initTime → ∀ u : UState ℝ,
    let r := integ p u p.initTime p.endTime
    let r' := integ p' (g.pose u) p'.initTime p'.endTime
    CtrlMoved g (decide (p.controller = .personFollowing)) r.1 r'.1 ∧
      (∀ sol, r.2 = some sol → ∃ sol', r'.2 = some sol' ∧ ∀ t, sol' (t + g.delay) = g.pose (sol t)) ∧
      (r.2 = none → r'.2 = none)

/-- The DCM starts from an announced state, or the offsets in the feet do not feel the rotation. -/
def DcmStarts (g : Move) (w : Walker ℝ) : Prop :=
  ∀ p, w.dcm = some p → p.state.specified = true ∨
    g.vector (p.state.leftDelta + p.state.rightDelta) = p.state.leftDelta + p.state.rightDelta

/-- No step is from before time zero, the durations are sensible. -/
structure Plannable (w : Walker ℝ) : Prop where
  left : ∀ s ∈ w.left.steps, 0 ≤ s.impactTime
  right : ∀ s ∈ w.right.steps, 0 ≤ s.impactTime
  nominal : 0 ≤ w.planner.nominalTime
  min : w.planner.minTime ≤ w.planner.nominalTime

/-- The steps that are measured are not from before time zero. -/
def RequestTimed : Gen.Request ℝ → Prop
  | .steps l r => 0 ≤ l.impactTime ∧ 0 ≤ r.impactTime
  | _ => True

/-- A request that does not refer to a time before zero; `generate` starts from some steps (otherwise the planner puts the first
ones at the origin of the world). -/
def CallTimed (w : Walker ℝ) : Walker.Call ℝ → Prop
  | .fromFootPrints _ _ _ _ => True
  | .generate t _ _ => 0 ≤ t ∧ (w.left.steps ≠ [] ∨ w.right.steps ≠ [])
  | .reGenerate t _ _ q => 0 ≤ t ∧ RequestTimed q

/-- The sort looks at the landing times only. -/
def SorterMoved (g : Move) (sort : Walker.Sorter ℝ) : Prop :=
  ∀ l r, sort (g.footPrint l) (g.footPrint r) = (sort l r).map g.ptr

/-- Attached to both or to none, related. -/
def Both {α β : Type} (R : α → β → Prop) : Option α → Option β → Prop
  | none, none => True
  | some a, some b => R a b
  | _, _ => False

/-- The feet generators: same settings, poses displaced. -/
structure FeetMoved (g : Move) (p p' : Plugin (FeetSettings ℝ) (FeetOut ℝ)) : Prop where
  settings : p'.state = p.state
  result : p'.result = p.result.map g.feet

/-- The ZMP: same weights, same ZMP in the frames of the feet; in the world the positions are displaced.  (Nothing is said about
the velocities and accelerations in the world.) -/
structure ZmpOutMoved (g : Move) (o o' : ZmpOut ℝ) : Prop where
  weightL : o'.weightL = o.weightL
  weightR : o'.weightR = o.weightR
  localL : o'.localL = o.localL
  localR : o'.localR = o.localR
  world : o'.world.map ZmpSample.pos = (o.world.map ZmpSample.pos).map g.point

/-- The members of the ZMP generators: same settings and initial weight; announced steps of the previous walk displaced. -/
structure ZmpStateMoved (g : Move) (z z' : Zmp ℝ) : Prop where
  offsets : z'.leftStance = z.leftStance ∧ z'.leftSwitch = z.leftSwitch ∧
    z'.rightStance = z.rightStance ∧ z'.rightSwitch = z.rightSwitch
  initial : z'.initialSpecified = z.initialSpecified ∧ (z.initialSpecified = true → z'.initialState = z.initialState)
  previous : z'.previousSpecified = z.previousSpecified ∧
    (z.previousSpecified = true → z'.previousLeft = g.step z.previousLeft ∧ z'.previousRight = g.step z.previousRight)
  states : z'.initStates = z.initStates

/-- The ZMP generators. -/
structure ZmpMoved (g : Move) (p p' : Plugin (Zmp ℝ) (ZmpOut ℝ)) : Prop where
  settings : ZmpStateMoved g p.state p'.state
  result : Both (ZmpOutMoved g) p.result p'.result

/-- The DCM generator: same settings, initial state displaced, trajectory displaced. -/
structure DcmMoved (g : Move) (p p' : Plugin (Dcm ℝ) (DcmOut ℝ)) : Prop where
  settings : p'.state = { p.state with initial := p.state.initial.map fun s => (g.point s.1, g.vector s.2) }
  result : p'.result = p.result.map g.dcmOut

/-- Two generators in the same situation, one of them displaced. -/
structure WalkerMoved (g : Move) (w w' : Walker ℝ) : Prop where
  cfg : w'.cfg = w.cfg
  planner : PlannerMoved g w.planner w'.planner
  left : w'.left = g.footPrint w.left
  right : w'.right = g.footPrint w.right
  outputs : w'.outputs = w.outputs
  garbage : w'.garbage = w.garbage
  cubic : Both (FeetMoved g) w.cubic w'.cubic
  minJerk : Both (FeetMoved g) w.minJerk w'.minJerk
  zmp : Both (ZmpMoved g) w.zmp w'.zmp
  dcm : Both (DcmMoved g) w.dcm w'.dcm
  height : w'.height = w.height

/-- The outcomes correspond. -/
def ResultMoved (g : Move) : Walker.Result ℝ → Walker.Result ℝ → Prop
  | .done b w, .done b' w' => b' = b ∧ WalkerMoved g w w'
  | .ub why, .ub why' => why' = why
  | .outOfFuel, .outOfFuel => True
  | _, _ => False

/-- No reference before time zero; the controller that follows a person is not switched on (the trajectory of the person is not
compared while another controller is in use). -/
def OpTimed (w : Walker ℝ) : Walker.Op ℝ → Prop
  | .planner (.addPoint t _ _) => 0 ≤ t
  | .planner (.setUnicycleController .personFollowing) => w.planner.controller = .personFollowing
  | _ => True

/-- A sequence of settings and requests, up to the first one that does not come back. -/
noncomputable def runEvents (integ : Integrator ℝ) (fuel : Nat) (sort : Walker.Sorter ℝ) (w : Walker ℝ) :
    List (Walker.Op ℝ ⊕ Walker.Call ℝ) → Walker.Result ℝ
  | [] => .done true w
  | .inl o :: es => runEvents integ fuel sort (w.run o) es
  | .inr c :: es =>
    match w.call integ fuel sort c with
    | .done _ w => runEvents integ fuel sort w es
    | r => r

/-- Each of the requests is made in a situation in which C89 is claimed. -/
def Covered (g : Move) (integ : Integrator ℝ) (fuel : Nat) (sort : Walker.Sorter ℝ) (w : Walker ℝ) :
    List (Walker.Op ℝ ⊕ Walker.Call ℝ) → Prop
  | [] => True
  | .inl o :: es => OpTimed w o ∧ Covered g integ fuel sort (w.run o) es
  | .inr c :: es => IntegratorMoved g w.planner.controller integ ∧ DcmStarts g w ∧ Plannable w ∧ CallTimed w c ∧
    ∀ b w1, w.call integ fuel sort c = .done b w1 → Covered g integ fuel sort w1 es

end Uni.Spec
