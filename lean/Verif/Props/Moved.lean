import Verif.Lemmas.MovedControl
import Verif.Lemmas.MovedSettings
import Verif.Lemmas.Merge
import Verif.Props.Walker

/-! # C89: the same walk somewhere else, later

`Spec/Moved.lean` says what it means that two generators are in the same situation except for a displacement `g` of the plane and
a delay (`WalkerMoved g`).  A request displaced in the same way then has the displaced outcome, and leaves the generators in
displaced situations. -/

set_option autoImplicit false
set_option linter.unusedSectionVars false

namespace Uni.Spec
open Uni Uni.Walker

variable {g : Move} {w w' : Walker ℝ} {integ : Integrator ℝ} {sort : Sorter ℝ}

/-- C89: trajectories for footsteps given by the user.  Missing: the ZMP in the world is displaced, its velocity and acceleration
are not (C45); a DCM that starts from the default (C74). -/
theorem C89_fromFootPrints_partial (hsort : SorterMoved g sort) (h : WalkerMoved g w w') (hs : DcmStarts g w)
    (left right : FootPrint ℝ) (t dT : ℝ) (fuel : Nat) :
    ResultMoved g (w.call integ fuel sort (.fromFootPrints left right t dT))
      (w'.call integ fuel sort (.fromFootPrints (g.footPrint left) (g.footPrint right) (t + g.delay) dT)) := by
  simp only [Walker.call, hsort left right]
  have := h.from hs left right t dT (sort left right)
  generalize w.generateFromFootPrints left right t dT (sort left right) = x at this
  generalize w'.generateFromFootPrints (g.footPrint left) (g.footPrint right) (t + g.delay) dT ((sort left right).map g.ptr) = x'
    at this
  rcases x with ⟨b, w1⟩ | _ | why <;> rcases x' with ⟨b', w1'⟩ | _ | why' <;> try exact this.elim
  · exact this
  · exact ⟨rfl, h⟩
  · exact this

/-- C89: every request, for planners whose controller does not feel the displacement.  Missing: as above, footprints without any
step (`C89_origin_witness`), the navigation controller (`C89_navigation_witness`). -/
theorem C89_call_partial (hd : 0 ≤ g.delay) (hi : IntegratorMoved g w.planner.controller integ) (hsort : SorterMoved g sort)
    (h : WalkerMoved g w w') (hs : DcmStarts g w) (hp : Plannable w) (fuel : Nat) (c : Walker.Call ℝ) (hc : CallTimed w c) :
    ResultMoved g (w.call integ fuel sort c) (w'.call integ fuel sort (g.call c)) :=
  call_moved hd hi hsort h hs hp fuel c hc

/-- C89: settings.  Missing: switching to the controller that follows a person. -/
theorem C89_settings_partial (hd : 0 ≤ g.delay) (h : WalkerMoved g w w') (o : Walker.Op ℝ) (ho : OpTimed w o) :
    WalkerMoved g (w.run o) (w'.run (g.op o)) :=
  settings_moved hd h o ho

/-- C89: a whole history of settings and requests. -/
theorem C89_history_partial (hd : 0 ≤ g.delay) (hsort : SorterMoved g sort) (fuel : Nat) (es : List (Walker.Op ℝ ⊕ Walker.Call ℝ)) :
    ∀ {w w' : Walker ℝ}, WalkerMoved g w w' → Covered g integ fuel sort w es →
      ResultMoved g (runEvents integ fuel sort w es) (runEvents integ fuel sort w' (es.map g.event)) := by
  induction es with
  | nil => intro w w' h _; exact ⟨rfl, h⟩
  | cons e es ih =>
    intro w w' h hc
    rcases e with o | c
    · exact ih (settings_moved hd h o hc.1) hc.2
    obtain ⟨h1, h2, h3, h4, h5⟩ := hc
    have := call_moved hd h1 hsort h h2 h3 fuel c h4
    simp only [runEvents, List.map_cons, Move.event]
    rcases hx : w.call integ fuel sort c with ⟨b, w1⟩ | why | _ <;>
      rcases hy : w'.call integ fuel sort (g.call c) with ⟨b', w1'⟩ | why' | _ <;> rw [hx, hy] at this <;> try exact this.elim
    · exact ih this.2 (h5 b w1 hx)
    · exact this
    · exact this

/-- C89: a new generator, told to follow no one yet or to be controlled directly, is in the same situation everywhere.  (By
default it follows someone who is at the origin of the world at time zero.) -/
theorem C89_new (hd : 0 ≤ g.delay) (garbage : ℝ) {o : Walker.Op ℝ}
    (ho : o = .planner .clearDesiredTrajectory ∨ o = .planner (.setUnicycleController .direct)) :
    WalkerMoved g ((Walker.new garbage).run o) ((Walker.new garbage).run o) := by
  have hs : ∀ t : ℝ, 0 ≤ t → (t + g.delay < 0 ↔ t < 0) := fun t ht =>
    ⟨fun h => absurd h (not_lt.mpr (add_nonneg ht hd)), fun h => absurd h (not_lt.mpr ht)⟩
  have he : ∀ e : Ellipse ℝ, e.isSet = false → e = g.ellipse e := by
    intro e h
    unfold Move.ellipse
    rw [if_neg (by simp [h])]
  have hc : ∀ person, (person = true → (((Walker.new garbage).run o).planner.ctrl.person.traj =
      ((Walker.new garbage).run o).planner.ctrl.person.traj.map g.desired)) →
      CtrlMoved g person ((Walker.new garbage).run o).planner.ctrl ((Walker.new garbage).run o).planner.ctrl := by
    intro person ht
    rcases ho with rfl | rfl <;>
    exact ⟨rfl, rfl, rfl, ht, ⟨rfl, rfl⟩, rfl, he _ rfl, he _ rfl, rfl, hs, rfl, rfl, rfl, rfl, hs, rfl, rfl, rfl, rfl, rfl⟩
  have hf : ∀ n : String, (⟨[], n⟩ : FootPrint ℝ) = g.footPrint ⟨[], n⟩ := fun n => rfl
  have hp : PlannerMoved g ((Walker.new garbage).run o).planner ((Walker.new garbage).run o).planner := by
    rcases ho with rfl | rfl
    · exact ⟨hc _ fun _ => rfl, congrArg (fun e => { Planner.new with
        ctrl := ((Walker.new garbage).run (.planner .clearDesiredTrajectory)).planner.ctrl
        problem := { Planner.new.problem with freeSpace := e } }) (he Ellipse.clear rfl)⟩
    · exact ⟨hc _ fun h => absurd (of_decide_eq_true h) (by simp [Walker.run, Planner.run]),
        congrArg (fun e => { Planner.new with
        controller := .direct
        problem := { Planner.new.problem with freeSpace := e } }) (he Ellipse.clear rfl)⟩
  rcases ho with rfl | rfl <;>
    exact ⟨rfl, hp, rfl, rfl, rfl, rfl, trivial, trivial, trivial, trivial, rfl⟩

/-- C89: the direct controller and the person following controller give the same command in displaced situations, so the motion
integrated by a forward Euler scheme is displaced, whatever the integration steps are. -/
theorem C89_integrator_partial (hd : 0 ≤ g.delay) (k : ControllerKind) {durations : ℝ → ℝ → List ℝ}
    (hds : ∀ a b, ∀ d ∈ durations a b, 0 ≤ d) (garbage : ℝ) : IntegratorMoved g k (Planner.euler durations garbage) :=
  Move.euler_moved hd k hds garbage

/-- C89: sorting by insertion does not feel the displacement. -/
theorem C89_sort (g : Move) : SorterMoved g insertion := by
  have key : ∀ l : List (Ptr ℝ), (l.map g.ptr).insertionSort (fun a b => a.step.impactTime ≤ b.step.impactTime) =
      (l.insertionSort fun a b => a.step.impactTime ≤ b.step.impactTime).map g.ptr := by
    have ins : ∀ (a : Ptr ℝ) (l : List (Ptr ℝ)), (l.map g.ptr).orderedInsert (fun a b => a.step.impactTime ≤ b.step.impactTime) (g.ptr a) =
        (l.orderedInsert (fun a b => a.step.impactTime ≤ b.step.impactTime) a).map g.ptr := by
      intro a l
      induction l with
      | nil => rfl
      | cons b l ih =>
        by_cases hab : a.step.impactTime ≤ b.step.impactTime
        · have hab' : (g.ptr a).step.impactTime ≤ (g.ptr b).step.impactTime := by simpa [Move.ptr, Move.step] using hab
          simp only [List.map_cons, List.orderedInsert, if_pos hab, if_pos hab']
        · have hab' : ¬ (g.ptr a).step.impactTime ≤ (g.ptr b).step.impactTime := by simpa [Move.ptr, Move.step] using hab
          simp only [List.map_cons, List.orderedInsert, if_neg hab, if_neg hab', ih]
    intro l
    induction l with
    | nil => rfl
    | cons a l ih => rw [List.map_cons, List.insertionSort_cons, List.insertionSort_cons, ih, ins]
  intro l r
  have : Ptr.ofFeet (g.footPrint l) (g.footPrint r) = (Ptr.ofFeet l r).map g.ptr := by
    have foot : ∀ (b : Bool) (l : List (Step ℝ)), Ptr.ofFoot b (l.map g.step) = (Ptr.ofFoot b l).map g.ptr := by
      intro b l
      unfold Ptr.ofFoot
      rw [List.zipIdx_map, List.map_map, List.map_map]
      rfl
    simp only [Ptr.ofFeet, Move.footPrint, foot, List.map_append]
  unfold insertion
  rw [this, key]

/-- C89: every situation can be displaced. -/
theorem C89_displaced (g : Move) (w : Walker ℝ) : ∃ w', WalkerMoved g w w' := by
  obtain ⟨c, hc⟩ : ∃ c, CtrlMoved g (decide (w.planner.controller = .personFollowing)) w.planner.ctrl c := by
    refine ⟨{ person := { w.planner.ctrl.person with
                traj := w.planner.ctrl.person.traj.map g.desired, outer := g.ellipse w.planner.ctrl.person.outer,
                inner := g.ellipse w.planner.ctrl.person.inner }
              direct := { w.planner.ctrl.direct with deactivationEnd := w.planner.ctrl.direct.deactivationEnd + g.delay }
              directBase := w.planner.ctrl.directBase
              nav := { w.planner.ctrl.nav with
                deactivationEnd := w.planner.ctrl.nav.deactivationEnd + g.delay, path := w.planner.ctrl.nav.path.map g.pose } },
      ?_⟩
    constructor <;> simp
  refine ⟨{ w with
    planner := g.planner w.planner c, left := g.footPrint w.left, right := g.footPrint w.right
    cubic := w.cubic.map fun p => ⟨p.state, p.result.map g.feet⟩
    minJerk := w.minJerk.map fun p => ⟨p.state, p.result.map g.feet⟩
    zmp := w.zmp.map fun p =>
      ⟨{ p.state with previousLeft := g.step p.state.previousLeft, previousRight := g.step p.state.previousRight },
        p.result.map fun o => { o with world := o.world.map fun s => { s with pos := g.point s.pos } }⟩
    dcm := w.dcm.map fun p =>
      ⟨{ p.state with initial := p.state.initial.map fun s => (g.point s.1, g.vector s.2) }, p.result.map g.dcmOut⟩ }, ?_⟩
  constructor
  · rfl
  · exact ⟨hc, rfl⟩
  · rfl
  · rfl
  · rfl
  · rfl
  · cases w.cubic with
    | none => trivial
    | some p => exact ⟨rfl, rfl⟩
  · cases w.minJerk with
    | none => trivial
    | some p => exact ⟨rfl, rfl⟩
  · cases w.zmp with
    | none => trivial
    | some p =>
      refine ⟨⟨⟨rfl, rfl, rfl, rfl⟩, ⟨rfl, fun _ => rfl⟩, ⟨rfl, fun _ => ⟨rfl, rfl⟩⟩, rfl⟩, ?_⟩
      simp only
      cases p.result with
      | none => trivial
      | some o => exact ⟨rfl, rfl, rfl, rfl, by simp [Function.comp_def]⟩
  · cases w.dcm with
    | none => trivial
    | some p => exact ⟨rfl, rfl⟩
  · rfl

/-! ## Where it does not hold -/

/-- With the same limits the velocity asked by the navigation controller, and the time to the goal, depend on the direction of
the goal in the world: turned by a right angle, the limit on the lateral speed applies to the motion ahead. -/
theorem C89_navigation_witness : ∃ (g : Move) (s goal : UState ℝ) (v l a : ℝ) (r r' : ℝ × Control ℝ),
    NavCtrl.velocitiesTo s goal (v, l, a) = .ok r ∧ NavCtrl.velocitiesTo (g.pose s) (g.pose goal) (v, l, a) = .ok r' ∧
    r.1 = 10 ∧ r'.1 = 100 ∧ r.2.forward = 1 ∧ r'.2.forward = 1 / 10 := by
  have ha : (Trig.atan2 (0 : ℝ) 10) = 0 := by
    show Complex.arg ⟨10, 0⟩ = 0
    have : (⟨10, 0⟩ : ℂ) = ((10 : ℝ) : ℂ) := rfl
    rw [this]
    exact Complex.arg_ofReal_of_nonneg (by norm_num)
  have hb : (Trig.atan2 (10 : ℝ) 0) = Real.pi / 2 := by
    show Complex.arg ⟨0, 10⟩ = Real.pi / 2
    rw [Complex.arg_eq_pi_div_two_iff]
    exact ⟨rfl, by norm_num⟩
  have hs : Real.sqrt 100 = 10 := by rw [show (100 : ℝ) = 10 ^ 2 by norm_num]; exact Real.sqrt_sq (by norm_num)
  have hp := Real.pi_pos
  refine ⟨⟨Real.pi / 2, 0, 0⟩, ⟨0, 0⟩, ⟨⟨10, 0⟩, 0⟩, 1, 1 / 10, 1, (10, ⟨1, 1, 0⟩), (100, ⟨1 / 10, 1, 0⟩), ?_, ?_, rfl, rfl, rfl, rfl⟩
  · simp only [NavCtrl.velocitiesTo, Vec2.zero_x, Vec2.zero_y, sub_zero, ha, cos_real, sin_real, Real.cos_zero,
      Real.sin_zero, sub_self, NavCtrl.linearSpeed, NavCtrl.wrapOnce, pi_real, NavCtrl.zeroTolerance, NavCtrl.clip, sqrt_real]
    norm_num [hs]
    simp [not_lt.mpr hp.le]
  · simp only [NavCtrl.velocitiesTo, Move.pose, Move.point, Vec2.zero_x, Vec2.zero_y, Real.cos_pi_div_two, Real.sin_pi_div_two,
      zero_mul, mul_zero, one_mul, zero_add, add_zero, sub_zero, hb, cos_real, sin_real, sub_self,
      NavCtrl.linearSpeed, NavCtrl.wrapOnce, pi_real, NavCtrl.zeroTolerance, NavCtrl.clip, sqrt_real]
    norm_num [hs]
    simp [not_lt.mpr hp.le]

/-- Without any step the walk begins at the origin of the world, whatever the situation. -/
theorem C89_origin (hk : w.planner.controller = .direct) (ht : Timed w.planner) (hl : w.left.steps = [])
    (hr : w.right.steps = []) {fuel : Nat} {t dT e : ℝ} {w1 : Walker ℝ}
    (h : w.generate integ fuel sort t dT e = .done true w1) : ∃ s rest, w1.left.steps = s :: rest ∧
      s.position = ⟨0, w.planner.nominalWidth / 2⟩ := by
  obtain ⟨p', l', r', e1, e2⟩ : ∃ p' l' r', w.planner.computeNewSteps integ fuel w.left w.right t e = .done true p' l' r' ∧
      w1.left = l' := by
    rcases next_done h with ⟨w2, e1, e2⟩ | ⟨h, -⟩
    · unfold Walker.plan at e1
      split at e1
      · rename_i b p l r e
        cases e1
        refine ⟨p, l, r, e, ?_⟩
        unfold Walker.fromMembers at e2
        simp only at e2
        split at e2 <;> cases e2
        rename_i x
        exact (made_by x).1
      · cases e1
      · cases e1
    · cases h
  obtain ⟨d, hd⟩ := Planner.exists_plan ht (by intro s hs; rw [hl] at hs; cases hs) (by intro s hs; rw [hr] at hs; cases hs) e1
  rcases hd.begins.steps with ⟨hne, -, -⟩ | ⟨-, -, u, hu, h1, h2⟩
  · exact absurd ⟨hl, hr⟩ hne
  have hu0 : u = ⟨0, 0⟩ := by
    unfold RestingState at hu
    rw [hk] at hu
    exact hu
  subst hu0
  have hfirst : ∃ rest, d.l0.steps = [stepOf (leftFoot w.planner w.left) ⟨0, 0⟩ t] ++ rest := ⟨[], by rw [h1]; rfl⟩
  obtain ⟨s, rest, k1, k2⟩ : ∃ s rest, l'.steps = s :: rest ∧
      s.position = (stepOf (leftFoot w.planner w.left) ⟨0, 0⟩ t).position := by
    rcases hd.effect with ⟨-, e3, -⟩ | ⟨-, a, b, -, -, hre⟩
    · exact ⟨_, _, by rw [e3, extendBy, h1]; rfl, rfl⟩
    · rcases hre with ⟨-, e3, -⟩ | ⟨-, e3, -⟩ | ⟨-, ⟨older, s, e3, e4⟩, -⟩
      · exact ⟨_, _, by rw [e3, h1], rfl⟩
      · exact ⟨_, _, by rw [e3, h1], rfl⟩
      · rw [h1] at e3
        cases older with
        | nil =>
          simp only [List.nil_append, List.cons.injEq, and_true] at e3
          exact ⟨_, _, by rw [e4]; rfl, by rw [← e3]⟩
        | cons x xs => simp at e3
  refine ⟨s, rest, by rw [e2, k1], ?_⟩
  rw [k2]
  simp only [stepOf, leftFoot, rot, cos_real, sin_real, Real.cos_zero, Real.sin_zero]
  ext <;> simp

/-- The unicycle that does not move. -/
private noncomputable def still : Integrator ℝ := Planner.euler (fun _ _ => []) 0

private theorem still_moved (g : Move) (hd : 0 ≤ g.delay) (k : ControllerKind) : IntegratorMoved g k still :=
  Move.euler_moved hd k (by simp) 0

/-- A generator under direct control, with the given contacts. -/
private noncomputable def demo (l r : List (Step ℝ)) : Walker ℝ :=
  { (Walker.new 0).runAll [.planner (.setUnicycleController .direct)] with left := ⟨l, "left"⟩, right := ⟨r, "right"⟩ }

private theorem demo_reached (l r : List (Step ℝ)) : Reached still insertion (demo l r) := by
  refine .call _ _ 0 (.fromFootPrints ⟨l, "left"⟩ ⟨r, "right"⟩ 0 0) false
    (Reached.runAll [.planner (.setUnicycleController .direct)] (.new 0)) ?_
  have hrej : Rejected (⟨l, "left"⟩ : FootPrint ℝ) ⟨r, "right"⟩ (0 : ℝ) 0 := Or.inr (Or.inr (Or.inr (Or.inl (le_refl _))))
  simp only [Walker.call, Walker.generateFromFootPrints, timeline_rejected hrej, Gen.C61_rejected_keep hrej]
  rfl

private theorem demo_planner (l r : List (Step ℝ)) : (demo l r).planner = Planner.realDemo := rfl

private theorem demo_usable (l r : List (Step ℝ)) : Usable (demo l r) (demo l r).planner.minTime (1 / 100) := by
  have hcfg : (demo l r).cfg = GenSettings.new := rfl
  refine ⟨⟨?_, ?_, ?_, ?_⟩, ?_, ?_, ?_, ?_, ?_⟩
  · rw [hcfg, demo_planner]; norm_num [GenSettings.new, Planner.realDemo, Planner.new]
  · rw [hcfg, demo_planner]; norm_num [GenSettings.new, Planner.realDemo, Planner.new]
  · rw [hcfg]; norm_num [GenSettings.new]
  · rw [hcfg]; norm_num [GenSettings.new]
  · intro p hp; cases hp
  · intro p hp; cases hp
  · intro hp; exact absurd rfl hp
  · intro p hp; cases hp
  · intro p hp; cases hp

private theorem demo_plannable {l r : List (Step ℝ)} (hl : ∀ s ∈ l, 0 ≤ s.impactTime) (hr : ∀ s ∈ r, 0 ≤ s.impactTime) :
    Plannable (demo l r) where
  left := hl
  right := hr
  nominal := by rw [demo_planner]; simp [Planner.realDemo, Planner.new]
  min := by rw [demo_planner]; simp [Planner.realDemo, Planner.new]; norm_num

private theorem demo_generates {l r : List (Step ℝ)} (hl : ∀ s ∈ l, s.impactTime = 0 ∧ s.footName = "left")
    (hr : ∀ s ∈ r, s.impactTime = 0 ∧ s.footName = "right") (hs : StandsStill (⟨l, "left"⟩ : FootPrint ℝ) ⟨r, "right"⟩) :
    ∃ fuel w1, (demo l r).generate still fuel insertion 0 (1 / 100) 20 = .done true w1 := by
  have hb : l = [] ↔ r = [] := by
    rcases hs with ⟨e1, e2⟩ | ⟨a, b, e1, e2, -⟩ <;> simp only at e1 e2 <;> rw [e1, e2] <;> simp
  have hpi := Real.pi_pos
  have h : ¬ Refused Planner.realDemo still ⟨l, "left"⟩ ⟨r, "right"⟩ 0 20 := by
    rintro (h | h | h | h | h | ⟨s, h, h'⟩ | h | ⟨-, -, h, -⟩ | ⟨q, u, h⟩)
    · apply h
      refine ⟨?_, ?_, ?_⟩ <;> simp only [Planner.realDemo, Planner.new, Planner.deg2rad, pi_real]
      · norm_num
      · norm_num
      · linarith
    · apply h
      refine ⟨?_, ?_, fun h => by cases h⟩
      · simp only [speedLimit, Planner.realDemo, Planner.new, sqrt_real]
        positivity
      · simp only [turnLimit, Planner.realDemo, Planner.new, Planner.deg2rad, pi_real]
        positivity
    · simp only [Planner.realDemo, Planner.new, Planner.deg2rad, pi_real] at h
      rcases h with h | h
      · norm_num at h
      · linarith
    · norm_num at h
    · norm_num at h
    · have : s.impactTime = 0 := by
        rcases h with h | h
        · exact (hl s (List.mem_of_getLast? h)).1
        · exact (hr s (List.mem_of_getLast? h)).1
      rw [this] at h'
      exact absurd h' (lt_irrefl _)
    · simp only [Planner.realDemo, Planner.new] at h
      norm_num at h
    · cases h
    · cases h
  obtain ⟨p', l', r', e⟩ := Planner.C58_valid_requests_succeed (by simp [Planner.realDemo, Planner.new])
    (by simp [Planner.realDemo, Planner.new]) h hb (by intro w h; cases h) (Nat.lt_succ_self _)
  obtain ⟨w1, -, e1, -⟩ := C80_generate (w := demo l r) (by rw [pi_real]; exact hpi.le) (by simp) insertion_sorts (demo_reached l r)
    (dT := 1 / 100) (by norm_num) (by rw [demo_planner]; simp [Planner.realDemo, Planner.new]) (demo_usable l r)
    ⟨fun s hs => (hl s hs).2, fun s hs => (hr s hs).2, by simp [demo], fun h => absurd rfl h⟩ hs
    (fun s hs => (hl s hs).1.ge) (fun s hs => (hr s hs).1.ge) e
  exact ⟨_, w1, e1⟩

/-- Non-vacuity of C89: a walk that is planned from two contacts, displaced. -/
example (g : Move) (hd : 0 ≤ g.delay) : ∃ (w w' : Walker ℝ) (fuel : Nat) (w1 : Walker ℝ), WalkerMoved g w w' ∧ DcmStarts g w ∧ Plannable w ∧
    (∀ k, IntegratorMoved g k still) ∧ SorterMoved g insertion ∧ CallTimed w (.generate 0 (1 / 100) 20) ∧
    Covered g still fuel insertion w [.inl .addDcm, .inl (.dcm (.setDCMInitialState 0 0)), .inr (.generate 0 (1 / 100) 20)] ∧
    w.call still fuel insertion (.generate 0 (1 / 100) 20) = .done true w1 := by
  obtain ⟨fuel, w1, h⟩ := demo_generates (l := [⟨⟨0, 7 / 100⟩, 0, 0, "left"⟩]) (r := [⟨⟨0, -7 / 100⟩, 0, 0, "right"⟩]) (by simp) (by simp)
    (Or.inr ⟨_, _, rfl, rfl, rfl⟩)
  obtain ⟨w', hw⟩ := C89_displaced g (demo [⟨⟨0, 7 / 100⟩, 0, 0, "left"⟩] [⟨⟨0, -7 / 100⟩, 0, 0, "right"⟩])
  have h2 := demo_plannable (l := [⟨⟨0, 7 / 100⟩, 0, 0, "left"⟩]) (r := [⟨⟨0, -7 / 100⟩, 0, 0, "right"⟩]) (by simp) (by simp)
  have h3 : DcmStarts g (demo [⟨⟨0, 7 / 100⟩, 0, 0, "left"⟩] [⟨⟨0, -7 / 100⟩, 0, 0, "right"⟩]) := by intro p hp; cases hp
  have h4 : CallTimed (demo [⟨⟨0, 7 / 100⟩, 0, 0, "left"⟩] [⟨⟨0, -7 / 100⟩, 0, 0, "right"⟩]) (.generate 0 (1 / 100) 20) :=
    ⟨le_refl _, Or.inl (by simp [demo])⟩
  exact ⟨_, w', fuel, w1, hw, h3, h2, still_moved g hd, C89_sort g, h4,
    ⟨trivial, trivial, still_moved g hd _, (by rintro p ⟨⟩; exact Or.inl rfl), ⟨h2.left, h2.right, h2.nominal, h2.min⟩, h4,
      fun _ _ _ => trivial⟩, h⟩

/-- So the request `generate` of a generator without steps is not displaced. -/
theorem C89_origin_witness : ∃ (g : Move) (w w' : Walker ℝ) (integ : Integrator ℝ) (fuel : Nat) (w1 : Walker ℝ), WalkerMoved g w w' ∧
    (∀ k, IntegratorMoved g k integ) ∧ DcmStarts g w ∧ Plannable w ∧ g.delay = 0 ∧
    w.generate integ fuel insertion 0 (1 / 100) 20 = .done true w1 ∧
    ¬ ResultMoved g (w.generate integ fuel insertion 0 (1 / 100) 20) (w'.generate integ fuel insertion 0 (1 / 100) 20) := by
  obtain ⟨fuel, w1, h⟩ := demo_generates (l := []) (r := []) (by simp) (by simp) (Or.inl ⟨rfl, rfl⟩)
  obtain ⟨w', hw⟩ := C89_displaced ⟨0, ⟨1, 0⟩, 0⟩ (demo [] [])
  refine ⟨⟨0, ⟨1, 0⟩, 0⟩, demo [] [], w', still, fuel, w1, hw, still_moved _ (le_refl _), fun p hp => (by cases hp),
    demo_plannable (by simp) (by simp), rfl, h, fun hr => ?_⟩
  rw [h] at hr
  rcases hx : w'.generate still fuel insertion 0 (1 / 100) 20 with ⟨b, w1'⟩ | why | _ <;> rw [hx] at hr <;> try exact hr.elim
  obtain ⟨rfl, hm⟩ := hr
  have hcfg := hw.planner.rest
  have hk : w'.planner.controller = .direct := by rw [hcfg]; rfl
  have hwd : w'.planner.nominalWidth = (demo [] []).planner.nominalWidth := by rw [hcfg]
  have ht' : Timed w'.planner := by
    have := Planner.realDemo_timed
    rw [← demo_planner [] []] at this
    rw [hcfg]
    exact ⟨this.1, this.2, this.3⟩
  obtain ⟨s, rest, e1, e2⟩ := C89_origin (w := demo [] []) rfl (by rw [demo_planner]; exact Planner.realDemo_timed) rfl rfl h
  obtain ⟨s', rest', e3, e4⟩ := C89_origin hk ht' (by rw [hw.left]; rfl) (by rw [hw.right]; rfl) hx
  rw [hm.left] at e3
  simp only [Move.footPrint, e1, List.map_cons, List.cons.injEq] at e3
  rw [← e3.1, hwd] at e4
  have := congrArg Vec2.x e4
  simp [Move.step, Move.point, e2] at this

end Uni.Spec
