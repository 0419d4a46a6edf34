import Verif.Lemmas.MovedTiming

/-! # Displacements: the DCM -/

set_option autoImplicit false
set_option linter.unusedSectionVars false

namespace Uni.Spec.Move
variable (g : Move)

/-- An initial state of the DCM, displaced. -/
noncomputable def init (s : Vec2 ℝ × Vec2 ℝ) : Vec2 ℝ × Vec2 ℝ := (g.point s.1, g.vector s.2)

theorem piece_start (p : Piece ℝ) : (g.piece p).start = p.start := by cases p <;> rfl
theorem piece_stop (p : Piece ℝ) : (g.piece p).stop = p.stop := by cases p <;> rfl
theorem piece_finite (p : Piece ℝ) : (g.piece p).finite = p.finite := by cases p <;> rfl
theorem piece_zmpFinite (ω : ℝ) (p : Piece ℝ) : (g.piece p).zmpFinite ω = p.zmpFinite ω := by cases p <;> rfl
theorem piece_inDomain (p : Piece ℝ) (t tol : ℝ) : (g.piece p).inDomain t tol = p.inDomain t tol := by
  unfold Piece.inDomain; rw [piece_start, piece_stop]

theorem piece_pos (ω : ℝ) (p : Piece ℝ) (t : ℝ) : (g.piece p).pos ω t = g.point (p.pos ω t) := by
  cases p <;> ext <;>
    simp only [piece, Piece.pos, point, vector, dcmPoint, Vec2.add_x, Vec2.add_y, Vec2.smul_x, Vec2.smul_y, Vec2.sub_x,
      Vec2.sub_y, cubicPos, cubicCoeffs, quinticPos, quinticCoeffs] <;> ring

theorem piece_vel (ω : ℝ) (p : Piece ℝ) (t : ℝ) : (g.piece p).vel ω t = g.vector (p.vel ω t) := by
  cases p <;> ext <;>
    simp only [piece, Piece.vel, point, vector, dcmPoint, Vec2.add_x, Vec2.add_y, Vec2.smul_x, Vec2.smul_y, Vec2.sub_x,
      Vec2.sub_y, cubicVel, cubicCoeffs, quinticVel, quinticCoeffs] <;> ring

theorem vector_mul (k : ℝ) (v : Vec2 ℝ) : g.vector (k * v) = k * g.vector v := by
  ext <;> simp only [vector, Vec2.smul_x, Vec2.smul_y] <;> ring

theorem piece_zmp (ω : ℝ) (p : Piece ℝ) (t : ℝ) : (g.piece p).zmp ω t = g.point (p.zmp ω t) := by
  have h : (g.piece p).pos ω t - (1 / ω) * (g.piece p).vel ω t = g.point (p.pos ω t - (1 / ω) * p.vel ω t) := by
    rw [piece_pos, piece_vel, ← vector_mul, point_sub_vector]
  cases p
  · rfl
  · exact h
  · exact h

theorem piece_state (ω : ℝ) (p : Piece ℝ) (t tol : ℝ) : (g.piece p).state ω t tol = (p.state ω t tol).map g.init := by
  unfold Piece.state
  rw [piece_inDomain, piece_finite, piece_pos, piece_vel]
  split
  · split <;> rfl
  · rfl

theorem piece_sample (ω : ℝ) (p : Piece ℝ) (t tol : ℝ) : (g.piece p).sample ω t tol = (p.sample ω t tol).map g.dcm := by
  unfold Piece.sample
  rw [piece_state, Out.bind_map, Out.map_bind, piece_zmpFinite, piece_zmp]
  refine Out.bind_congr fun s => ?_
  split <;> rfl

theorem zmpOf (d : Dcm ℝ) (s : Step ℝ) : d.zmpOf (g.step s) = (d.zmpOf s).map g.point := by
  unfold Dcm.zmpOf
  simp only [step_footName, step_position, step_angle, in_frame]
  split
  · rfl
  split <;> rfl

theorem middle (a b : Vec2 ℝ) : Dcm.middle (g.point a) (g.point b) = g.point (Dcm.middle a b) := by
  ext <;> simp only [Dcm.middle, point, Vec2.smul_x, Vec2.smul_y, Vec2.add_x, Vec2.add_y] <;> ring

theorem addLastStep (d : Dcm ℝ) (a b e : ℝ) (z : Vec2 ℝ) (bt : ℝ) (bp target : Vec2 ℝ) :
    d.addLastStep a b e (g.point z) bt (g.point bp) (g.point target) =
      (d.addLastStep a b e z bt bp target).map (List.map g.piece) := by
  unfold Dcm.addLastStep
  have h : Piece.single a b (g.point z) bt (g.point bp) = g.piece (.single a b z bt bp) := rfl
  simp only [h, piece_state, Out.bind_map, Out.map_bind]
  refine Out.bind_congr fun s => ?_
  simp only [Out.map_ok, List.map_cons, List.map_nil, piece, dcmPoint, init, vector_zero]

theorem pausePieces (d : Dcm ℝ) (first : DcmPoint ℝ → DcmPoint ℝ → Piece ℝ)
    (h : ∀ i f, first (g.dcmPoint i) (g.dcmPoint f) = g.piece (first i f)) (i f : DcmPoint ℝ) (rest : Vec2 ℝ) :
    d.pausePieces first (g.dcmPoint i) (g.dcmPoint f) (g.point rest) = (d.pausePieces first i f rest).map g.piece := by
  simp only [Dcm.pausePieces, List.map_cons, List.map_nil]
  rw [← h]
  simp only [piece, dcmPoint, vector_zero]

theorem doubleSupport (d : Dcm ℝ) (first : DcmPoint ℝ → DcmPoint ℝ → Piece ℝ)
    (h : ∀ i f, first (g.dcmPoint i) (g.dcmPoint f) = g.piece (first i f)) (i f : DcmPoint ℝ) (rest : Vec2 ℝ) :
    d.doubleSupport first (g.dcmPoint i) (g.dcmPoint f) (g.point rest) = (d.doubleSupport first i f rest).map g.piece := by
  unfold Dcm.doubleSupport
  rw [g.pausePieces d first h, h]
  simp only [dcmPoint]
  split_ifs <;> simp_all

theorem addNewStep (d : Dcm ℝ) (a b : ℝ) (z : Vec2 ℝ) (bt : ℝ) (bp : Vec2 ℝ) (tr : List (Piece ℝ)) :
    d.addNewStep a b (g.point z) bt (g.point bp) (tr.map g.piece) = (d.addNewStep a b z bt bp tr).map (List.map g.piece) := by
  rcases tr with _ | ⟨next, rest⟩
  · rfl
  have h : Piece.single a b (g.point z) bt (g.point bp) = g.piece (.single a b z bt bp) := rfl
  simp only [List.map_cons, Dcm.addNewStep, h, piece_start, piece_state, Out.bind_map, Out.map_bind, piece_zmp, middle]
  refine Out.bind_congr fun s => Out.bind_congr fun e => ?_
  simp only [Out.map_ok, List.map_append, List.map_cons]
  congr 3
  exact g.doubleSupport d .cubic (fun _ _ => rfl) ⟨b, s.1, s.2⟩ ⟨next.start, e.1, e.2⟩ _

theorem firstPiece (d : Dcm ℝ) (i f : DcmPoint ℝ) : d.firstPiece (g.dcmPoint i) (g.dcmPoint f) = g.piece (d.firstPiece i f) := by
  unfold Dcm.firstPiece
  split
  · simp [piece]
  · rfl

theorem addFirst (d : Dcm ℝ) (i : DcmPoint ℝ) (s : Step ℝ) (tr : List (Piece ℝ)) :
    d.addFirst (g.dcmPoint i) (g.step s) (tr.map g.piece) = (d.addFirst i s tr).map (List.map g.piece) := by
  rcases tr with _ | ⟨next, rest⟩
  · rfl
  simp only [List.map_cons, Dcm.addFirst, piece_start, piece_state, Out.bind_map, Out.map_bind, piece_zmp]
  refine Out.bind_congr fun e => ?_
  have hi : (g.dcmPoint i).time = i.time := rfl
  simp only [hi]
  split
  · simp only [zmpOf, Out.bind_map, Out.map_bind, middle]
    refine Out.bind_congr fun z => ?_
    simp only [Out.map_ok, List.map_append, List.map_cons]
    congr 2
    exact g.pausePieces d d.firstPiece (g.firstPiece d) i ⟨next.start, e.1, e.2⟩ _
  · simp only [Out.map_ok, List.map_cons, Out.ok.injEq, List.cons.injEq, and_true]
    exact g.firstPiece d i ⟨next.start, e.1, e.2⟩

theorem dcm_addSteps (d : Dcm ℝ) : ∀ (shifts : List Nat) (steps : List (Step ℝ)) (tr : List (Piece ℝ)),
    d.addSteps shifts (steps.map g.step) (tr.map g.piece) = (d.addSteps shifts steps tr).map (List.map g.piece)
  | [], steps, tr => by simp only [Dcm.addSteps, Out.map_ok]
  | [_], steps, tr => by simp only [Dcm.addSteps, Out.map_ok]
  | [_, _], steps, tr => by simp only [Dcm.addSteps, Out.map_ok]
  | e :: s :: x :: shifts, steps, tr => by
    rcases steps with _ | ⟨step, steps⟩
    · simp only [List.map_nil, Dcm.addSteps, Out.map_ub]
    rcases tr with _ | ⟨next, rest⟩
    · simp only [List.map_nil, List.map_cons, Dcm.addSteps, Out.map_ub]
    simp only [List.map_cons, Dcm.addSteps, piece_start, piece_pos, zmpOf, Out.bind_map, Out.map_bind]
    refine Out.bind_congr fun z => ?_
    rw [← List.map_cons, addNewStep, Out.bind_map]
    exact Out.bind_congr fun tr => dcm_addSteps d (x :: shifts) steps tr

theorem firstSwing (p : Phase) (a b : Step ℝ) : Dcm.firstSwing p (g.step a) (g.step b) = g.step (Dcm.firstSwing p a b) := by
  simp only [Dcm.firstSwing, step_footName]
  split_ifs <;> simp_all

theorem offset_point (k : ℝ) (p q : Vec2 ℝ) : (1 - k) * g.point p + k * g.point q = g.point ((1 - k) * p + k * q) := by
  ext <;> simp only [point, Vec2.smul_x, Vec2.smul_y, Vec2.add_x, Vec2.add_y] <;> ring

theorem walkPieces (d : Dcm ℝ) (shifts : List Nat) (steps : List (Step ℝ)) (phases : List Phase) (ordered : List (Step ℝ))
    (i : Vec2 ℝ × Vec2 ℝ) : d.walkPieces shifts (steps.map g.step) phases (ordered.map g.step) (g.init i) =
      (d.walkPieces shifts steps phases ordered i).map (List.map g.piece) := by
  rcases shifts with _ | ⟨e, _ | ⟨s, _ | ⟨a, _ | ⟨x, rest⟩⟩⟩⟩
  · simp only [Dcm.walkPieces, Out.map_ub]
  · simp only [Dcm.walkPieces, Out.map_ub]
  · simp only [Dcm.walkPieces, Out.map_ub]
  · simp only [Dcm.walkPieces, Out.map_ub]
  rcases steps with _ | ⟨last, _ | ⟨other, steps⟩⟩
  · simp only [List.map_nil, Dcm.walkPieces, Out.map_ub]
  · simp only [List.map_nil, List.map_cons, Dcm.walkPieces, Out.map_ub]
  rcases ordered with _ | ⟨o1, _ | ⟨o2, o⟩⟩
  · simp only [List.map_nil, List.map_cons, Dcm.walkPieces, Out.map_ub]
  · simp only [List.map_nil, List.map_cons, Dcm.walkPieces, Out.map_ub]
  simp only [List.map_cons, Dcm.walkPieces, zmpOf, Out.bind_map, Out.map_bind, offset_point, middle, addLastStep, dcm_addSteps]
  refine Out.bind_congr fun _ => Out.bind_congr fun _ => Out.bind_congr fun _ => Out.bind_congr fun _ => ?_
  cases phases[0]? with
  | none => rfl
  | some p =>
    simp only [firstSwing]
    exact g.addFirst d ⟨0, i.1, i.2⟩ _ _

theorem standPieces (d : Dcm ℝ) (front back : Nat) (a b : Step ℝ) (i : Vec2 ℝ × Vec2 ℝ) :
    d.standPieces front back (g.step a) (g.step b) (g.init i) = (d.standPieces front back a b i).map (List.map g.piece) := by
  simp only [Dcm.standPieces, zmpOf, Out.bind_map, Out.map_bind, middle]
  refine Out.bind_congr fun _ => Out.bind_congr fun _ => ?_
  simp only [Out.map_ok, List.map_cons, List.map_nil, piece, dcmPoint, init, vector_zero]

theorem dcm_pieces (d : Dcm ℝ) (ordered : List (Step ℝ)) (phases : List Phase) (i : Vec2 ℝ × Vec2 ℝ) (shifts : List Nat) :
    d.pieces (ordered.map g.step) phases (g.init i) shifts = (d.pieces ordered phases i shifts).map (List.map g.piece) := by
  rcases ordered with _ | ⟨a, _ | ⟨b, _ | ⟨c, o⟩⟩⟩
  · rfl
  · rfl
  · simp only [List.map_cons, List.map_nil, Dcm.pieces]
    cases shifts.head? <;> cases shifts.getLast? <;> try rfl
    exact g.standPieces d _ _ a b i
  · simp only [List.map_cons, Dcm.pieces]
    cases shifts.head? <;> cases shifts.getLast? <;> try rfl
    simp only
    have := g.walkPieces d shifts.reverse (a :: b :: c :: o).reverse phases (a :: b :: c :: o) i
    rw [List.map_reverse] at this
    simpa only [List.map_cons] using this

theorem evaluate (d : Dcm ℝ) : ∀ (n t : Nat) (tr : List (Piece ℝ)),
    d.evaluate n t (tr.map g.piece) = (d.evaluate n t tr).map (List.map g.dcm)
  | 0, _, _ => by simp only [Dcm.evaluate, Out.map_ok, List.map_nil]
  | n + 1, t, [] => by simp only [List.map_nil, Dcm.evaluate, Out.map_ub]
  | n + 1, t, p :: ps => by
    simp only [List.map_cons, Dcm.evaluate, piece_stop]
    have e : (if p.stop < (t : ℝ) * d.dT then ps.map g.piece else g.piece p :: ps.map g.piece) =
        (if p.stop < (t : ℝ) * d.dT then ps else p :: ps).map g.piece := by
      split <;> rfl
    rw [e]
    rcases (if p.stop < (t : ℝ) * d.dT then ps else p :: ps) with _ | ⟨q, qs⟩
    · rfl
    · simp only [List.map_cons, piece_sample, Out.bind_map, Out.map_bind]
      refine Out.bind_congr fun s => ?_
      have := evaluate d n (t + 1) (q :: qs)
      rw [List.map_cons] at this
      rw [this, Out.bind_map]
      rfl

theorem leftWeight (a b z : Vec2 ℝ) : Dcm.leftWeight (g.point a) (g.point b) (g.point z) = Dcm.leftWeight a b z := by
  simp only [Dcm.leftWeight, point_sub, norm_vector]

theorem footZmp (δ : Vec2 ℝ) (s : Step ℝ) : Dcm.footZmp δ (g.step s) = g.point (Dcm.footZmp δ s) := by
  simp only [Dcm.footZmp, step_position, step_angle, in_frame]

theorem dcm_weightBody (d : Dcm ℝ) (zmps : List (Vec2 ℝ)) (a : Nat) (b : Bool) (p : Phase) (start stop : Nat)
    (s : List (Step ℝ) × List (Step ℝ)) :
    d.weightBody (zmps.map g.point) a b p start stop (s.1.map g.step, s.2.map g.step) =
      (d.weightBody zmps a b p start stop s).map fun r => ((r.1.1.map g.step, r.1.2.map g.step), r.2.map id) := by
  obtain ⟨l, r⟩ := s
  cases p
  case stance => rcases r with _ | ⟨_, _ | ⟨_, r⟩⟩ <;> simp [Dcm.weightBody]
  case swing => rcases l with _ | ⟨_, _ | ⟨_, l⟩⟩ <;> simp [Dcm.weightBody]
  all_goals
    rcases l with _ | ⟨l, ls⟩
    · simp [Dcm.weightBody]
    rcases r with _ | ⟨r, rs⟩
    · simp [Dcm.weightBody]
    simp only [List.map_cons, Dcm.weightBody, ← List.map_drop, ← List.map_take, List.length_map, footZmp, List.map_map]
    split
    · rfl
    · simp only [Out.map_ok, List.map_cons, List.map_id, Out.ok.injEq, Prod.mk.injEq, true_and]
      refine List.map_congr_left fun z _ => ?_
      simp only [Function.comp, leftWeight]

theorem feetWeights (d : Dcm ℝ) (phases : List Phase) (shifts : List Nat) (left right : List (Step ℝ)) (zmps : List (Vec2 ℝ)) :
    d.feetWeights phases shifts (left.map g.step) (right.map g.step) (zmps.map g.point) =
      d.feetWeights phases shifts left right zmps := by
  unfold Dcm.feetWeights overPhases
  have := phaseLoop_map (fun s : List (Step ℝ) × List (Step ℝ) => (s.1.map g.step, s.2.map g.step)) (id : ℝ × ℝ → ℝ × ℝ)
    (d.weightBody zmps) (d.weightBody (zmps.map g.point)) phases (g.dcm_weightBody d zmps) shifts.tail 1 0 (left, right)
  rw [this, Out.bind_map]
  simp only [List.map_id]

theorem dcm_generate (d : Dcm ℝ) (ordered : List (Step ℝ)) (phases : List Phase) (left right : List (Step ℝ))
    (i : Vec2 ℝ × Vec2 ℝ) (shifts : List Nat) :
    d.generate (ordered.map g.step) phases (left.map g.step) (right.map g.step) (g.init i) shifts =
      (d.generate ordered phases left right i shifts).map g.dcmOut := by
  unfold Dcm.generate
  simp only [dcm_pieces, evaluate, Out.bind_map, Out.map_bind, List.map_map]
  refine Out.bind_congr fun tr => Out.bind_congr fun n => Out.bind_congr fun l => ?_
  have e : (DcmSample.zmp ∘ g.dcm) = g.point ∘ DcmSample.zmp := rfl
  rw [e, ← List.map_map, feetWeights]
  rfl

theorem addSteps_initial (d : Dcm ℝ) (i : Option (Vec2 ℝ × Vec2 ℝ)) :
    ∀ (shifts : List Nat) (steps : List (Step ℝ)) (tr : List (Piece ℝ)),
    ({ d with initial := i } : Dcm ℝ).addSteps shifts steps tr = d.addSteps shifts steps tr
  | [], steps, tr => by simp only [Dcm.addSteps]
  | [_], steps, tr => by simp only [Dcm.addSteps]
  | [_, _], steps, tr => by simp only [Dcm.addSteps]
  | e :: s :: x :: shifts, steps, tr => by
    rcases steps with _ | ⟨step, steps⟩
    · simp only [Dcm.addSteps]
    rcases tr with _ | ⟨next, rest⟩
    · simp only [Dcm.addSteps]
    simp only [Dcm.addSteps]
    refine Out.bind_congr fun z => Out.bind_congr fun tr => addSteps_initial d i (x :: shifts) steps tr

theorem evaluate_initial (d : Dcm ℝ) (i : Option (Vec2 ℝ × Vec2 ℝ)) : ∀ (n t : Nat) (tr : List (Piece ℝ)),
    ({ d with initial := i } : Dcm ℝ).evaluate n t tr = d.evaluate n t tr
  | 0, _, _ => by simp only [Dcm.evaluate]
  | n + 1, t, [] => by simp only [Dcm.evaluate]
  | n + 1, t, p :: ps => by
    simp only [Dcm.evaluate]
    rcases (if p.stop < (t : ℝ) * d.dT then ps else p :: ps) with _ | ⟨q, qs⟩
    · rfl
    · exact Out.bind_congr fun s => by rw [evaluate_initial d i n (t + 1) (q :: qs)]

theorem walk_initial (d : Dcm ℝ) (i : Option (Vec2 ℝ × Vec2 ℝ)) (shifts : List Nat) (steps : List (Step ℝ))
    (phases : List Phase) (ordered : List (Step ℝ)) (j : Vec2 ℝ × Vec2 ℝ) :
    ({ d with initial := i } : Dcm ℝ).walkPieces shifts steps phases ordered j = d.walkPieces shifts steps phases ordered j := by
  unfold Dcm.walkPieces
  simp only [addSteps_initial]
  rfl

theorem generate_initial (d : Dcm ℝ) (i : Option (Vec2 ℝ × Vec2 ℝ)) (ordered : List (Step ℝ)) (phases : List Phase)
    (left right : List (Step ℝ)) (j : Vec2 ℝ × Vec2 ℝ) (shifts : List Nat) :
    ({ d with initial := i } : Dcm ℝ).generate ordered phases left right j shifts =
      d.generate ordered phases left right j shifts := by
  unfold Dcm.generate Dcm.pieces
  simp only [evaluate_initial, walk_initial]
  rfl

/-- The members of the DCM generator, displaced. -/
noncomputable def dcmState (d : Dcm ℝ) : Dcm ℝ := { d with initial := d.initial.map g.init }

theorem setPauseConditions (d : Dcm ℝ) (a : Bool) (x y z : ℝ) :
    (g.dcmState d).setPauseConditions a x y z =
      ((d.setPauseConditions a x y z).1, g.dcmState (d.setPauseConditions a x y z).2) := by
  unfold Dcm.setPauseConditions
  split
  · rfl
  simp only
  split <;> rfl

theorem setPause_initial (d : Dcm ℝ) (a : Bool) (x y z : ℝ) : (d.setPauseConditions a x y z).2.initial = d.initial := by
  unfold Dcm.setPauseConditions
  split
  · rfl
  simp only
  split <;> rfl

theorem setInitial (d : Dcm ℝ) (h : d.specified = true ∨ g.vector (d.leftDelta + d.rightDelta) = d.leftDelta + d.rightDelta)
    (left right : List (Step ℝ)) : (g.dcmState d).setInitial (left.map g.step) (right.map g.step) =
      (d.setInitial left right).map g.dcmState := by
  unfold Dcm.setInitial
  have e : (g.dcmState d).specified = d.specified := rfl
  rw [e]
  split
  · rfl
  · rename_i hs
    rcases left with _ | ⟨l, ls⟩
    · rfl
    rcases right with _ | ⟨r, rs⟩
    · rfl
    have h := h.resolve_left hs
    have hm : Dcm.middle ((g.step l).position + d.leftDelta) ((g.step r).position + d.rightDelta) =
        g.point (Dcm.middle (l.position + d.leftDelta) (r.position + d.rightDelta)) := by
      have hx := congrArg Vec2.x h
      have hy := congrArg Vec2.y h
      simp only [vector, Vec2.add_x, Vec2.add_y] at hx hy
      ext <;> simp only [Dcm.middle, step_position, point, Vec2.smul_x, Vec2.smul_y, Vec2.add_x, Vec2.add_y]
      · linear_combination -hx / 2
      · linear_combination -hy / 2
    simp only [List.map_cons, Out.map_ok]
    have h1 : (g.dcmState d).leftDelta = d.leftDelta := rfl
    have h2 : (g.dcmState d).rightDelta = d.rightDelta := rfl
    rw [h1, h2, hm]
    simp [dcmState, init]

theorem dcm_new (d : Dcm ℝ) (h : d.specified = true ∨ g.vector (d.leftDelta + d.rightDelta) = d.leftDelta + d.rightDelta)
    (cfg : GenSettings ℝ) (initTime dT : ℝ) (ordered : List (Step ℝ)) (shifts : List Nat) (phases : List Phase)
    (left right : FootPrint ℝ) :
    (g.dcmState d).computeNewTrajectories cfg (initTime + g.delay) dT (ordered.map g.step) shifts phases (g.footPrint left)
      (g.footPrint right) =
      (d.computeNewTrajectories cfg initTime dT ordered shifts phases left right).map
        fun r => (r.1, g.dcmState r.2.1, r.2.2.map g.dcmOut) := by
  unfold Dcm.computeNewTrajectories
  simp only [footPrint_steps, g.setInitial d h, Out.bind_map, Out.map_bind]
  refine Out.bind_congr fun d => ?_
  rcases left.steps with _ | ⟨l, ls⟩
  · rfl
  rcases right.steps with _ | ⟨r, rs⟩
  · rfl
  simp only [List.map_cons, step_impactTime]
  have e : (initTime + g.delay < max (l.impactTime + g.delay) (r.impactTime + g.delay)) ↔
      initTime < max l.impactTime r.impactTime := by
    rw [max_add_add_right]; exact add_lt_add_iff_right _
  simp only [e]
  split
  · rfl
  split
  · rfl
  have e2 : { g.dcmState d with dT := dT } = g.dcmState { d with dT := dT } := rfl
  rw [e2, setPauseConditions]
  rcases hs : ({ d with dT := dT } : Dcm ℝ).setPauseConditions cfg.pauseActive (cfg.switchPercentage * cfg.maxStepTime)
    (cfg.switchPercentage * cfg.nominalStepTime) cfg.endSwitch with ⟨b, d'⟩
  cases b
  · rfl
  · simp only
    have e3 : (g.dcmState d').initial = d'.initial.map g.init := rfl
    rw [e3]
    cases d'.initial with
    | none => rfl
    | some i =>
      simp only [Option.map_some]
      have := g.dcm_generate d' ordered phases (l :: ls) (r :: rs) i shifts
      simp only [List.map_cons] at this
      rw [dcmState, generate_initial, this]
      cases d'.generate ordered phases (l :: ls) (r :: rs) i shifts <;> rfl

end Uni.Spec.Move
