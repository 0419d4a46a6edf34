import Verif.Lemmas.MirrorZmp

/-! # Mirrored walks: the DCM -/

set_option autoImplicit false
set_option linter.unusedSectionVars false

namespace Uni

theorem Out.bind_congr_ok {α β : Type} {x : Out α} {k k' : α → Out β} (h : ∀ a, x = .ok a → k a = k' a) :
    (x >>= k) = x >>= k' := by
  cases hx : x with
  | ok a => exact h a hx
  | fail => rfl
  | ub w => rfl

namespace Spec.Mirror
variable {K : Type} [Field K] [LinearOrder K] [IsStrictOrderedRing K] [FloorRing K] [Trig K]

theorem piece_start (p : Piece K) : (piece p).start = p.start := by cases p <;> rfl
theorem piece_stop (p : Piece K) : (piece p).stop = p.stop := by cases p <;> rfl
theorem piece_finite (p : Piece K) : (piece p).finite = p.finite := by cases p <;> rfl
theorem piece_zmpFinite (ω : K) (p : Piece K) : (piece p).zmpFinite ω = p.zmpFinite ω := by cases p <;> rfl
theorem piece_inDomain (p : Piece K) (t tol : K) : (piece p).inDomain t tol = p.inDomain t tol := by
  unfold Piece.inDomain; rw [piece_start, piece_stop]

theorem piece_pos (ω : K) (p : Piece K) (t : K) : (piece p).pos ω t = vector (p.pos ω t) := by
  cases p <;> ext <;>
    simp only [piece, Piece.pos, vector, dcmPoint, Vec2.add_x, Vec2.add_y, Vec2.smul_x, Vec2.smul_y, Vec2.sub_x,
      Vec2.sub_y, cubicPos, cubicCoeffs, quinticPos, quinticCoeffs] <;> ring

theorem piece_vel (ω : K) (p : Piece K) (t : K) : (piece p).vel ω t = vector (p.vel ω t) := by
  cases p <;> ext <;>
    simp only [piece, Piece.vel, vector, dcmPoint, Vec2.smul_x, Vec2.smul_y, Vec2.sub_x,
      Vec2.sub_y, cubicVel, cubicCoeffs, quinticVel, quinticCoeffs] <;> ring

theorem piece_zmp (ω : K) (p : Piece K) (t : K) : (piece p).zmp ω t = vector (p.zmp ω t) := by
  have h : (piece p).pos ω t - (1 / ω) * (piece p).vel ω t = vector (p.pos ω t - (1 / ω) * p.vel ω t) := by
    rw [piece_pos, piece_vel, vector_sub, vector_mul]
  cases p
  · rfl
  · exact h
  · exact h

theorem piece_state (ω : K) (p : Piece K) (t tol : K) : (piece p).state ω t tol = (p.state ω t tol).map init := by
  unfold Piece.state
  rw [piece_inDomain, piece_finite, piece_pos, piece_vel]
  split
  · split <;> rfl
  · rfl

theorem piece_sample (ω : K) (p : Piece K) (t tol : K) : (piece p).sample ω t tol = (p.sample ω t tol).map dcm := by
  unfold Piece.sample
  rw [piece_state, Out.bind_map, Out.map_bind, piece_zmpFinite, piece_zmp]
  refine Out.bind_congr fun s => ?_
  split <;> rfl

section
variable (d : Dcm K)
@[simp] theorem dcmState_dT : (dcmState d).dT = d.dT := rfl
@[simp] theorem dcmState_omega : (dcmState d).omega = d.omega := rfl
@[simp] theorem dcmState_alpha : (dcmState d).alpha = d.alpha := rfl
@[simp] theorem dcmState_stillness : (dcmState d).stillness = d.stillness := rfl
@[simp] theorem dcmState_lastOffset : (dcmState d).lastOffset = d.lastOffset := rfl
@[simp] theorem dcmState_nominalSwitch : (dcmState d).nominalSwitch = d.nominalSwitch := rfl
@[simp] theorem dcmState_endSwitch : (dcmState d).endSwitch = d.endSwitch := rfl
@[simp] theorem dcmState_quintic : (dcmState d).quintic = d.quintic := rfl
@[simp] theorem dcmState_pauses (x : K) : (dcmState d).pauses x = d.pauses x := rfl

theorem zmpOf (hp : TrigParity K) (s : Step K) : (dcmState d).zmpOf (step s) = (d.zmpOf s).map vector := by
  unfold Dcm.zmpOf
  simp only [step_footName, step_position, step_angle, name_left, name_right, dcmState, rot_vector hp]
  by_cases h : s.footName = "left"
  · have h' : ¬ s.footName = "right" := by rw [h]; decide
    simp only [if_pos h, if_neg h', Out.map_ok, vector_add]
  · by_cases h' : s.footName = "right"
    · simp only [if_neg h, if_pos h', Out.map_ok, vector_add]
    · simp only [if_neg h, if_neg h', Out.map_fail]

theorem middle (a b : Vec2 K) : Dcm.middle (vector a) (vector b) = vector (Dcm.middle a b) := by
  simp only [Dcm.middle, vector_mul, vector_add]

theorem addLastStep (a b e : K) (z : Vec2 K) (bt : K) (bp target : Vec2 K) :
    (dcmState d).addLastStep a b e (vector z) bt (vector bp) (vector target) =
      (d.addLastStep a b e z bt bp target).map (List.map piece) := by
  unfold Dcm.addLastStep
  have h : Piece.single a b (vector z) bt (vector bp) = piece (.single a b z bt bp) := rfl
  simp only [h, piece_state, Out.bind_map, Out.map_bind, dcmState_dT, dcmState_omega, dcmState_stillness]
  refine Out.bind_congr fun s => ?_
  simp only [Out.map_ok, List.map_cons, List.map_nil, piece, dcmPoint, init, vector_zero]

theorem pausePieces (first first' : DcmPoint K → DcmPoint K → Piece K)
    (h : ∀ i f, first' (dcmPoint i) (dcmPoint f) = piece (first i f)) (i f : DcmPoint K) (rest : Vec2 K) :
    (dcmState d).pausePieces first' (dcmPoint i) (dcmPoint f) (vector rest) = (d.pausePieces first i f rest).map piece := by
  simp only [Dcm.pausePieces, List.map_cons, List.map_nil, dcmState_nominalSwitch, dcmState_endSwitch]
  rw [← h]
  simp only [piece, dcmPoint, vector_zero]

theorem doubleSupport (first first' : DcmPoint K → DcmPoint K → Piece K)
    (h : ∀ i f, first' (dcmPoint i) (dcmPoint f) = piece (first i f)) (i f : DcmPoint K) (rest : Vec2 K) :
    (dcmState d).doubleSupport first' (dcmPoint i) (dcmPoint f) (vector rest) = (d.doubleSupport first i f rest).map piece := by
  unfold Dcm.doubleSupport
  rw [pausePieces d first first' h, h, dcmState_pauses]
  have e : (dcmPoint f).time - (dcmPoint i).time = f.time - i.time := rfl
  rw [e]
  split <;> rfl

theorem addNewStep (a b : K) (z : Vec2 K) (bt : K) (bp : Vec2 K) (tr : List (Piece K)) :
    (dcmState d).addNewStep a b (vector z) bt (vector bp) (tr.map piece) =
      (d.addNewStep a b z bt bp tr).map (List.map piece) := by
  rcases tr with _ | ⟨next, rest⟩
  · rfl
  have h : Piece.single a b (vector z) bt (vector bp) = piece (.single a b z bt bp) := rfl
  simp only [List.map_cons, Dcm.addNewStep, h, piece_start, piece_state, Out.bind_map, Out.map_bind, piece_zmp, middle,
    dcmState_dT, dcmState_omega]
  refine Out.bind_congr fun s => Out.bind_congr fun e => ?_
  simp only [Out.map_ok, List.map_append, List.map_cons]
  congr 3
  exact doubleSupport d .cubic .cubic (fun _ _ => rfl) ⟨b, s.1, s.2⟩ ⟨next.start, e.1, e.2⟩ _

theorem firstPiece (i f : DcmPoint K) : (dcmState d).firstPiece (dcmPoint i) (dcmPoint f) = piece (d.firstPiece i f) := by
  unfold Dcm.firstPiece
  rw [dcmState_quintic]
  split
  · simp only [piece, vector_zero]
  · rfl

/-- The foot that swings first matters in a pause only. -/
theorem addFirst (hp : TrigParity K) (i : DcmPoint K) (s s' : Step K) (tr : List (Piece K))
    (h : s' = step s ∨ ∀ n r, tr = n :: r → d.pauses (n.start - i.time) = false) :
    (dcmState d).addFirst (dcmPoint i) s' (tr.map piece) = (d.addFirst i s tr).map (List.map piece) := by
  rcases tr with _ | ⟨next, rest⟩
  · rfl
  simp only [List.map_cons, Dcm.addFirst, piece_start, piece_state, Out.bind_map, Out.map_bind, piece_zmp, dcmState_dT,
    dcmState_omega, dcmState_pauses]
  refine Out.bind_congr fun e => ?_
  have hi : (dcmPoint i).time = i.time := rfl
  simp only [hi]
  by_cases hq : d.pauses (next.start - i.time) = true
  · rcases h with rfl | h
    · simp only [if_pos hq, zmpOf d hp, Out.bind_map, Out.map_bind, middle]
      refine Out.bind_congr fun z => ?_
      simp only [Out.map_ok, List.map_append, List.map_cons]
      congr 2
      exact pausePieces d d.firstPiece _ (firstPiece d) i ⟨next.start, e.1, e.2⟩ _
    · rw [h _ _ rfl] at hq; cases hq
  · simp only [if_neg hq, Out.map_ok, List.map_cons, Out.ok.injEq, List.cons.injEq, and_true]
    exact firstPiece d i ⟨next.start, e.1, e.2⟩

theorem dcm_addSteps (hp : TrigParity K) : ∀ (shifts : List Nat) (steps : List (Step K)) (tr : List (Piece K)),
    (dcmState d).addSteps shifts (steps.map step) (tr.map piece) = (d.addSteps shifts steps tr).map (List.map piece)
  | [], steps, tr => by simp only [Dcm.addSteps, Out.map_ok]
  | [_], steps, tr => by simp only [Dcm.addSteps, Out.map_ok]
  | [_, _], steps, tr => by simp only [Dcm.addSteps, Out.map_ok]
  | e :: s :: x :: shifts, steps, tr => by
    rcases steps with _ | ⟨st, steps⟩
    · simp only [List.map_nil, Dcm.addSteps, Out.map_ub]
    rcases tr with _ | ⟨next, rest⟩
    · simp only [List.map_nil, List.map_cons, Dcm.addSteps, Out.map_ub]
    simp only [List.map_cons, Dcm.addSteps, piece_start, piece_pos, zmpOf d hp, Out.bind_map, Out.map_bind, dcmState_dT,
      dcmState_alpha, dcmState_omega]
    refine Out.bind_congr fun z => ?_
    rw [← List.map_cons, addNewStep, Out.bind_map]
    exact Out.bind_congr fun tr => dcm_addSteps hp (x :: shifts) steps tr

/-- Where the trajectory begins before its first double support is added. -/
theorem addSteps_start : ∀ (shifts : List Nat) (steps : List (Step K)) (next : Piece K) (rest : List (Piece K)) (s : Nat)
    (tr' : List (Piece K)), d.addSteps shifts steps (next :: rest) = .ok tr' → next.start = (s : K) * d.dT →
    shifts.length % 2 = 1 → ∃ q : Nat, (s :: shifts).reverse[1]? = some q ∧ ∃ n r, tr' = n :: r ∧ n.start = (q : K) * d.dT
  | [], steps, next, rest, s, tr', h, hs, ho => by simp at ho
  | [x], steps, next, rest, s, tr', h, hs, ho => by
    simp only [Dcm.addSteps, Out.ok.injEq] at h
    exact ⟨s, by simp, next, rest, h.symm, hs⟩
  | [_, _], steps, next, rest, s, tr', h, hs, ho => by simp at ho
  | e :: s' :: x :: shifts, steps, next, rest, s, tr', h, hs, ho => by
    rcases steps with _ | ⟨st, steps⟩
    · simp only [Dcm.addSteps] at h; cases h
    simp only [Dcm.addSteps] at h
    obtain ⟨z, -, h⟩ := Out.bind_eq_ok.mp h
    obtain ⟨tr1, h1, h⟩ := Out.bind_eq_ok.mp h
    simp only [Dcm.addNewStep] at h1
    obtain ⟨a, -, h1⟩ := Out.bind_eq_ok.mp h1
    obtain ⟨b, -, h1⟩ := Out.bind_eq_ok.mp h1
    simp only [Out.ok.injEq, List.cons_append] at h1
    subst h1
    obtain ⟨q, h2, h3⟩ := addSteps_start (x :: shifts) steps _ _ s' tr' h rfl (by simp at ho ⊢; omega)
    refine ⟨q, ?_, h3⟩
    have e1 : (s :: e :: s' :: x :: shifts).reverse = (s' :: x :: shifts).reverse ++ [e, s] := by simp
    rw [e1, List.getElem?_append_left (by simp), h2]

theorem firstSwing (p : Phase) (h : p = .switchIn ∨ p = .switchOut) (a b : Step K) :
    Dcm.firstSwing (phase p) (step a) (step b) = step (Dcm.firstSwing p a b) := by
  rcases h with rfl | rfl
  · simp only [Dcm.firstSwing, phase, step_footName, name_left, reduceCtorEq, if_false, if_true]
    split <;> rfl
  · simp only [Dcm.firstSwing, phase, step_footName, name_right, reduceCtorEq, if_false, if_true]
    split <;> rfl

theorem offset_vector (k : K) (p q : Vec2 K) : (1 - k) * vector p + k * vector q = vector ((1 - k) * p + k * q) := by
  simp only [vector_mul, vector_add]

/-- What is known of the first phase: if it is not a double support then there is no time before it. -/
structure First (phases : List Phase) (shifts : List Nat) : Prop where
  even : shifts.length % 2 = 0
  double : ∀ s p, shifts[1]? = some s → 0 < s → phases[0]? = some p → p = .switchIn ∨ p = .switchOut

theorem walkPieces (hp : TrigParity K) (hm : 0 ≤ d.maxSwitch) (shifts : List Nat) (steps : List (Step K)) (phases : List Phase)
    (hf : First phases shifts.reverse) (ordered : List (Step K)) (i : Vec2 K × Vec2 K) :
    (dcmState d).walkPieces shifts (steps.map step) (phases.map phase) (ordered.map step) (init i) =
      (d.walkPieces shifts steps phases ordered i).map (List.map piece) := by
  rcases shifts with _ | ⟨e, _ | ⟨s, _ | ⟨a, _ | ⟨x, rest⟩⟩⟩⟩
  · simp only [Dcm.walkPieces, Out.map_ub]
  · simp only [Dcm.walkPieces, Out.map_ub]
  · simp only [Dcm.walkPieces, Out.map_ub]
  · simp only [Dcm.walkPieces, Out.map_ub]
  rcases steps with _ | ⟨last, _ | ⟨other, steps⟩⟩
  · simp only [List.map_nil, Dcm.walkPieces, Out.map_ub]
  · simp only [List.map_nil, List.map_cons, Dcm.walkPieces, Out.map_ub]
  rcases ordered with _ | ⟨o1, _ | ⟨o2, o⟩⟩
  · simp only [List.map_nil, List.map_cons, Dcm.walkPieces, Out.map_ub]
  · simp only [List.map_nil, List.map_cons, Dcm.walkPieces, Out.map_ub]
  simp only [List.map_cons, Dcm.walkPieces, zmpOf d hp, Out.bind_map, Out.map_bind, offset_vector, middle, addLastStep,
    dcm_addSteps d hp, dcmState_dT, dcmState_lastOffset]
  refine Out.bind_congr fun zl => Out.bind_congr fun zo => Out.bind_congr_ok fun tr htr => Out.bind_congr_ok fun tr' htr' => ?_
  rw [List.getElem?_map]
  cases h0 : phases[0]? with
  | none => rfl
  | some p =>
    simp only [Option.map_some]
    refine addFirst d hp ⟨0, i.1, i.2⟩ _ _ _ ?_
    obtain ⟨s1, -, htr⟩ := Out.bind_eq_ok.mp htr
    cases htr
    obtain ⟨q, h1, n, r, rfl, h3⟩ := addSteps_start d _ _ _ _ a _ htr' rfl (by have := hf.even; simp at this ⊢; omega)
    rcases Nat.eq_zero_or_pos q with rfl | hq
    · refine .inr fun n' r' hn => ?_
      cases hn
      rw [h3]
      simp only [Nat.cast_zero, zero_mul, sub_zero, Dcm.pauses, Bool.and_eq_false_iff, decide_eq_false_iff_not, not_lt]
      exact .inr (le_max_of_le_left hm)
    · refine .inl (firstSwing p (hf.double q p ?_ hq h0) o1 o2)
      have e1 : (e :: s :: a :: x :: rest).reverse = (a :: x :: rest).reverse ++ [s, e] := by simp
      rw [e1, List.getElem?_append_left (by simp), h1]

theorem standPieces (hp : TrigParity K) (front back : Nat) (a b : Step K) (i : Vec2 K × Vec2 K) :
    (dcmState d).standPieces front back (step a) (step b) (init i) = (d.standPieces front back a b i).map (List.map piece) := by
  simp only [Dcm.standPieces, zmpOf d hp, Out.bind_map, Out.map_bind, middle, dcmState_dT]
  refine Out.bind_congr fun _ => Out.bind_congr fun _ => ?_
  simp only [Out.map_ok, List.map_cons, List.map_nil, piece, dcmPoint, init, vector_zero]

theorem pieces (hp : TrigParity K) (hm : 0 ≤ d.maxSwitch) (ordered : List (Step K)) (phases phases' : List Phase)
    (i : Vec2 K × Vec2 K) (shifts : List Nat)
    (h : (First phases shifts ∧ phases' = phases.map phase) ∨ shifts.length = 2) :
    (dcmState d).pieces (ordered.map step) phases' (init i) shifts = (d.pieces ordered phases i shifts).map (List.map piece) := by
  rcases ordered with _ | ⟨a, _ | ⟨b, _ | ⟨c, o⟩⟩⟩
  · rfl
  · rfl
  · simp only [List.map_cons, List.map_nil, Dcm.pieces]
    cases shifts.head? <;> cases shifts.getLast? <;> try rfl
    exact standPieces d hp _ _ a b i
  · simp only [List.map_cons, Dcm.pieces]
    cases shifts.head? <;> cases shifts.getLast? <;> try rfl
    simp only
    rcases h with ⟨h1, rfl⟩ | h
    · have := walkPieces d hp hm shifts.reverse (a :: b :: c :: o).reverse phases (by simpa using h1) (a :: b :: c :: o) i
      rw [List.map_reverse] at this
      simpa only [List.map_cons] using this
    · rcases shifts with _ | ⟨x, _ | ⟨y, _ | ⟨z, l⟩⟩⟩
      · simp at h
      · simp at h
      · simp only [List.reverse_cons, List.reverse_nil, List.nil_append, List.cons_append, Dcm.walkPieces, Out.map_ub]
      · simp at h

theorem evaluate : ∀ (n t : Nat) (tr : List (Piece K)),
    (dcmState d).evaluate n t (tr.map piece) = (d.evaluate n t tr).map (List.map dcm)
  | 0, _, _ => by simp only [Dcm.evaluate, Out.map_ok, List.map_nil]
  | n + 1, t, [] => by simp only [List.map_nil, Dcm.evaluate, Out.map_ub]
  | n + 1, t, p :: ps => by
    simp only [List.map_cons, Dcm.evaluate, piece_stop, dcmState_dT, dcmState_omega]
    have e : (if p.stop < (t : K) * d.dT then ps.map piece else piece p :: ps.map piece) =
        (if p.stop < (t : K) * d.dT then ps else p :: ps).map piece := by
      split <;> rfl
    rw [e]
    rcases (if p.stop < (t : K) * d.dT then ps else p :: ps) with _ | ⟨q, qs⟩
    · rfl
    · simp only [List.map_cons, piece_sample, Out.bind_map, Out.map_bind]
      refine Out.bind_congr fun s => ?_
      have := evaluate n (t + 1) (q :: qs)
      rw [List.map_cons] at this
      rw [this, Out.bind_map]
      rfl

/-- The weights in double support are computed, nothing else is claimed. -/
theorem weightBody_double_dcm (zmps zmps' : List (Vec2 K)) (hz : zmps'.length = zmps.length) (Q : Nat → K × K → K × K → Prop)
    (a : Nat) (b : Bool) (p p' : Phase) (h : p = .switchIn ∨ p = .switchOut) (h' : p' = .switchIn ∨ p' = .switchOut)
    (start stop : Nat) (s : List (Step K) × List (Step K))
    (hQ : ∀ l l' : List (K × K), l.length = stop - start → l'.length = stop - start → Zipped Q start l l') :
    Out.Follows (fun r r' => r'.1 = (r.1.2.map step, r.1.1.map step) ∧ r.2.length = stop - start ∧ Zipped Q start r.2 r'.2)
      (d.weightBody zmps a b p start stop s) ((dcmState d).weightBody zmps' a b p' start stop (s.2.map step, s.1.map step)) := by
  obtain ⟨l, r⟩ := s
  have e : ∀ (d : Dcm K) zmps q, (q = .switchIn ∨ q = .switchOut) → ∀ (s : List (Step K) × List (Step K)),
      d.weightBody zmps a b q start stop s = (match s.1, s.2 with
      | l :: _, r :: _ =>
        let z := (zmps.drop start).take (stop - start)
        if z.length < stop - start then .ub .outOfRange
        else .ok (s, z.map fun z =>
          let w := Dcm.leftWeight (Dcm.footZmp d.leftDelta l) (Dcm.footZmp d.rightDelta r) z
          (w, 1 - w))
      | _, _ => .ub .badIterator) := by
    rintro d zmps q (rfl | rfl) s <;> rfl
  rw [e _ _ _ h, e _ _ _ h']
  rcases l with _ | ⟨l, ls⟩
  · exact Out.Follows.ub
  rcases r with _ | ⟨r, rs⟩
  · exact Out.Follows.ub
  simp only [List.map_cons, List.length_take, List.length_drop, hz]
  split
  · exact Out.Follows.ub
  · rename_i hn
    refine Out.Follows.ok ⟨rfl, ?_, hQ _ _ ?_ ?_⟩ <;> simp [hz] at hn ⊢ <;> omega

theorem feetWeights (phases : List Phase) (shifts : List Nat) (hal : AlignedFrom phases 0 shifts.tail) (left right : List (Step K))
    (zmps zmps' : List (Vec2 K)) (hz : zmps'.length = zmps.length) :
    Out.Follows (Zipped (fun i a b => ∀ p, phases[i]? = some p → p = .stance ∨ p = .swing → b = Prod.swap a) 0)
      (d.feetWeights phases shifts left right zmps)
      ((dcmState d).feetWeights (phases.map phase) shifts (right.map step) (left.map step) zmps') := by
  unfold Dcm.feetWeights overPhases
  refine Out.Follows.bind (phaseLoop_follows (fun (s s' : List (Step K) × List (Step K)) => s' = (s.2.map step, s.1.map step))
    (fun i a b => ∀ p, phases[i]? = some p → p = .stance ∨ p = .swing → b = Prod.swap a) phase _ _ phases ?_ _ _ _ _ _ hal rfl)
      fun a b _ hab => Out.Follows.ok hab.2
  rintro ph last p start stop ⟨l, r⟩ s' hs _ hp rfl
  have hvac : (p = .switchIn ∨ p = .switchOut) → ∀ l l' : List (K × K), l.length = stop - start → l'.length = stop - start →
      Zipped (fun i a b => ∀ p, phases[i]? = some p → p = .stance ∨ p = .swing → b = Prod.swap a) start l l' := by
    intro hd l l' h1 h2
    have key : ∀ (l l' : List (K × K)) (start : Nat), (∀ j, start ≤ j → j < stop → phases[j]? = some p) → start + l.length ≤ stop →
        l'.length = l.length →
        Zipped (fun i a b => ∀ p, phases[i]? = some p → p = .stance ∨ p = .swing → b = Prod.swap a) start l l' := by
      intro l
      induction l with
      | nil => intro l' start _ _ h2; rw [List.length_eq_zero_iff.mp h2]; exact .nil _
      | cons x xs ih =>
        intro l' start hp h1 h2
        rcases l' with _ | ⟨y, ys⟩
        · simp at h2
        refine .cons (fun q hq hc => ?_) (ih ys (start + 1) (fun j h3 h4 => hp j (by omega) h4) (by simp at h1; omega) (by simpa using h2))
        rw [hp start le_rfl (by simp at h1; omega)] at hq
        cases hq
        rcases hd with rfl | rfl <;> rcases hc with hc | hc <;> cases hc
    exact key l l' start hp (by omega) (by omega)
  cases p
  case stance =>
    rcases r with _ | ⟨r0, _ | ⟨r1, r⟩⟩
    · exact Out.Follows.ub
    · exact Out.Follows.fail
    · refine Out.Follows.ok ⟨rfl, by simp, ?_⟩
      have := Zipped.of_map (Q := fun i a b => ∀ p, phases[i]? = some p → p = .stance ∨ p = .swing → b = Prod.swap a) Prod.swap
        (List.replicate (stop - start) ((1 : K), (0 : K))) start fun i x _ p _ _ => rfl
      simpa using this
  case swing =>
    rcases l with _ | ⟨l0, _ | ⟨l1, l⟩⟩
    · exact Out.Follows.ub
    · exact Out.Follows.fail
    · refine Out.Follows.ok ⟨rfl, by simp, ?_⟩
      have := Zipped.of_map (Q := fun i a b => ∀ p, phases[i]? = some p → p = .stance ∨ p = .swing → b = Prod.swap a) Prod.swap
        (List.replicate (stop - start) ((0 : K), (1 : K))) start fun i x _ p _ _ => rfl
      simpa using this
  case switchIn => exact weightBody_double_dcm d zmps zmps' hz _ ph last _ _ (.inl rfl) (.inr rfl) start stop (l, r) (hvac (.inl rfl))
  case switchOut => exact weightBody_double_dcm d zmps zmps' hz _ ph last _ _ (.inr rfl) (.inl rfl) start stop (l, r) (hvac (.inr rfl))

theorem feetWeights_tied (n : Nat) (left right : List (Step K)) (zmps zmps' : List (Vec2 K)) (hz : zmps'.length = zmps.length) :
    Out.Follows (Zipped (fun i a b => ∀ p, (List.replicate n Phase.switchOut)[i]? = some p → p = .stance ∨ p = .swing →
        b = Prod.swap a) 0)
      (d.feetWeights (List.replicate n .switchOut) [0, n] left right zmps)
      ((dcmState d).feetWeights (List.replicate n .switchOut) [0, n] (right.map step) (left.map step) zmps') := by
  unfold Dcm.feetWeights
  rw [overPhases_single, overPhases_single]
  split
  · exact Out.Follows.ub
  · refine Out.Follows.bind (weightBody_double_dcm d zmps zmps' hz
      (fun i a b => ∀ p, (List.replicate n Phase.switchOut)[i]? = some p → p = .stance ∨ p = .swing → b = Prod.swap a)
      1 true .switchOut .switchOut (.inr rfl) (.inr rfl) 0 n (left, right) fun l l' h1 h2 => ?_)
      fun a b _ hab => Out.Follows.ok hab.2.2
    refine Zipped.of_length (fun i a b p hq hc => ?_) _ _ _ (by omega)
    rw [List.getElem?_replicate] at hq
    split at hq
    · cases hq; rcases hc with hc | hc <;> cases hc
    · cases hq

theorem dcm_generate (hp : TrigParity K) (hm : 0 ≤ d.maxSwitch) (ordered : List (Step K)) {t t' : Timing K} (ht : Timings t t')
    (hc : t.right = t.left.map phase) (hal : AlignedFrom t.left 0 t.shifts.tail) (hf : First t.left t.shifts)
    (left right : List (Step K)) (i : Vec2 K × Vec2 K) :
    Out.Follows (DcmOutMirrored t.left) (d.generate ordered t.left left right i t.shifts)
      ((dcmState d).generate (ordered.map step) t'.left (right.map step) (left.map step) (init i) t'.shifts) := by
  unfold Dcm.generate
  rw [ht.shifts, pieces d hp hm ordered t.left t'.left i t.shifts (by
    rcases ht.phases with ⟨h1, -⟩ | ⟨n, -, -, -, -, h5⟩
    · exact .inl ⟨hf, by rw [h1, hc]⟩
    · exact .inr (by rw [h5]; rfl)), Out.bind_map]
  refine Out.Follows.bind_same fun tr _ => Out.Follows.bind_same fun n _ => ?_
  rw [evaluate, Out.bind_map]
  refine Out.Follows.bind_same fun l _ => ?_
  refine Out.Follows.bind (R := Zipped (fun i a b => ∀ p, t.left[i]? = some p → p = .stance ∨ p = .swing → b = Prod.swap a) 0) ?_ ?_
  · rcases ht.phases with ⟨h1, -⟩ | ⟨n, h1, -, h3, -, h5⟩
    · rw [h1, hc]
      exact feetWeights d t.left t.shifts hal left right _ _ (by simp)
    · rw [h3, h1, h5]
      exact feetWeights_tied d n left right (l.map DcmSample.zmp) ((l.map dcm).map DcmSample.zmp) (by simp)
  · intro w w' _ hw
    refine Out.Follows.ok ⟨rfl, rfl, hw.length, fun j p hq hc => ?_⟩
    simp only
    cases hx : w[j]? with
    | none => 
      rw [List.getElem?_eq_none_iff] at hx
      rw [Option.map_none, List.getElem?_eq_none_iff, hw.length]
      exact hx
    | some x =>
      obtain ⟨y, hy, h⟩ := hw.get j x hx
      rw [hy, Option.map_some, h p (by rw [Nat.zero_add]; exact hq) hc]

theorem setPauseConditions (a : Bool) (x y z : K) :
    (dcmState d).setPauseConditions a x y z = ((d.setPauseConditions a x y z).1, dcmState (d.setPauseConditions a x y z).2) := by
  unfold Dcm.setPauseConditions
  split
  · rfl
  simp only
  split <;> rfl

theorem setInitial (left right : List (Step K)) : (dcmState d).setInitial (right.map step) (left.map step) =
      (d.setInitial left right).map dcmState := by
  unfold Dcm.setInitial
  have e : (dcmState d).specified = d.specified := rfl
  rw [e]
  split
  · rfl
  · rcases left with _ | ⟨l, ls⟩
    · rcases right with _ | ⟨r, rs⟩ <;> rfl
    rcases right with _ | ⟨r, rs⟩
    · rfl
    have hm : Dcm.middle ((step r).position + vector d.rightDelta) ((step l).position + vector d.leftDelta) =
        vector (Dcm.middle (l.position + d.leftDelta) (r.position + d.rightDelta)) := by
      ext <;> simp only [Dcm.middle, step_position, vector, Vec2.smul_x, Vec2.smul_y, Vec2.add_x, Vec2.add_y] <;> ring
    simp only [List.map_cons, Out.map_ok]
    have h1 : (dcmState d).leftDelta = vector d.rightDelta := rfl
    have h2 : (dcmState d).rightDelta = vector d.leftDelta := rfl
    rw [h1, h2, hm]
    simp [dcmState, init, vector_zero]

theorem dcm_new (hp : TrigParity K) (cfg : GenSettings K) (initTime dT : K) (ordered : List (Step K)) {t t' : Timing K}
    (ht : Timings t t') (hc : t.right = t.left.map phase) (hal : AlignedFrom t.left 0 t.shifts.tail) (hf : First t.left t.shifts)
    (left right : FootPrint K) (d1 : Dcm K) (o : Option (DcmOut K))
    (h : d.computeNewTrajectories cfg initTime dT ordered t.shifts t.left left right = .ok (true, d1, o)) :
    ∃ o', (dcmState d).computeNewTrajectories cfg initTime dT (ordered.map step) t'.shifts t'.left (footPrint right) (footPrint left) =
      .ok (true, dcmState d1, o') ∧ Both (DcmOutMirrored t.left) o o' := by
  unfold Dcm.computeNewTrajectories at h ⊢
  simp only [footPrint_steps, setInitial d, Out.bind_map]
  obtain ⟨d2, h2, h⟩ := Out.bind_eq_ok.mp h
  rw [h2, Out.bind_ok]
  rcases hl : left.steps with _ | ⟨l, ls⟩
  · rw [hl] at h; simp at h
  rcases hr : right.steps with _ | ⟨r, rs⟩
  · rw [hl, hr] at h; simp at h
  rw [hl, hr] at h
  simp only [List.map_cons, step_impactTime, max_comm r.impactTime] at h ⊢
  split at h
  · cases h
  rename_i c1
  split at h
  · cases h
  rename_i c2
  rw [if_neg c1, if_neg c2]
  have e2 : { dcmState d2 with dT := dT } = dcmState { d2 with dT := dT } := rfl
  rw [e2, setPauseConditions]
  have hmax : ∀ (a : Bool) (x y z : K) (d d' : Dcm K), d.setPauseConditions a x y z = (true, d') → 0 ≤ d'.maxSwitch := by
    intro a x y z d d' h
    unfold Dcm.setPauseConditions at h
    split at h
    · cases h
    rename_i hx
    simp only at h
    split at h
    · cases h
    · cases h; exact not_lt.mp hx
  rcases hs : ({ d2 with dT := dT } : Dcm K).setPauseConditions cfg.pauseActive (cfg.switchPercentage * cfg.maxStepTime)
    (cfg.switchPercentage * cfg.nominalStepTime) cfg.endSwitch with ⟨b, d'⟩
  rw [hs] at h
  cases b
  · simp at h
  · simp only at h ⊢
    have e3 : (dcmState d').initial = d'.initial.map init := rfl
    rw [e3]
    cases hi : d'.initial with
    | none => rw [hi] at h; cases h
    | some i =>
      rw [hi] at h
      simp only [Option.map_some] at h ⊢
      have := dcm_generate d' hp (hmax _ _ _ _ _ _ hs) ordered ht hc hal hf (l :: ls) (r :: rs) i
      simp only [List.map_cons] at this
      cases hg : d'.generate ordered t.left (l :: ls) (r :: rs) i t.shifts with
      | ub u => rw [hg] at h; cases h
      | fail => rw [hg] at h; cases h
      | ok g =>
        rw [hg] at h
        obtain ⟨g', h3, h4⟩ := this g hg
        rw [h3]
        simp only [Out.ok.injEq, Prod.mk.injEq, true_and] at h
        obtain ⟨h5, rfl⟩ := h
        exact ⟨some g', by rw [← h5]; rfl, h4⟩

end
end Spec.Mirror
end Uni
