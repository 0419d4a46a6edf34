import Verif.Lemmas.DCMCall

/-! # C46, C47, C73-C76: the trajectory of the DCM

In all the theorems `hexp` says that the exponential of zero is one; over the reals it is a fact. -/

set_option autoImplicit false
set_option linter.unusedSectionVars false

namespace Uni
open Spec Gen
namespace Dcm

section
variable {K : Type} [Field K] [LinearOrder K] [IsStrictOrderedRing K] [FloorRing K] [Trig K]
variable {cfg : GenSettings K} {left right : FootPrint K} {initTime dT : K} {sorted ordered : List (Ptr K)} {t : Timing K}
variable {d d' : Dcm K} {o : DcmOut K}

/-! ## C46 -/

/-- C46: every sample of the DCM, its velocity and the ZMP obey the dynamics of the DCM. -/
theorem C46_dynamics {steps : List (Step K)} {shifts : List Nat} {lp : List Phase}
    (ho : d.computeNewTrajectories cfg initTime dT steps shifts lp left right = .ok (true, d', some o)) (hω : d.omega ≠ 0)
    (s : DcmSample K) (hs : s ∈ o.samples) : s.vel = d.omega * (s.pos - s.zmp) := by
  obtain ⟨l, r, init, -, -, -, h4, -⟩ := compute_inv ho
  obtain ⟨-, -, g3, -⟩ := generate_inv h4
  obtain ⟨-, g⟩ := evaluate_inv g3
  obtain ⟨i, hi⟩ := List.getElem?_of_mem hs
  obtain ⟨q, -, -, -, rfl⟩ := g i s hi
  have : (d.ready cfg dT init).omega = d.omega := rfl
  rw [this]
  simp only [q.zmp_eq hω]
  ext <;> simp <;> field_simp

/-- C46: in single support the ZMP is the one of the stance foot, in the contact reached after its landings so far. -/
theorem C46_stance (hexp : Trig.exp (0 : K) = 1) (hw : Walk cfg left right initTime dT sorted ordered t) (hv : ValidDcm d)
    (hroom : HasRoom cfg d dT t) (hturns : TakeTurns left.steps right.steps)
    (ho : Done d cfg left right initTime dT ordered t d' o) (j : Nat) :
    (t.left[j]? = some .stance → ∃ s l, o.samples[j]? = some s ∧ left.steps[landings t.left j]? = some l ∧
      s.zmp = inWorld l d.leftDelta) ∧
    (t.right[j]? = some .stance → ∃ s r, o.samples[j]? = some s ∧ right.steps[landings t.right j]? = some r ∧
      s.zmp = inWorld r d.rightDelta) := by
  obtain ⟨l0, r0, tt, hr⟩ := timeline_ok hw.made
  refine ⟨fun hj => ?_, fun hj => ?_⟩
  · obtain ⟨k, x, hk, h1, h2, h3, h4⟩ := slot_of_phase hw hr true (p := .stance) (by simpa using hj) (Or.inl rfl)
    obtain ⟨s, q, s1, q1, hz⟩ := single_sample hexp hw hv hroom ho hr hk h1 h2
    obtain ⟨-, hq⟩ := stance_step hw.sort hw.made hr hw.names.left_steps hw.names.right_steps hturns hk q1
    simp only [reduceCtorEq, if_false, Bool.not_true] at h3
    rw [h3] at hq
    simp only [Bool.false_eq_true, if_false, Bool.not_false] at hq
    have := h4 true
    rw [if_pos rfl] at this
    rw [this]
    exact ⟨s, q.step, s1, hq, by rw [hz, zmpAt_left hw.names (List.mem_of_getElem? hq)]⟩
  · obtain ⟨k, x, hk, h1, h2, h3, h4⟩ := slot_of_phase hw hr false (p := .stance) (by simpa using hj) (Or.inl rfl)
    obtain ⟨s, q, s1, q1, hz⟩ := single_sample hexp hw hv hroom ho hr hk h1 h2
    obtain ⟨-, hq⟩ := stance_step hw.sort hw.made hr hw.names.left_steps hw.names.right_steps hturns hk q1
    simp only [reduceCtorEq, if_false, Bool.not_false] at h3
    rw [h3] at hq
    simp only [if_true, Bool.not_true] at hq
    have := h4 false
    simp only [Bool.false_eq_true, if_false] at this
    rw [this]
    exact ⟨s, q.step, s1, hq, by rw [hz, zmpAt_right hw.names (List.mem_of_getElem? hq)]⟩

/-! ## C47 -/

/-- C47: the pieces follow each other without gaps from the instant zero to the last one, with the same position and velocity
where they meet; there is a sample for every instant of the timeline. -/
theorem C47_chain (hexp : Trig.exp (0 : K) = 1) (hw : Walk cfg left right initTime dT sorted ordered t) (hv : ValidDcm d)
    (ho : Done d cfg left right initTime dT ordered t d' o) :
    o.pieces.IsChain (Joined d.omega) ∧ (∀ p ∈ o.pieces, p.start ≤ p.stop) ∧
      (∃ p, o.pieces.head? = some p ∧ p.start = 0) ∧ (∃ p, o.pieces.getLast? = some p ∧ p.stop = (t.left.length : K) * dT) ∧
      o.samples.length = t.left.length := by
  obtain ⟨l, r, tt, hr⟩ := timeline_ok hw.made
  obtain ⟨x, y, u, v, p, init, -, -, hwh, hlen, -⟩ := full_of hexp hw hv ho hr
  obtain ⟨q, qs, e, f1, -⟩ := hwh.first
  exact ⟨hwh.chain, hwh.order, ⟨q, by rw [e]; rfl, f1⟩, hwh.last, hlen⟩

/-- C47: with enough room the samples are the values of the pieces at their instants. -/
theorem C47_sampled (hexp : Trig.exp (0 : K) = 1) (hw : Walk cfg left right initTime dT sorted ordered t) (hv : ValidDcm d)
    (hroom : HasRoom cfg d dT t) (ho : Done d cfg left right initTime dT ordered t d' o) (j : Nat) (hj : j < t.left.length) :
    ∃ s, o.samples[j]? = some s ∧ (∃ q ∈ o.pieces, q.start ≤ (j : K) * dT ∧ (j : K) * dT ≤ q.stop) ∧
      ∀ q ∈ o.pieces, q.start ≤ (j : K) * dT → (j : K) * dT ≤ q.stop →
        s.pos = q.pos d.omega ((j : K) * dT) ∧ s.vel = q.vel d.omega ((j : K) * dT) := by
  obtain ⟨l, r, tt, hr⟩ := timeline_ok hw.made
  obtain ⟨x, y, u, v, p, init, -, -, -, -, h⟩ := full_of hexp hw hv ho hr
  obtain ⟨s, s1, s2, s3⟩ := h hroom j hj
  exact ⟨s, s1, s2, fun q hq h1 h2 => by rw [s3 q hq h1 h2]; exact ⟨rfl, rfl⟩⟩

/-- The first sample is the beginning of the first piece. -/
theorem first_sample {dd : Dcm K} {n : Nat} {p : Piece K} {ps : List (Piece K)} {lst : List (DcmSample K)}
    (h : dd.evaluate (n + 1) 0 (p :: ps) = .ok lst) (h0 : p.start = 0) (h1 : p.start ≤ p.stop) :
    ∃ s, lst[0]? = some s ∧ s.pos = p.pos dd.omega 0 ∧ s.vel = p.vel dd.omega 0 := by
  simp only [Dcm.evaluate, Nat.cast_zero, zero_mul] at h
  rw [if_neg (by rw [h0] at h1; exact not_lt.mpr h1)] at h
  simp only [Out.bind_eq_ok] at h
  obtain ⟨s, h2, l, -, h⟩ := h
  cases h
  refine ⟨s, rfl, ?_⟩
  unfold Piece.sample Piece.state at h2
  split_ifs at h2 <;> first
    | (cases h2; done)
    | (cases h2; exact ⟨rfl, rfl⟩)

/-- C47, C74: the trajectory begins in the given initial state. -/
theorem C47_start (hexp : Trig.exp (0 : K) = 1) (hw : Walk cfg left right initTime dT sorted ordered t) (hv : ValidDcm d)
    (ho : Done d cfg left right initTime dT ordered t d' o) (hspec : d.specified = true) {init : Vec2 K × Vec2 K}
    (hi : d.initial = some init) :
    ∃ p s, o.pieces.head? = some p ∧ p.start = 0 ∧ p.pos d.omega 0 = init.1 ∧ p.vel d.omega 0 = init.2 ∧
      o.samples[0]? = some s ∧ s.pos = init.1 ∧ s.vel = init.2 := by
  obtain ⟨l, r, tt, hr⟩ := timeline_ok hw.made
  obtain ⟨x, y, u, v, p, he⟩ := ends_ok (d := d) hw hr
  obtain ⟨init', h1, hwh, hev, -, -⟩ := whole_of hexp hw hv ho hr he
  unfold start at h1
  rw [if_pos hspec, hi] at h1
  cases h1
  obtain ⟨q, qs, e, f1, -, f3, f4⟩ := hwh.first
  obtain ⟨n, hn⟩ : ∃ n, t.left.length = n + 1 :=
    ⟨_, (Nat.succ_pred_eq_of_pos (List.getElem?_eq_some_iff.mp he.hp).1).symm⟩
  rw [hn, e] at hev
  obtain ⟨s, s1, s2, s3⟩ := first_sample hev f1 (hwh.order q (by rw [e]; exact List.mem_cons_self))
  exact ⟨q, s, by rw [e]; rfl, f1, f3, f4, s1, s2.trans f3, s3.trans f4⟩

/-- C47: the trajectory ends at rest in the middle of the ZMPs of the last contacts. -/
theorem C47_end (hexp : Trig.exp (0 : K) = 1) (hw : Walk cfg left right initTime dT sorted ordered t) (hv : ValidDcm d)
    (hturns : TakeTurns left.steps right.steps) (ho : Done d cfg left right initTime dT ordered t d' o) :
    ∃ p ∈ o.pieces, p.start < p.stop ∧ p.stop = (t.left.length : K) * dT ∧ ∃ l r, left.steps.getLast? = some l ∧
      right.steps.getLast? = some r ∧
      p.pos d.omega p.stop = (1 / 2 : K) * (inWorld l d.leftDelta + inWorld r d.rightDelta) ∧ p.vel d.omega p.stop = 0 := by
  obtain ⟨l, r, tt, hr⟩ := timeline_ok hw.made
  obtain ⟨x, y, u, v, p, init, he, -, hwh, -, -⟩ := full_of hexp hw hv ho hr
  obtain ⟨a, b, a1, b1, hm⟩ := last_middle (d := d) hw hturns hr he.ex he.ey
  obtain ⟨q, q1, q2, q3, q4, q5⟩ := hwh.fin
  refine ⟨q, q1, q2, q3, a, b, a1, b1, ?_, by rw [q3]; exact q5⟩
  rw [q3]
  exact q4.trans hm

/-- The last single support. -/
theorem last_single (hw : Walk cfg left right initTime dT sorted ordered t) {l r : Step K} {tt : Timetable}
    (hr : Run cfg left right initTime dT sorted ordered t l r tt) (h2 : 2 < t.shifts.length) {b : Nat}
    (hb : t.shifts[t.shifts.length - 2]? = some b) (init : Vec2 K × Vec2 K) {x : Ptr K}
    (ex : ordered[tt.slots.length]? = some x) :
    ∃ a : K, (if tt.slots.length = 0 then [] else (d.ready cfg dT init).slots t.shifts (ordered.map Ptr.step)).getLast? =
      some (a, (b : K) * dT, d.zmpAt x.step) ∧ a ≤ (b : K) * dT := by
  obtain ⟨h1, hs, -, -⟩ := shifts_ends hw hr
  have h0 : 0 < tt.slots.length := by omega
  have hk : tt.slots[tt.slots.length - 1]? = some tt.slots[tt.slots.length - 1] := List.getElem?_eq_getElem (by omega)
  have e1 := slotStart_succ tt.slots _ _ hk
  rw [show tt.slots.length - 1 + 1 = tt.slots.length by omega] at e1
  rw [show t.shifts.length - 2 = 2 * tt.slots.length by omega, hs] at hb
  cases hb
  obtain ⟨q, q1, q2, q3⟩ := single_of (d := d) hw hr hk init
  rw [show tt.slots.length - 1 + 1 = tt.slots.length by omega, ex] at q1
  cases q1
  refine ⟨_, by rw [List.getLast?_eq_getElem?, q2, q3, e1], ?_⟩
  rw [e1]
  exact mul_le_mul_of_nonneg_right (by exact_mod_cast (by omega)) hr.dT_pos.le

/-- C47: in the last part of the last double support, given by the stillness, the DCM and the ZMP rest in the middle of the
ZMPs of the feet. -/
theorem C47_still (hexp : Trig.exp (0 : K) = 1) (hw : Walk cfg left right initTime dT sorted ordered t) (hv : ValidDcm d)
    (hroom : HasRoom cfg d dT t) (hturns : TakeTurns left.steps right.steps)
    (ho : Done d cfg left right initTime dT ordered t d' o) (h2 : 2 < t.shifts.length) {b : Nat}
    (hb : t.shifts[t.shifts.length - 2]? = some b) (j : Nat) (hj : j < t.left.length)
    (hjb : (b : K) * dT + ((t.left.length : K) * dT - (b : K) * dT) * (1 - d.stillness) ≤ (j : K) * dT) :
    ∃ l r, left.steps.getLast? = some l ∧ right.steps.getLast? = some r ∧
      o.samples[j]? = some ⟨(1 / 2 : K) * (inWorld l d.leftDelta + inWorld r d.rightDelta), 0,
        (1 / 2 : K) * (inWorld l d.leftDelta + inWorld r d.rightDelta)⟩ := by
  obtain ⟨l, r, tt, hr⟩ := timeline_ok hw.made
  obtain ⟨x, y, u, v, p, init, he, -, hwh, -, hs⟩ := full_of hexp hw hv ho hr
  obtain ⟨a, b', a1, b1, hm⟩ := last_middle (d := d) hw hturns hr he.ex he.ey
  obtain ⟨a0, ha0, -⟩ := last_single (d := d) hw hr h2 hb init he.ex
  have hst := hwh.still _ ha0
  obtain ⟨s, s1, -, s3⟩ := hs hroom j hj
  have := s3 _ hst hjb (mul_le_mul_of_nonneg_right (by exact_mod_cast hj.le) hr.dT_pos.le)
  obtain ⟨c1, c2⟩ := Piece.cubic_at_rest d.omega
    ((b : K) * dT + ((t.left.length : K) * dT - (b : K) * dT) * (1 - d.stillness)) ((t.left.length : K) * dT)
    (middle (d.zmpAt y.step) (d.zmpAt x.step)) ((j : K) * dT)
  refine ⟨a, b', a1, b1, ?_⟩
  rw [s1, this]
  have e : (d.ready cfg dT init).stillness = d.stillness := rfl
  simp only [e, c1, c2]
  rw [hm]
  unfold middle
  congr 2
  ext <;> simp

/-! ## C73: generation succeeds -/

theorem generate_of {steps : List (Step K)} {lp : List Phase} {ls rs : List (Step K)} {init : Vec2 K × Vec2 K} {shifts : List Nat}
    {dd : Dcm K} {tr : List (Piece K)} {N : Nat} (h1 : dd.pieces steps lp init shifts = .ok tr) (e1 : shifts.getLastD 0 = N)
    (e2 : shifts.headD 0 = 0) :
    dd.generate steps lp ls rs init shifts = (do
      let samples ← dd.evaluate N 0 tr
      let w ← dd.feetWeights lp shifts ls rs (samples.map DcmSample.zmp)
      Out.ok ⟨tr, samples, w⟩) := by
  unfold generate
  rw [h1, e1, e2]
  simp [subSize]

theorem head_last (hw : Walk cfg left right initTime dT sorted ordered t) :
    t.shifts.getLastD 0 = t.left.length ∧ t.shifts.headD 0 = 0 := by
  obtain ⟨-, p2, p3, -⟩ := C34_partition hw.made
  exact ⟨by rw [List.getLastD_eq_getLast?, p2]; rfl, by rw [List.headD_eq_head?_getD, p3]; rfl⟩

/-- C73: if every piece of a double support lasts a sample at least, and the initial state, if announced, is there, the DCM is
generated. -/
theorem C73_succeeds (hexp : Trig.exp (0 : K) = 1) (hw : Walk cfg left right initTime dT sorted ordered t) (hv : ValidDcm d)
    (hroom : HasRoom cfg d dT t) (hi : d.specified = true → d.initial ≠ none) :
    ∃ d' o, Done d cfg left right initTime dT ordered t d' o := by
  obtain ⟨l, r, tt, hr⟩ := timeline_ok hw.made
  obtain ⟨x, y, u, v, p, he⟩ := ends_ok (d := d) hw hr
  obtain ⟨init, hst⟩ : ∃ init, d.start l r = some init := by
    unfold start
    split_ifs with hc
    · exact Option.ne_none_iff_exists'.mp (hi hc)
    · exact ⟨_, rfl⟩
  obtain ⟨tr, t1, t2⟩ := pieces_whole (d := d) hexp hw.valid hw.sort hw.made hw.phases hw.names hv.still_nonneg hv.still_lt init hr
    he.ex he.ey he.eu he.ev he.hp (R := Roomy cfg d.stillness dT tt.rest) id
  obtain ⟨lst, e1, e2, -⟩ := samples_of (dd := d.ready cfg dT init) hv.omega_pos.ne' hr.dT_pos t2 (roomy_of hw hr hroom)
  obtain ⟨w, w1, -⟩ := weights_of hw hr (d.ready cfg dT init) (zmps := lst.map DcmSample.zmp) (by rw [List.length_map, e2])
  obtain ⟨g1, g2⟩ := head_last hw
  exact ⟨_, ⟨tr, lst, w⟩, compute_ok hw.valid hr.dT_pos hr.headL hr.headR hr.init_l hr.init_r hst
    (by rw [generate_of t1 g1 g2, e1, Out.bind_ok, w1, Out.bind_ok])⟩

/-- C73: without room the call may return false, but its behaviour is not undefined. -/
theorem C73_defined (hexp : Trig.exp (0 : K) = 1) (hw : Walk cfg left right initTime dT sorted ordered t) (hv : ValidDcm d)
    (hi : d.specified = true → d.initial ≠ none) :
    ∃ r, d.computeNewTrajectories cfg initTime dT (ordered.map Ptr.step) t.shifts t.left left right = .ok r := by
  obtain ⟨l, r, tt, hr⟩ := timeline_ok hw.made
  obtain ⟨x, y, u, v, p, he⟩ := ends_ok (d := d) hw hr
  obtain ⟨init, hst⟩ : ∃ init, d.start l r = some init := by
    unfold start
    split_ifs with hc
    · exact Option.ne_none_iff_exists'.mp (hi hc)
    · exact ⟨_, rfl⟩
  obtain ⟨tr, t1, t2⟩ := pieces_whole (d := d) hexp hw.valid hw.sort hw.made hw.phases hw.names hv.still_nonneg hv.still_lt init hr
    he.ex he.ey he.eu he.ev he.hp (R := Roomy cfg d.stillness dT tt.rest) id
  obtain ⟨g1, g2⟩ := head_last hw
  have hgen := generate_of (ls := left.steps) (rs := right.steps) t1 g1 g2
  obtain ⟨q, q1, q2⟩ := t2.last
  have hfin : ∀ z ∈ tr, z.start < z.stop ∨ z.stop ≤ z.start ∧ ((0 + t.left.length : Nat) : K) * (d.ready cfg dT init).dT ≤ z.start := by
    intro z hz
    rcases (t2.order z hz).lt_or_eq with h | h
    · exact Or.inl h
    · right
      have hne : tr ≠ [] := List.ne_nil_of_mem hz
      have hz' : z ∈ tr.dropLast ++ [tr.getLast hne] := by rw [List.dropLast_append_getLast]; exact hz
      rcases List.mem_append.mp hz' with h' | h'
      · exact absurd h (t2.strict z h').ne
      · rw [List.mem_singleton] at h'
        rw [List.getLast?_eq_some_getLast hne, ← h'] at q1
        cases q1
        exact ⟨h.ge, by rw [h, q2, Nat.zero_add]; exact le_rfl⟩
  rcases evaluate_safe (d := d.ready cfg dT init) hv.omega_pos.ne' hr.dT_pos t.left.length 0 tr q1
    (by rw [q2, Nat.zero_add]; exact le_rfl) hfin with ⟨lst, hl⟩ | hl
  · obtain ⟨w, w1, -⟩ := weights_of hw hr (d.ready cfg dT init) (zmps := lst.map DcmSample.zmp)
      (by rw [List.length_map, (evaluate_inv hl).1])
    exact ⟨_, compute_ok hw.valid hr.dT_pos hr.headL hr.headR hr.init_l hr.init_r hst (o := ⟨tr, lst, w⟩)
      (by rw [hgen, hl, Out.bind_ok, w1, Out.bind_ok])⟩
  · exact ⟨_, compute_fail hw.valid hr.dT_pos hr.headL hr.headR hr.init_l hr.init_r hst (by rw [hgen, hl]; rfl)⟩

/-! ## C74: the initial state -/

/-- C74: a given initial state is used for one generation only. -/
theorem C74_once {steps : List (Step K)} {shifts : List Nat} {lp : List Phase}
    (ho : d.computeNewTrajectories cfg initTime dT steps shifts lp left right = .ok (true, d', some o)) : d'.specified = false := by
  obtain ⟨l, r, init, -, -, -, -, rfl⟩ := compute_inv ho
  rfl

/-- C74: a generation that fails keeps the given initial state for the next one. -/
theorem C74_kept {steps : List (Step K)} {shifts : List Nat} {lp : List Phase} {o' : Option (DcmOut K)} (hspec : d.specified = true)
    (ho : d.computeNewTrajectories cfg initTime dT steps shifts lp left right = .ok (false, d', o')) :
    d'.specified = true ∧ d'.initial = d.initial := by
  unfold computeNewTrajectories setInitial at ho
  rw [if_pos hspec, Out.bind_ok] at ho
  split at ho
  · split_ifs at ho
    · cases ho; exact ⟨hspec, rfl⟩
    · cases ho; exact ⟨hspec, rfl⟩
    · have key : ∀ b e, ({ d with dT := dT } : Dcm K).setPauseConditions cfg.pauseActive (cfg.switchPercentage * cfg.maxStepTime)
          (cfg.switchPercentage * cfg.nominalStepTime) cfg.endSwitch = (b, e) → e.specified = d.specified ∧ e.initial = d.initial := by
        intro b e he
        unfold setPauseConditions at he
        split_ifs at he <;> cases he <;> exact ⟨rfl, rfl⟩
      split at ho
      · rename_i e he
        cases ho
        have := key _ _ he
        exact ⟨this.1.trans hspec, this.2⟩
      · rename_i e he
        have := key _ _ he
        split at ho
        · cases ho
        · split at ho
          · cases ho
          · cases ho; exact ⟨this.1.trans hspec, this.2⟩
          · cases ho
  · cases ho; exact ⟨hspec, rfl⟩

/-- C74: without a given initial state the trajectory begins at rest, halfway between the points that have the offsets of the
ZMPs added to the first positions of the feet, without taking the angles of the feet into account. -/
theorem C74_default (hexp : Trig.exp (0 : K) = 1) (hw : Walk cfg left right initTime dT sorted ordered t) (hv : ValidDcm d)
    (ho : Done d cfg left right initTime dT ordered t d' o) (hspec : d.specified = false) :
    ∃ s l r, o.samples[0]? = some s ∧ left.steps.head? = some l ∧ right.steps.head? = some r ∧ s.vel = 0 ∧
      s.pos = (1 / 2 : K) * ((l.position + d.leftDelta) + (r.position + d.rightDelta)) := by
  obtain ⟨l, r, tt, hr⟩ := timeline_ok hw.made
  obtain ⟨x, y, u, v, p, he⟩ := ends_ok (d := d) hw hr
  obtain ⟨init', h1, hwh, hev, -, -⟩ := whole_of hexp hw hv ho hr he
  unfold start at h1
  rw [if_neg (by simp [hspec])] at h1
  cases h1
  obtain ⟨q, qs, e, f1, -, f3, f4⟩ := hwh.first
  obtain ⟨n, hn⟩ : ∃ n, t.left.length = n + 1 :=
    ⟨_, (Nat.succ_pred_eq_of_pos (List.getElem?_eq_some_iff.mp he.hp).1).symm⟩
  rw [hn, e] at hev
  obtain ⟨s, s1, s2, s3⟩ := first_sample hev f1 (hwh.order q (by rw [e]; exact List.mem_cons_self))
  exact ⟨s, l, r, s1, hr.headL, hr.headR, s3.trans f4, s2.trans f3⟩

/-! ## C75: pauses -/

/-- C75: in a pause the DCM and the ZMP rest in the middle of the ZMPs of the feet, from the switch time after the beginning of
the double support to the nominal duration of a double support before its end. -/
theorem C75_pause (hexp : Trig.exp (0 : K) = 1) (hw : Walk cfg left right initTime dT sorted ordered t) (hv : ValidDcm d)
    (hroom : HasRoom cfg d dT t) (hturns : TakeTurns left.steps right.steps)
    (ho : Done d cfg left right initTime dT ordered t d' o) (hact : cfg.pauseActive = true) {k a b : Nat}
    (ha : t.shifts[2 * k]? = some a) (hb : t.shifts[2 * k + 1]? = some b) (hk : 2 * k + 2 < t.shifts.length)
    (hlong : max (cfg.switchPercentage * cfg.maxStepTime) (cfg.endSwitch + cfg.switchPercentage * cfg.nominalStepTime) <
      (b : K) * dT - (a : K) * dT) (j : Nat) (hj1 : (a : K) * dT + cfg.endSwitch ≤ (j : K) * dT)
    (hj2 : (j : K) * dT ≤ (b : K) * dT - cfg.switchPercentage * cfg.nominalStepTime) :
    ∃ l r, left.steps[landings t.left j]? = some l ∧ right.steps[landings t.right j]? = some r ∧
      o.samples[j]? = some ⟨(1 / 2 : K) * (inWorld l d.leftDelta + inWorld r d.rightDelta), 0,
        (1 / 2 : K) * (inWorld l d.leftDelta + inWorld r d.rightDelta)⟩ := by
  obtain ⟨l0, r0, tt, hr⟩ := timeline_ok hw.made
  obtain ⟨x, y, u, v, p, init, he, -, hwh, -, hs⟩ := full_of hexp hw hv ho hr
  obtain ⟨z, hz, rfl, rfl⟩ := double_slot hw hr ha hb hk
  have hdT := hr.dT_pos
  have hsw := hw.valid.end_pos
  have hnom := mul_pos hw.valid.switch_pos hw.valid.nominal_pos
  have hja : slotStart tt.slots k ≤ j := by
    by_contra hc
    have : (j : K) * dT ≤ (slotStart tt.slots k : K) * dT := mul_le_mul_of_nonneg_right (by exact_mod_cast (by omega)) hdT.le
    linarith
  have hjb : j < slotStart tt.slots k + z.ds := by
    by_contra hc
    have : ((slotStart tt.slots k + z.ds : Nat) : K) * dT ≤ (j : K) * dT := mul_le_mul_of_nonneg_right (by exact_mod_cast (by omega)) hdT.le
    linarith
  have hkl := (List.getElem?_eq_some_iff.mp hz).1
  have hjN : j < t.left.length := by
    obtain ⟨-, -, -, hN⟩ := shifts_ends hw hr
    have := slotStart_mono tt.slots (show k + 1 ≤ tt.slots.length by omega)
    rw [slotStart_succ _ _ _ hz] at this
    omega
  obtain ⟨k', k1, k2, k3, k4⟩ := slot_at hw hr hjN
  have ek : k' = k := by
    rcases lt_trichotomy k' k with hc | hc | hc
    · have := k3 (by omega)
      have := slotStart_mono tt.slots (show k' + 1 ≤ k by omega)
      omega
    · exact hc
    · have := slotStart_mono tt.slots (show k + 1 ≤ k' by omega)
      rw [slotStart_succ _ _ _ hz] at this
      omega
  subst ek
  have eL := k4 true
  have eR := k4 false
  simp only [if_true, Bool.false_eq_true, if_false] at eL eR
  rw [eL, eR]
  obtain ⟨q, hq, -⟩ := single_of (d := d) hw hr hz init
  obtain ⟨-, hst⟩ := stance_step hw.sort hw.made hr hw.names.left_steps hw.names.right_steps hturns hz hq
  -- the piece at rest
  obtain ⟨w, hwst, hmem⟩ : ∃ w : Step K,
      (if z.left then left.steps else right.steps)[(tt.slots.take k').countP (fun y => y.left == z.left)]? = some w ∧
      Piece.cubic ⟨(slotStart tt.slots k' : K) * dT + cfg.endSwitch, middle (d.zmpAt w) (d.zmpAt q.step), 0⟩
        ⟨((slotStart tt.slots k' + z.ds : Nat) : K) * dT - cfg.switchPercentage * cfg.nominalStepTime,
          middle (d.zmpAt w) (d.zmpAt q.step), 0⟩ ∈ o.pieces := by
    cases k' with
    | zero =>
      have hS := slots_mem (d := d) hw hr init hz hq
      have h00 : slotStart tt.slots 0 = 0 := by simp [slotStart, slotSegs, total]
      have hr0 := hr.headR
      have hl0 := hr.headL
      rw [List.head?_eq_getElem?] at hr0 hl0
      refine ⟨if z.left then l0 else r0, ?_, ?_⟩
      · simp only [List.take_zero, List.countP_nil]
        cases z.left
        · simpa using hr0
        · simpa using hl0
      · obtain ⟨S', hS'⟩ : ∃ S', (if tt.slots.length = 0 then [] else (d.ready cfg dT init).slots t.shifts (ordered.map Ptr.step)) =
            (((slotStart tt.slots 0 + z.ds : Nat) : K) * dT, ((slotStart tt.slots 0 + z.ds + z.ss : Nat) : K) * dT, d.zmpAt q.step) :: S' := by
          revert hS
          generalize (if tt.slots.length = 0 then [] else (d.ready cfg dT init).slots t.shifts (ordered.map Ptr.step)) = S
          intro hS
          cases S with
          | nil => simp at hS
          | cons c cs =>
            simp only [List.getElem?_cons_zero, Option.some.injEq] at hS
            exact ⟨cs, by rw [hS]⟩
        have := hwh.rest0 _ _ hS' (by
          unfold pauses
          rw [Bool.and_eq_true, decide_eq_true_eq]
          refine ⟨hact, ?_⟩
          rw [h00, Nat.cast_zero, zero_mul, sub_zero] at hlong
          rw [h00]
          exact hlong)
        rw [first_swing hw hr hz he.eu he.ev he.hp] at this
        rw [h00, Nat.cast_zero, zero_mul, zero_add]
        rw [h00] at this
        exact this
    | succ k =>
      have hz0 : tt.slots[k]? = some tt.slots[k] := List.getElem?_eq_getElem (by omega)
      obtain ⟨q0, hq0, -⟩ := single_of (d := d) hw hr hz0 init
      refine ⟨q0.step, swing_zmp hw hturns hr hz0 hz hq0, ?_⟩
      have := hwh.rests k _ _ (slots_mem (d := d) hw hr init hz0 hq0) (slots_mem (d := d) hw hr init hz hq) (by
        unfold pauses
        rw [Bool.and_eq_true, decide_eq_true_eq]
        refine ⟨hact, ?_⟩
        rw [slotStart_succ _ _ _ hz0] at hlong ⊢
        exact hlong)
      rw [slotStart_succ _ _ _ hz0] at this ⊢
      exact this
  obtain ⟨s, s1, -, s3⟩ := hs hroom j hjN
  have := s3 _ hmem hj1 hj2
  obtain ⟨c1, c2⟩ := Piece.cubic_at_rest d.omega ((slotStart tt.slots k' : K) * dT + cfg.endSwitch)
    (((slotStart tt.slots k' + z.ds : Nat) : K) * dT - cfg.switchPercentage * cfg.nominalStepTime)
    (middle (d.zmpAt w) (d.zmpAt q.step)) ((j : K) * dT)
  have hm : ∀ m : Vec2 K, (⟨m, 0, m - (1 / d.omega) * (0 : Vec2 K)⟩ : DcmSample K) = ⟨m, 0, m⟩ := by
    intro m; congr 1; ext <;> simp
  rw [s1, this, c1, c2, hm]
  cases hzl : z.left
  · simp only [hzl, Bool.false_eq_true, if_false, Bool.not_false] at hst hwst
    refine ⟨q.step, w, hst, hwst, ?_⟩
    rw [zmpAt_left hw.names (List.mem_of_getElem? hst), zmpAt_right hw.names (List.mem_of_getElem? hwst), middle_comm]
    rfl
  · simp only [hzl, if_true, Bool.not_true] at hst hwst
    refine ⟨w, q.step, hwst, hst, ?_⟩
    rw [zmpAt_left hw.names (List.mem_of_getElem? hwst), zmpAt_right hw.names (List.mem_of_getElem? hst)]
    rfl

/-! ## C76: the last step, and the parameter `alpha` -/

/-- C76: at the end of the last single support the DCM divides the segment from the ZMP of the stance foot to the ZMP of the
foot that lands in the ratio given by the offset. -/
theorem C76_last_offset (hexp : Trig.exp (0 : K) = 1) (hw : Walk cfg left right initTime dT sorted ordered t) (hv : ValidDcm d)
    (hroom : HasRoom cfg d dT t) (hturns : TakeTurns left.steps right.steps)
    (ho : Done d cfg left right initTime dT ordered t d' o) (h2 : 2 < t.shifts.length) {b : Nat}
    (hb : t.shifts[t.shifts.length - 2]? = some b) :
    ∃ s l r, o.samples[b]? = some s ∧ left.steps.getLast? = some l ∧ right.steps.getLast? = some r ∧
      (t.left[b - 1]? = some .stance → s.pos = (1 - d.lastOffset) * inWorld l d.leftDelta + d.lastOffset * inWorld r d.rightDelta) ∧
      (t.right[b - 1]? = some .stance → s.pos = (1 - d.lastOffset) * inWorld r d.rightDelta + d.lastOffset * inWorld l d.leftDelta) := by
  obtain ⟨l, r, tt, hr⟩ := timeline_ok hw.made
  obtain ⟨x, y, u, v, p, init, he, -, hwh, -, hs⟩ := full_of hexp hw hv ho hr
  obtain ⟨a0, ha0, hle⟩ := last_single (d := d) hw hr h2 hb init he.ex
  have hland := hwh.land _ ha0
  obtain ⟨h1, hsh, -, hN⟩ := shifts_ends hw hr
  have hPos : tt.Positive := positive_of_shifts (by rw [← hr.built.shifts]; exact hw.phases)
  have hb' := hb
  rw [show t.shifts.length - 2 = 2 * tt.slots.length by omega, hsh] at hb'
  cases hb'
  have := hPos.2
  obtain ⟨s, s1, -, s3⟩ := hs hroom (slotStart tt.slots tt.slots.length) (by omega)
  have hval := s3 _ hland hle le_rfl
  have hpos : s.pos = (1 - d.lastOffset) * d.zmpAt x.step + d.lastOffset * d.zmpAt y.step := by
    rw [hval]
    simp only [Piece.pos, sub_self, mul_zero, hexp]
    ext <;> simp
  obtain ⟨n1, n2, n3⟩ := last_steps hw hturns hr he.ex he.ey
  -- which foot swings in the last single support
  have h0 : 0 < tt.slots.length := by omega
  have hk : tt.slots[tt.slots.length - 1]? = some tt.slots[tt.slots.length - 1] := List.getElem?_eq_getElem (by omega)
  have e1 := slotStart_succ tt.slots _ _ hk
  rw [show tt.slots.length - 1 + 1 = tt.slots.length by omega] at e1
  have hss : 0 < tt.slots[tt.slots.length - 1].ss := (hPos.1 _ (List.mem_of_getElem? hk)).2
  obtain ⟨q, q1, q2⟩ := slot_ptr hr hk
  rw [show tt.slots.length - 1 + 2 = tt.slots.length + 1 by omega, he.ey] at q1
  cases q1
  have hph : ∀ f : Bool, (tt.phases f)[slotStart tt.slots tt.slots.length - 1]? =
      some (if y.left = f then Phase.swing else Phase.stance) := by
    intro f
    rw [(phases_slot tt f _ _ hk).2 _ (by omega) (by omega), q2]
  have hL := hph true
  have hR := hph false
  rw [← hr.built.left] at hL
  rw [← hr.built.right] at hR
  cases hy : y.left
  · simp only [hy, Bool.false_eq_true, if_false, if_true] at n2 n3 hL hR
    refine ⟨s, _, _, s1, n2, n3, fun _ => ?_, fun h => ?_⟩
    · rw [hpos, zmpAt_left hw.names (List.mem_of_getLast? n2), zmpAt_right hw.names (List.mem_of_getLast? n3)]
    · rw [hR] at h; cases h
  · simp only [hy, Bool.true_eq_false, if_false, if_true] at n2 n3 hL hR
    refine ⟨s, _, _, s1, n3, n2, fun h => ?_, fun _ => ?_⟩
    · rw [hL] at h; cases h
    · rw [hpos, zmpAt_left hw.names (List.mem_of_getLast? n3), zmpAt_right hw.names (List.mem_of_getLast? n2)]

/-- C76, what the code does with `alpha`: the pieces of two consecutive single supports, prolonged, pass through the same point at
the instant `(b + a') * alpha`, where `b` is the end of the former and `a'` the beginning of the latter; their ZMPs are those of the
steps of indices `k + 1` and `k + 2` in the order of impact. -/
theorem C76_meet (hexp : Trig.exp (0 : K) = 1) (hw : Walk cfg left right initTime dT sorted ordered t) (hv : ValidDcm d)
    (ho : Done d cfg left right initTime dT ordered t d' o) {k a b a' b' : Nat} (h1 : t.shifts[2 * k + 1]? = some a)
    (h2 : t.shifts[2 * k + 2]? = some b) (h3 : t.shifts[2 * k + 3]? = some a') (h4 : t.shifts[2 * k + 4]? = some b')
    (hk : 2 * k + 5 < t.shifts.length) {q q' : Ptr K} (hq : ordered[k + 1]? = some q) (hq' : ordered[k + 2]? = some q') :
    ∃ bt bp bt' bp', .single ((a : K) * dT) ((b : K) * dT) (d.zmpAt q.step) bt bp ∈ o.pieces ∧
      .single ((a' : K) * dT) ((b' : K) * dT) (d.zmpAt q'.step) bt' bp' ∈ o.pieces ∧
      (Piece.single ((a : K) * dT) ((b : K) * dT) (d.zmpAt q.step) bt bp).pos d.omega (((a' : K) * dT + (b : K) * dT) * d.alpha) =
        (Piece.single ((a' : K) * dT) ((b' : K) * dT) (d.zmpAt q'.step) bt' bp').pos d.omega (((a' : K) * dT + (b : K) * dT) * d.alpha) := by
  obtain ⟨l, r, tt, hr⟩ := timeline_ok hw.made
  obtain ⟨x, y, u, v, p, init, he, -, hwh, -, -⟩ := full_of hexp hw hv ho hr
  obtain ⟨hsl, -⟩ := shifts_ends hw hr
  have e1 : tt.slots[k]? = some tt.slots[k] := List.getElem?_eq_getElem (by omega)
  have e2 : tt.slots[k + 1]? = some tt.slots[k + 1] := List.getElem?_eq_getElem (by omega)
  obtain ⟨bt, bp, bt', bp', m1, m2, m3, -⟩ := hwh.meet k _ _ (slots_mem (d := d) hw hr init e1 hq) (slots_mem (d := d) hw hr init e2 hq')
  obtain ⟨-, s1, s2⟩ := shifts_slot tt k _ e1
  obtain ⟨-, s3, s4⟩ := shifts_slot tt (k + 1) _ e2
  rw [← hr.built.shifts] at s1 s2 s3 s4
  rw [s1] at h1; rw [s2] at h2
  rw [show 2 * (k + 1) + 1 = 2 * k + 3 by omega, h3] at s3
  rw [show 2 * (k + 1) + 2 = 2 * k + 4 by omega, h4] at s4
  cases h1; cases h2; cases s3; cases s4
  exact ⟨bt, bp, bt', bp', m1, m2, m3⟩

end

/-! ## Examples and witnesses -/

private local instance : Trig ℚ := ⟨fun _ => 1, fun _ => 0, fun x => x, fun x => 1 + x, fun x => x, fun x _ => x, 3⟩

private def st (x t : ℚ) (n : String) : Step ℚ := ⟨⟨x, 0⟩, 0, t, n⟩
private def lf (l : List (ℚ × ℚ)) : FootPrint ℚ := ⟨l.map (fun p => st p.1 p.2 "left"), "left"⟩
private def rf (l : List (ℚ × ℚ)) : FootPrint ℚ := ⟨l.map (fun p => st p.1 p.2 "right"), "right"⟩
private def pl (i : Nat) (x t : ℚ) : Ptr ℚ := ⟨true, i, st x t "left"⟩
private def pr (i : Nat) (x t : ℚ) : Ptr ℚ := ⟨false, i, st x t "right"⟩
private def gen : Dcm ℚ := { (Dcm.new : Dcm ℚ) with omega := 2, stillness := 1 / 2 }
private def set : GenSettings ℚ := { (GenSettings.new : GenSettings ℚ) with endSwitch := 2 }

private def tl (l r : FootPrint ℚ) (s : List (Ptr ℚ)) : List (Ptr ℚ) × Timing ℚ :=
  match timeline set l r 0 1 s with
  | .ok x => x
  | _ => ([], ⟨[], [], [], [], 0, 0, 0, true, true⟩)

/-- Phase changes, return value and samples of a generation. -/
private def run (d : Dcm ℚ) (l r : FootPrint ℚ) (s : List (Ptr ℚ)) : Out (List Nat × Bool × Option (List (DcmSample ℚ))) := do
  let x ← timeline set l r 0 1 s
  let y ← d.computeNewTrajectories set 0 1 (x.1.map Ptr.step) x.2.shifts x.2.left l r
  .ok (x.2.shifts, y.1, y.2.2.map DcmOut.samples)

private def l1 := lf [(0, 0), (1, 4)]
private def r1 := rf [(0, 0), (2, 8)]
private def s1 := [pl 0 0 0, pr 0 0 0, pl 1 1 4, pr 1 2 8]
private def l2 := lf [(0, 0), (1, 20)]
private def r2 := rf [(0, 0)]
private def s2 := [pl 0 0 0, pr 0 0 0, pl 1 1 20]

private theorem valid_set : ValidTimings set :=
  ⟨by decide +kernel, by decide +kernel, by decide +kernel, by decide +kernel, by decide +kernel, by decide +kernel,
    by decide +kernel, by decide +kernel⟩

private theorem walk1 : Walk set l1 r1 0 1 s1 (tl l1 r1 s1).1 (tl l1 r1 s1).2 :=
  ⟨valid_set, by unfold SortedPtrs; decide +kernel, by decide +kernel, by decide +kernel, rfl, rfl,
    by unfold Named; decide +kernel, by unfold Named; decide +kernel⟩

private theorem walk2 : Walk set l2 r2 0 1 s2 (tl l2 r2 s2).1 (tl l2 r2 s2).2 :=
  ⟨valid_set, by unfold SortedPtrs; decide +kernel, by decide +kernel, by decide +kernel, rfl, rfl,
    by unfold Named; decide +kernel, by unfold Named; decide +kernel⟩

private theorem turns1 : TakeTurns l1.steps r1.steps where
  later := ⟨fun i a b _ hb => by simp [l1, lf] at hb, fun i a b _ hb => by simp [r1, rf] at hb⟩
  firstL a b ha hb := by cases ha; cases hb; decide +kernel
  firstR a b ha hb := by cases ha; cases hb; decide +kernel

private theorem turns2 : TakeTurns l2.steps r2.steps where
  later := ⟨fun i a b _ hb => by simp [l2, lf] at hb, fun i a b _ hb => by simp [r2, rf] at hb⟩
  firstL a b ha hb := by cases ha; cases hb; decide +kernel
  firstR a b ha hb := by cases ha; simp [r2, rf] at hb

private theorem room (l r : FootPrint ℚ) (s : List (Ptr ℚ))
    (h : (tl l r s).2.shifts[(tl l r s).2.shifts.length - 1]? = (tl l r s).2.shifts[(tl l r s).2.shifts.length - 2]?.map (· + 2)) :
    HasRoom set gen 1 (tl l r s).2 := by
  intro a b ha hb
  rw [ha, hb] at h
  cases h
  refine ⟨fun _ => by decide +kernel, ?_⟩
  rw [Nat.add_sub_cancel_left]
  decide +kernel

/-- Non-vacuity of C46, C47, C73, C74, C76: a step of each foot. -/
example : Trig.exp (0 : ℚ) = 1 ∧ Walk set l1 r1 0 1 s1 (tl l1 r1 s1).1 (tl l1 r1 s1).2 ∧ ValidDcm gen ∧
    HasRoom set gen 1 (tl l1 r1 s1).2 ∧ TakeTurns l1.steps r1.steps ∧ (tl l1 r1 s1).2.shifts = [0, 2, 4, 6, 8, 10] ∧
    ∃ d' o, Done gen set l1 r1 0 1 (tl l1 r1 s1).1 (tl l1 r1 s1).2 d' o :=
  have hv : ValidDcm gen := ⟨by decide +kernel, by decide +kernel, by decide +kernel⟩
  ⟨by decide +kernel, walk1, hv, room _ _ _ (by decide +kernel), turns1, by decide +kernel,
    C73_succeeds (by decide +kernel) walk1 hv (room _ _ _ (by decide +kernel)) (by decide)⟩

/-- Non-vacuity of C75: a double support of nineteen seconds, with a pause from the second to the eighteenth. -/
example : Walk set l2 r2 0 1 s2 (tl l2 r2 s2).1 (tl l2 r2 s2).2 ∧ HasRoom set gen 1 (tl l2 r2 s2).2 ∧
    TakeTurns l2.steps r2.steps ∧ set.pauseActive = true ∧ (tl l2 r2 s2).2.shifts = [0, 19, 20, 22] ∧
    max (set.switchPercentage * set.maxStepTime) (set.endSwitch + set.switchPercentage * set.nominalStepTime) < (19 : Nat) * 1 - (0 : Nat) * 1 :=
  ⟨walk2, room _ _ _ (by decide +kernel), turns2, rfl, by decide +kernel, by decide +kernel⟩

/-- C73 (negative): if the DCM must rest for nine tenths of a last double support of two samples, the generation fails. -/
theorem C73_no_room_witness : run { gen with stillness := 9 / 10 } l1 r1 s1 = .ok ([0, 2, 4, 6, 8, 10], false, none) := by
  decide +kernel

/-- C73 (negative): `setOmega(0)` is accepted; then the ZMP of the first double support is computed by dividing by zero. -/
theorem C73_omega_zero_witness : (gen.setOmega 0).1 = true ∧ run (gen.setOmega 0).2 l1 r1 s1 = .ub .divByZero := by
  decide +kernel

/-- C46 (negative): if the left foot makes two steps in a row, in the second one, from the sixth sample on, the ZMP is in the
contact that the left foot has just left. -/
theorem C46_same_foot_witness :
    (run gen (lf [(0, 0), (1, 4), (3, 8)]) (rf [(0, 0)]) [pl 0 0 0, pr 0 0 0, pl 1 1 4, pl 2 3 8]).bind
      (fun x => .ok (x.1, x.2.2.map (fun l => l[7]?))) = .ok ([0, 2, 4, 6, 8, 10], some (some ⟨⟨1, 0⟩, ⟨0, 0⟩, ⟨1, 0⟩⟩)) ∧
    (tl (lf [(0, 0), (1, 4), (3, 8)]) (rf [(0, 0)]) [pl 0 0 0, pr 0 0 0, pl 1 1 4, pl 2 3 8]).2.left[7]? = some .swing := by
  decide +kernel

end Dcm
end Uni
