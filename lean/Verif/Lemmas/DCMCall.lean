import Verif.Lemmas.DCMCurve
import Verif.Spec.DcmCall

/-! # A successful call of the generator of the DCM -/

set_option autoImplicit false
set_option linter.unusedSectionVars false

namespace Uni
open Spec Gen
namespace Dcm

section
variable {K : Type} [Field K] [LinearOrder K] [IsStrictOrderedRing K] [FloorRing K] [Trig K]
variable {cfg : GenSettings K} {left right : FootPrint K} {initTime dT : K} {sorted ordered : List (Ptr K)} {t : Timing K}
variable {d d' : Dcm K} {o : DcmOut K}

theorem zmpAt_left (hn : LeftRight left right) {s : Step K} (hs : s ∈ left.steps) : d.zmpAt s = inWorld s d.leftDelta := by
  unfold zmpAt
  rw [if_pos ((hn.left_steps s hs).trans hn.left_name)]

theorem zmpAt_right (hn : LeftRight left right) {s : Step K} (hs : s ∈ right.steps) : d.zmpAt s = inWorld s d.rightDelta := by
  unfold zmpAt
  rw [if_neg]
  rw [(hn.right_steps s hs).trans hn.right_name]
  decide

/-- The steps around the ends of a walk. -/
structure Ends (d : Dcm K) (ordered : List (Ptr K)) (t : Timing K) (tt : Timetable) (x y u v : Ptr K) (p : Phase) : Prop where
  ex : ordered[tt.slots.length]? = some x
  ey : ordered[tt.slots.length + 1]? = some y
  eu : ordered[0]? = some u
  ev : ordered[1]? = some v
  hp : t.left[0]? = some p

theorem ends_ok (hw : Walk cfg left right initTime dT sorted ordered t) {l r : Step K} {tt : Timetable}
    (hr : Run cfg left right initTime dT sorted ordered t l r tt) : ∃ x y u v p, Ends d ordered t tt x y u v p := by
  have hol := slots_length hw.sort hr
  have hPos : tt.Positive := positive_of_shifts (by rw [← hr.built.shifts]; exact hw.phases)
  have hN : t.left.length = slotStart tt.slots tt.slots.length + tt.rest := by
    rw [hr.built.left, tt.length_phases, total_eq]
  have := hPos.2
  exact ⟨_, _, _, _, _, List.getElem?_eq_getElem (by omega), List.getElem?_eq_getElem (by omega),
    List.getElem?_eq_getElem (by omega), List.getElem?_eq_getElem (by omega), List.getElem?_eq_getElem (by omega)⟩

theorem shifts_ends (hw : Walk cfg left right initTime dT sorted ordered t) {l r : Step K} {tt : Timetable}
    (hr : Run cfg left right initTime dT sorted ordered t l r tt) :
    t.shifts.length = 2 * tt.slots.length + 2 ∧ t.shifts[2 * tt.slots.length]? = some (slotStart tt.slots tt.slots.length) ∧
    t.shifts[2 * tt.slots.length + 1]? = some t.left.length ∧ t.left.length = slotStart tt.slots tt.slots.length + tt.rest := by
  obtain ⟨-, p2, p3, -⟩ := C34_partition hw.made
  obtain ⟨-, -, -, hlen⟩ := C37_all_steps hw.sort hw.made
  have hol := slots_length hw.sort hr
  have hsl : t.shifts.length = 2 * tt.slots.length + 2 := by rw [hlen, List.length_drop, hol]; omega
  refine ⟨hsl, ?_, by rw [List.getLast?_eq_getElem?, hsl] at p2; exact p2, by rw [hr.built.left, tt.length_phases, total_eq]⟩
  rcases Nat.eq_zero_or_pos tt.slots.length with h0 | h0
  · rw [h0, Nat.mul_zero, ← List.head?_eq_getElem?, p3]; rfl
  · have hk : tt.slots[tt.slots.length - 1]? = some tt.slots[tt.slots.length - 1] := List.getElem?_eq_getElem (by omega)
    have e1 := (shifts_slot tt _ _ hk).2.2
    have e2 := slotStart_succ tt.slots _ _ hk
    rw [hr.built.shifts, show 2 * tt.slots.length = 2 * (tt.slots.length - 1) + 2 by omega, e1, ← e2,
      show tt.slots.length - 1 + 1 = tt.slots.length by omega]

theorem roomy_of (hw : Walk cfg left right initTime dT sorted ordered t) {l r : Step K} {tt : Timetable}
    (hr : Run cfg left right initTime dT sorted ordered t l r tt) (h : HasRoom cfg d dT t) : Roomy cfg d.stillness dT tt.rest := by
  obtain ⟨h1, h2, h3, h4⟩ := shifts_ends hw hr
  have := h _ _ (by rw [h1, show 2 * tt.slots.length + 2 - 2 = 2 * tt.slots.length by omega]; exact h2)
    (by rw [h1, show 2 * tt.slots.length + 2 - 1 = 2 * tt.slots.length + 1 by omega]; exact h3)
  rwa [h4, Nat.add_sub_cancel_left] at this

/-- The pieces of a successful call. -/
theorem whole_of (hexp : Trig.exp (0 : K) = 1) (hw : Walk cfg left right initTime dT sorted ordered t) (hv : ValidDcm d)
    (ho : Done d cfg left right initTime dT ordered t d' o) {l r : Step K} {tt : Timetable}
    (hr : Run cfg left right initTime dT sorted ordered t l r tt) {x y u v : Ptr K} {p : Phase} (he : Ends d ordered t tt x y u v p) :
    ∃ init, d.start l r = some init ∧
      Whole (d.ready cfg dT init) (Roomy cfg d.stillness dT tt.rest) init (d.zmpAt (firstSwing p u.step v.step))
        ((t.left.length : K) * dT) (middle (d.zmpAt y.step) (d.zmpAt x.step))
        ((1 - d.lastOffset) * d.zmpAt x.step + d.lastOffset * d.zmpAt y.step)
        (if tt.slots.length = 0 then [] else (d.ready cfg dT init).slots t.shifts (ordered.map Ptr.step)) o.pieces ∧
      (d.ready cfg dT init).evaluate t.left.length 0 o.pieces = .ok o.samples ∧
      (d.ready cfg dT init).feetWeights t.left t.shifts left.steps right.steps (o.samples.map DcmSample.zmp) = .ok o.weights ∧
      d' = { d.ready cfg dT init with specified := false } := by
  obtain ⟨l', r', init, h1, h2, h3, h4, h5⟩ := compute_inv ho
  rw [hr.headL] at h1; cases h1
  rw [hr.headR] at h2; cases h2
  obtain ⟨-, p2, p3, -⟩ := C34_partition hw.made
  obtain ⟨g1, -, g3, g4⟩ := generate_inv h4
  obtain ⟨tr, t1, t2⟩ := pieces_whole (d := d) hexp hw.valid hw.sort hw.made hw.phases hw.names hv.still_nonneg hv.still_lt init hr
    he.ex he.ey he.eu he.ev he.hp (R := Roomy cfg d.stillness dT tt.rest) id
  rw [t1] at g1; cases g1
  have e1 : t.shifts.getLastD 0 = t.left.length := by rw [List.getLastD_eq_getLast?, p2]; rfl
  have e2 : t.shifts.headD 0 = 0 := by rw [List.headD_eq_head?_getD, p3]; rfl
  rw [e1, e2, Nat.sub_zero] at g3
  exact ⟨init, h3, t2, g3, g4, h5⟩

/-- The samples of a trajectory with enough room. -/
theorem samples_of {dd : Dcm K} {init : Vec2 K × Vec2 K} {z0 target bPos : Vec2 K} {S : List (K × K × Vec2 K)} {tr : List (Piece K)}
    {R : Prop} {N : Nat} (hω : dd.omega ≠ 0) (hd : 0 < dd.dT) (hwh : Whole dd R init z0 ((N : K) * dd.dT) target bPos S tr) (hR : R) :
    ∃ l, dd.evaluate N 0 tr = .ok l ∧ l.length = N ∧ ∀ j, j < N → ∃ s, l[j]? = some s ∧
      s.zmp = s.pos - (1 / dd.omega) * s.vel ∧ (∃ q ∈ tr, q.start ≤ (j : K) * dd.dT ∧ (j : K) * dd.dT ≤ q.stop) ∧
      ∀ q ∈ tr, q.start ≤ (j : K) * dd.dT → (j : K) * dd.dT ≤ q.stop →
        s = ⟨q.pos dd.omega ((j : K) * dd.dT), q.vel dd.omega ((j : K) * dd.dT), q.zmp dd.omega ((j : K) * dd.dT)⟩ := by
  obtain ⟨p, ps, rfl, f1, f2, f3, f4⟩ := hwh.first
  obtain ⟨q0, g1, g2⟩ := hwh.last
  obtain ⟨l, l1, l2, l3⟩ := evaluate_ok hω hd N 0 p ps hwh.chain (fun q hq => hwh.long hR q (by
      cases ps with
      | nil => simp at hq
      | cons a as => rw [List.dropLast_cons_cons]; exact List.mem_cons_of_mem _ hq)) f2
    (by rw [f1]; simp) (by
      have := hwh.order p List.mem_cons_self
      simp only [Nat.cast_zero, zero_mul]; linarith) (fun q hq i hi => by
      rw [g1] at hq; cases hq
      rw [g2]
      refine mul_le_mul_of_nonneg_right ?_ hd.le
      exact_mod_cast (by omega))
  refine ⟨l, l1, l2, fun j hj => ?_⟩
  obtain ⟨q, q1, q2, q3, q4⟩ := l3 j hj
  rw [Nat.zero_add] at q2 q3 q4
  refine ⟨_, q4, q.zmp_eq hω _, ⟨q, q1, q2, q3⟩, fun q' q1' q2' q3' => ?_⟩
  obtain ⟨a, b⟩ := chain_agree hwh.chain hwh.order q q1 q' q1' q2 q3 q2' q3'
  rw [q.zmp_eq hω, q'.zmp_eq hω, a, b]

/-- The single support of slot `k`. -/
theorem single_of (hw : Walk cfg left right initTime dT sorted ordered t) {l r : Step K} {tt : Timetable}
    (hr : Run cfg left right initTime dT sorted ordered t l r tt) {k : Nat} {x : Slot} (hk : tt.slots[k]? = some x)
    (init : Vec2 K × Vec2 K) :
    ∃ q : Ptr K, ordered[k + 1]? = some q ∧
      (if tt.slots.length = 0 then [] else (d.ready cfg dT init).slots t.shifts (ordered.map Ptr.step)).length = tt.slots.length ∧
      (if tt.slots.length = 0 then [] else (d.ready cfg dT init).slots t.shifts (ordered.map Ptr.step))[k]? =
        some (((slotStart tt.slots k + x.ds : Nat) : K) * dT, ((slotStart tt.slots k + x.ds + x.ss : Nat) : K) * dT, d.zmpAt q.step) := by
  have hkl := (List.getElem?_eq_some_iff.mp hk).1
  have hol := slots_length hw.sort hr
  obtain ⟨h1, -⟩ := shifts_ends hw hr
  obtain ⟨-, s1, s2⟩ := shifts_slot tt k x hk
  rw [← hr.built.shifts] at s1 s2
  refine ⟨ordered[k + 1], List.getElem?_eq_getElem (by omega), ?_⟩
  rw [if_neg (by omega)]
  exact (d.ready cfg dT init).slots_get h1 (by rw [List.length_map, hol]) hkl s1 s2 (by
    rw [List.getElem?_map, List.getElem?_eq_getElem (by omega)]; rfl)

/-- In which slot a sample of a single support is. -/
theorem slot_of_phase (hw : Walk cfg left right initTime dT sorted ordered t) {l r : Step K} {tt : Timetable}
    (hr : Run cfg left right initTime dT sorted ordered t l r tt) (f : Bool) {j : Nat} {p : Phase}
    (hj : (if f then t.left else t.right)[j]? = some p) (hp : p = .stance ∨ p = .swing) :
    ∃ k x, tt.slots[k]? = some x ∧ slotStart tt.slots k + x.ds ≤ j ∧ j < slotStart tt.slots k + x.ds + x.ss ∧
      x.left = (if p = .swing then f else !f) ∧ ∀ g : Bool,
      landings (if g then t.left else t.right) j = (tt.slots.take k).countP (fun y => y.left == g) := by
  obtain ⟨-, -, -, hN⟩ := shifts_ends hw hr
  have hf : (if f then t.left else t.right) = tt.phases f := by
    cases f
    · exact hr.built.right
    · exact hr.built.left
  have hlen : j < t.left.length := by
    have := (List.getElem?_eq_some_iff.mp hj).1
    rw [hf, tt.length_phases] at this
    rw [hr.built.left, tt.length_phases]
    exact this
  obtain ⟨k, k1, k2, k3, k4⟩ := Zmp.sample_slot hw.phases hr f j hlen
  rcases k1.eq_or_lt with he | hlt
  · exfalso
    rw [he] at k2
    have := phases_rest tt f j k2 (by rw [total_eq]; omega)
    rw [← hf, hj] at this
    cases this
    split_ifs at hp <;> simp at hp
  · have hk : tt.slots[k]? = some tt.slots[k] := List.getElem?_eq_getElem hlt
    have k3 := k3 hlt
    rw [slotStart_succ _ _ _ hk] at k3
    obtain ⟨a1, a2⟩ := phases_slot tt f k _ hk
    have hds : slotStart tt.slots k + tt.slots[k].ds ≤ j := by
      by_contra hc
      have := a1 j k2 (by omega)
      rw [← hf, hj] at this
      cases this
      split_ifs at hp <;> simp at hp
    have := a2 j hds k3
    rw [← hf, hj] at this
    refine ⟨k, _, hk, hds, k3, ?_, fun g => ?_⟩
    · cases this
      cases tt.slots[k].left <;> cases f <;> simp
    · obtain ⟨k', k1', k2', k3', k4'⟩ := Zmp.sample_slot hw.phases hr g j hlen
      have e : k' = k := by
        rcases lt_trichotomy k' k with hc | hc | hc
        · have := k3' (by omega)
          have := slotStart_mono tt.slots (show k' + 1 ≤ k by omega)
          omega
        · exact hc
        · have := slotStart_mono tt.slots (show k + 1 ≤ k' by omega)
          rw [slotStart_succ _ _ _ hk] at this
          omega
      rw [k4', e]

/-- The sample at an instant of a single support. -/
theorem single_sample (hexp : Trig.exp (0 : K) = 1) (hw : Walk cfg left right initTime dT sorted ordered t) (hv : ValidDcm d)
    (hroom : HasRoom cfg d dT t) (ho : Done d cfg left right initTime dT ordered t d' o) {l r : Step K} {tt : Timetable}
    (hr : Run cfg left right initTime dT sorted ordered t l r tt) {k j : Nat} {x : Slot} (hk : tt.slots[k]? = some x)
    (h1 : slotStart tt.slots k + x.ds ≤ j) (h2 : j < slotStart tt.slots k + x.ds + x.ss) :
    ∃ (s : DcmSample K) (q : Ptr K), o.samples[j]? = some s ∧ ordered[k + 1]? = some q ∧ s.zmp = d.zmpAt q.step := by
  obtain ⟨x', y, u, v, p, he⟩ := ends_ok (d := d) hw hr
  obtain ⟨init, -, hwh, hev, -, -⟩ := whole_of hexp hw hv ho hr he
  obtain ⟨q, q1, -, q3⟩ := single_of (d := d) hw hr hk init
  obtain ⟨bt, bp, hm⟩ := hwh.singles _ (List.mem_of_getElem? q3)
  have hdT := hr.dT_pos
  obtain ⟨lst, e1, e2, e3⟩ := samples_of (dd := d.ready cfg dT init) hv.omega_pos.ne' hdT hwh (roomy_of hw hr hroom)
  rw [hev] at e1; cases e1
  obtain ⟨-, -, -, hN⟩ := shifts_ends hw hr
  have hkl := (List.getElem?_eq_some_iff.mp hk).1
  have hjN : j < t.left.length := by
    have := slotStart_mono tt.slots (show k + 1 ≤ tt.slots.length by omega)
    rw [slotStart_succ _ _ _ hk] at this
    omega
  obtain ⟨s, s1, -, -, s4⟩ := e3 j hjN
  have := s4 _ hm (mul_le_mul_of_nonneg_right (by exact_mod_cast h1) hdT.le)
    (mul_le_mul_of_nonneg_right (by exact_mod_cast h2.le) hdT.le)
  exact ⟨s, q, s1, q1, by rw [this]; rfl⟩

/-- In which slot a sample is. -/
theorem slot_at (hw : Walk cfg left right initTime dT sorted ordered t) {l r : Step K} {tt : Timetable}
    (hr : Run cfg left right initTime dT sorted ordered t l r tt) {j : Nat} (hj : j < t.left.length) :
    ∃ k, k ≤ tt.slots.length ∧ slotStart tt.slots k ≤ j ∧ (k < tt.slots.length → j < slotStart tt.slots (k + 1)) ∧ ∀ g : Bool,
      landings (if g then t.left else t.right) j = (tt.slots.take k).countP (fun y => y.left == g) := by
  obtain ⟨k, k1, k2, k3, k4⟩ := Zmp.sample_slot hw.phases hr true j hj
  refine ⟨k, k1, k2, k3, fun g => ?_⟩
  obtain ⟨k', k1', k2', k3', k4'⟩ := Zmp.sample_slot hw.phases hr g j hj
  have e : k' = k := by
    rcases lt_trichotomy k' k with hc | hc | hc
    · have := k3' (by omega)
      have := slotStart_mono tt.slots (show k' + 1 ≤ k by omega)
      omega
    · exact hc
    · have := k3 (by omega)
      have := slotStart_mono tt.slots (show k + 1 ≤ k' by omega)
      omega
  rw [k4', e]

/-- The last two steps are the last contacts of the two feet. -/
theorem last_steps (hw : Walk cfg left right initTime dT sorted ordered t) (ha : TakeTurns left.steps right.steps)
    {l r : Step K} {tt : Timetable} (hr : Run cfg left right initTime dT sorted ordered t l r tt) {x y : Ptr K}
    (ex : ordered[tt.slots.length]? = some x) (ey : ordered[tt.slots.length + 1]? = some y) :
    x.left = !y.left ∧ (if y.left then right.steps else left.steps).getLast? = some x.step ∧
      (if y.left then left.steps else right.steps).getLast? = some y.step := by
  have hcl := slots_count_steps hw.sort hr true
  have hcr := slots_count_steps hw.sort hr false
  simp only [if_true, Bool.false_eq_true, if_false] at hcl hcr
  rcases Nat.eq_zero_or_pos tt.slots.length with h0 | h0
  · have hnil := List.length_eq_zero_iff.mp h0
    rw [hnil, List.countP_nil] at hcl hcr
    rw [h0] at ex ey
    have hx : (ordered.take 2)[0]? = some x := by rw [List.getElem?_take]; simpa using ex
    have hy : (ordered.take 2)[1]? = some y := by rw [List.getElem?_take]; simpa using ey
    have hl0 := hr.headL
    have hr0 := hr.headR
    rw [List.head?_eq_getElem?] at hl0 hr0
    rw [List.getLast?_eq_getElem?, List.getLast?_eq_getElem?]
    rcases hr.front hw.sort with hf | hf <;> rw [hf] at hx hy <;>
      simp only [List.getElem?_cons_zero, List.getElem?_cons_succ, Option.some.injEq] at hx hy <;> subst hx hy <;>
      simp only [Bool.false_eq_true, if_false, if_true, Bool.not_false, Bool.not_true, ← hcl, ← hcr, Nat.zero_add,
        Nat.sub_self, hl0, hr0, and_self]
  · obtain ⟨k, hk⟩ : ∃ k, tt.slots.length = k + 1 := ⟨_, (Nat.succ_pred_eq_of_pos h0).symm⟩
    rw [hk] at ex ey
    have hks : tt.slots[k]? = some tt.slots[k] := List.getElem?_eq_getElem (by omega)
    obtain ⟨q, q1, q2⟩ := slot_ptr hr hks
    rw [show k + 1 + 1 = k + 2 by omega, q1] at ey
    cases ey
    obtain ⟨s1, s2⟩ := stance_step hw.sort hw.made hr hw.names.left_steps hw.names.right_steps ha hks ex
    obtain ⟨h1, -⟩ := C37_all_steps hw.sort hw.made
    obtain ⟨a1, a2⟩ := h1 k y q1
    have hc : (tt.slots.take k).countP (fun z => z.left == tt.slots[k].left) + 1 = y.index := by
      rw [a1, q2, Nat.add_comm]
      congr 1
      rcases hr.built.cases with ⟨-, hn, -⟩ | ⟨-, ms, hsl, -⟩
      · rw [hn] at h0; simp at h0
      have := congrArg (fun l : List Bool => (l.take k).countP (fun y => y == tt.slots[k].left)) (slots_left hsl)
      simp only [← List.map_take, List.countP_map] at this
      exact this
    have hsplit : tt.slots = tt.slots.take k ++ [tt.slots[k]] := by
      have := List.take_append_drop k tt.slots
      rw [List.drop_eq_getElem_cons (by omega), List.drop_of_length_le (by omega)] at this
      exact this.symm
    have hcount : ∀ f, tt.slots.countP (fun z => z.left == f) =
        (tt.slots.take k).countP (fun z => z.left == f) + if tt.slots[k].left == f then 1 else 0 := by
      intro f
      conv_lhs => rw [hsplit]
      rw [List.countP_append, List.countP_singleton]
    rw [hcount] at hcl hcr
    rw [List.getLast?_eq_getElem?, List.getLast?_eq_getElem?]
    rw [q2]
    refine ⟨s1, ?_⟩
    rw [q2] at a2
    revert hcl hcr s2 hc a2
    cases tt.slots[k].left
    · intro hcr hcl s2 a2 hc
      simp only [Bool.false_eq_true, if_false, if_true, Bool.not_false, beq_self_eq_true, beq_iff_eq, Nat.add_zero] at hcl hcr s2 hc a2 ⊢
      rw [← hcl, ← hcr, Nat.add_sub_cancel, Nat.add_sub_cancel]
      exact ⟨s2, by rw [hc]; exact a2⟩
    · intro hcr hcl s2 a2 hc
      simp only [Bool.true_eq_false, if_false, if_true, Bool.not_true, beq_self_eq_true, beq_iff_eq, Nat.add_zero] at hcl hcr s2 hc a2 ⊢
      rw [← hcl, ← hcr, Nat.add_sub_cancel, Nat.add_sub_cancel]
      exact ⟨s2, by rw [hc]; exact a2⟩

theorem middle_comm (a b : Vec2 K) : middle a b = middle b a := by
  unfold middle
  ext <;> simp <;> ring

/-- The middle of the ZMPs of the last contacts of the feet. -/
theorem last_middle (hw : Walk cfg left right initTime dT sorted ordered t) (ha : TakeTurns left.steps right.steps)
    {l r : Step K} {tt : Timetable} (hr : Run cfg left right initTime dT sorted ordered t l r tt) {x y : Ptr K}
    (ex : ordered[tt.slots.length]? = some x) (ey : ordered[tt.slots.length + 1]? = some y) :
    ∃ a b, left.steps.getLast? = some a ∧ right.steps.getLast? = some b ∧
      middle (d.zmpAt y.step) (d.zmpAt x.step) = middle (inWorld a d.leftDelta) (inWorld b d.rightDelta) := by
  obtain ⟨h1, h2, h3⟩ := last_steps hw ha hr ex ey
  cases hy : y.left
  · simp only [hy, Bool.false_eq_true, if_false] at h2 h3
    refine ⟨_, _, h2, h3, ?_⟩
    rw [zmpAt_left hw.names (List.mem_of_getLast? h2), zmpAt_right hw.names (List.mem_of_getLast? h3), middle_comm]
  · simp only [hy, if_true] at h2 h3
    refine ⟨_, _, h3, h2, ?_⟩
    rw [zmpAt_left hw.names (List.mem_of_getLast? h3), zmpAt_right hw.names (List.mem_of_getLast? h2)]

/-- Over pieces that reach the last instant the evaluation has no undefined behaviour. -/
theorem evaluate_safe {d : Dcm K} (hω : d.omega ≠ 0) (hd : 0 < d.dT) (n t : Nat) (tr : List (Piece K)) {p : Piece K}
    (hl : tr.getLast? = some p) (he : ((t + n : Nat) : K) * d.dT ≤ p.stop)
    (hf : ∀ q ∈ tr, q.start < q.stop ∨ q.stop ≤ q.start ∧ ((t + n : Nat) : K) * d.dT ≤ q.start) :
    (∃ l, d.evaluate n t tr = .ok l) ∨ d.evaluate n t tr = .fail := by
  induction n generalizing t tr with
  | zero => exact Or.inl ⟨[], by simp [Dcm.evaluate]⟩
  | succ n ih =>
    cases tr with
    | nil => simp at hl
    | cons a ps =>
      simp only [Dcm.evaluate]
      have key : ∀ (q : Piece K) (qs : List (Piece K)), (q :: qs).getLast? = some p → (∀ x ∈ q :: qs, x ∈ a :: ps) →
          (∃ l, (do let s ← q.sample d.omega ((t : K) * d.dT) (d.dT / 2)
                    let l ← d.evaluate n (t + 1) (q :: qs)
                    Out.ok (s :: l)) = .ok l) ∨
          (do let s ← q.sample d.omega ((t : K) * d.dT) (d.dT / 2)
              let l ← d.evaluate n (t + 1) (q :: qs)
              Out.ok (s :: l)) = .fail := by
        intro q qs hq hsub
        have hs : (∃ s, q.sample d.omega ((t : K) * d.dT) (d.dT / 2) = .ok s) ∨ q.sample d.omega ((t : K) * d.dT) (d.dT / 2) = .fail := by
          by_cases hdom : q.inDomain ((t : K) * d.dT) (d.dT / 2) = true
          · left
            have hdom' := hdom
            unfold Piece.inDomain at hdom'
            rw [decide_eq_true_eq] at hdom'
            rcases hf q (hsub q List.mem_cons_self) with h | ⟨-, h⟩
            · exact ⟨_, Piece.sample_ok hω (Piece.finite_of_lt h) hdom'.1 hdom'.2⟩
            · exfalso
              have h2 := hdom'.1
              push_cast at h
              nlinarith [mul_nonneg (Nat.cast_nonneg (α := K) n) hd.le]
          · right
            unfold Piece.sample Piece.state
            rw [if_neg hdom]; rfl
        rcases hs with ⟨s, hs⟩ | hs
        · rcases ih (t + 1) (q :: qs) hq (by rw [show t + 1 + n = t + (n + 1) by omega]; exact he)
            (fun x hx => by rw [show t + 1 + n = t + (n + 1) by omega]; exact hf x (hsub x hx)) with ⟨l, hl⟩ | hl
          · exact Or.inl ⟨s :: l, by rw [hs, Out.bind_ok, hl, Out.bind_ok]⟩
          · exact Or.inr (by rw [hs, Out.bind_ok, hl]; rfl)
        · exact Or.inr (by rw [hs]; rfl)
      by_cases hc : a.stop < (t : K) * d.dT
      · rw [if_pos hc]
        cases ps with
        | nil =>
          exfalso
          simp only [List.getLast?_singleton, Option.some.injEq] at hl
          rw [← hl] at he
          push_cast at he
          nlinarith [mul_nonneg (Nat.cast_nonneg (α := K) n) hd.le]
        | cons b bs =>
          rw [List.getLast?_cons_cons] at hl
          exact key b bs hl (fun x hx => List.mem_cons_of_mem _ hx)
      · rw [if_neg hc]
        exact key a ps hl (fun x hx => hx)

/-- The weights of the feet over a timeline. -/
theorem weights_of (hw : Walk cfg left right initTime dT sorted ordered t) {l r : Step K} {tt : Timetable}
    (hr : Run cfg left right initTime dT sorted ordered t l r tt) (dd : Dcm K) {zmps : List (Vec2 K)} (hz : zmps.length = t.left.length) :
    ∃ out, dd.feetWeights t.left t.shifts left.steps right.steps zmps = .ok out ∧ out.length = t.left.length ∧
      (∀ (k : Nat) (x : Slot), tt.slots[k]? = some x → ∀ j, j < x.ss →
        out[slotStart tt.slots k + x.ds + j]? = some (if x.left then (0, 1) else (1, 0))) ∧
      ∀ k, k ≤ tt.slots.length → ∀ j, j < (match tt.slots[k]? with | some x => x.ds | none => tt.rest) →
        ∃ l r z w, left.steps[(tt.slots.take k).countP (fun x => x.left == true)]? = some l ∧
          right.steps[(tt.slots.take k).countP (fun x => x.left == false)]? = some r ∧
          zmps[slotStart tt.slots k + j]? = some z ∧ out[slotStart tt.slots k + j]? = some (w, 1 - w) ∧
          w = leftWeight (footZmp dd.leftDelta l) (footZmp dd.rightDelta r) z := by
  have hPos : tt.Positive := positive_of_shifts (by rw [← hr.built.shifts]; exact hw.phases)
  have hcl := slots_count_steps hw.sort hr true
  have hcr := slots_count_steps hw.sort hr false
  simp only [if_true, Bool.false_eq_true, if_false] at hcl hcr
  obtain ⟨-, -, -, hN⟩ := shifts_ends hw hr
  obtain ⟨s, out, h1, h2, h3, h4⟩ := weights_run dd zmps left.steps right.steps
    (if tt.lastLeft = true then Phase.switchIn else Phase.switchOut, tt.rest) (by split_ifs <;> simp) tt.slots 1 0 0 0
    (by omega) (by omega) (by rw [hz, hN]; simp)
  refine ⟨out, ?_, by rw [h2, hN], h3, ?_⟩
  · unfold feetWeights
    rw [hr.built.left, hr.built.shifts, overPhases_timetable _ _ true hPos]
    have : tt.segs true = slotSegs true tt.slots ++ [(if tt.lastLeft = true then Phase.switchIn else Phase.switchOut, tt.rest)] := by
      rw [segs_eq]
    rw [this]
    simp only [List.drop_zero] at h1
    rw [h1]; rfl
  · intro k hk j hj
    have := h4 k hk j (by revert hj; cases tt.slots[k]? <;> exact id)
    simpa only [Nat.zero_add] using this

/-- Pieces and samples of a successful call. -/
theorem full_of (hexp : Trig.exp (0 : K) = 1) (hw : Walk cfg left right initTime dT sorted ordered t) (hv : ValidDcm d)
    (ho : Done d cfg left right initTime dT ordered t d' o) {l r : Step K} {tt : Timetable}
    (hr : Run cfg left right initTime dT sorted ordered t l r tt) :
    ∃ x y u v p init, Ends d ordered t tt x y u v p ∧ d.start l r = some init ∧
      Whole (d.ready cfg dT init) (Roomy cfg d.stillness dT tt.rest) init (d.zmpAt (firstSwing p u.step v.step))
        ((t.left.length : K) * dT) (middle (d.zmpAt y.step) (d.zmpAt x.step))
        ((1 - d.lastOffset) * d.zmpAt x.step + d.lastOffset * d.zmpAt y.step)
        (if tt.slots.length = 0 then [] else (d.ready cfg dT init).slots t.shifts (ordered.map Ptr.step)) o.pieces ∧
      o.samples.length = t.left.length ∧
      (HasRoom cfg d dT t → ∀ j, j < t.left.length → ∃ s, o.samples[j]? = some s ∧
        (∃ q ∈ o.pieces, q.start ≤ (j : K) * dT ∧ (j : K) * dT ≤ q.stop) ∧
        ∀ q ∈ o.pieces, q.start ≤ (j : K) * dT → (j : K) * dT ≤ q.stop →
          s = ⟨q.pos d.omega ((j : K) * dT), q.vel d.omega ((j : K) * dT),
            q.pos d.omega ((j : K) * dT) - (1 / d.omega) * q.vel d.omega ((j : K) * dT)⟩) := by
  obtain ⟨x, y, u, v, p, he⟩ := ends_ok (d := d) hw hr
  obtain ⟨init, h1, hwh, hev, -, -⟩ := whole_of hexp hw hv ho hr he
  refine ⟨x, y, u, v, p, init, he, h1, hwh, (evaluate_inv hev).1, fun hroom j hj => ?_⟩
  obtain ⟨lst, e1, -, e3⟩ := samples_of (dd := d.ready cfg dT init) hv.omega_pos.ne' hr.dT_pos hwh (roomy_of hw hr hroom)
  rw [hev] at e1; cases e1
  obtain ⟨s, s1, -, s3, s4⟩ := e3 j hj
  refine ⟨s, s1, s3, fun q hq q1 q2 => ?_⟩
  rw [s4 q hq q1 q2, q.zmp_eq (ω := (d.ready cfg dT init).omega) hv.omega_pos.ne']
  rfl

/-- The slots of the trajectory: instants and ZMP of a single support. -/
theorem slots_mem (hw : Walk cfg left right initTime dT sorted ordered t) {l r : Step K} {tt : Timetable}
    (hr : Run cfg left right initTime dT sorted ordered t l r tt) (init : Vec2 K × Vec2 K) {k : Nat} {x : Slot} {q : Ptr K}
    (hk : tt.slots[k]? = some x) (hq : ordered[k + 1]? = some q) :
    (if tt.slots.length = 0 then [] else (d.ready cfg dT init).slots t.shifts (ordered.map Ptr.step))[k]? =
      some (((slotStart tt.slots k + x.ds : Nat) : K) * dT, ((slotStart tt.slots k + x.ds + x.ss : Nat) : K) * dT, d.zmpAt q.step) := by
  obtain ⟨q', h1, -, h3⟩ := single_of (d := d) hw hr hk init
  rw [hq] at h1; cases h1
  exact h3

/-- The instants of the phases: the double support before slot `k`. -/
theorem double_slot (hw : Walk cfg left right initTime dT sorted ordered t) {l r : Step K} {tt : Timetable}
    (hr : Run cfg left right initTime dT sorted ordered t l r tt) {k a b : Nat} (h0 : t.shifts[2 * k]? = some a)
    (h1 : t.shifts[2 * k + 1]? = some b) (h2 : 2 * k + 2 < t.shifts.length) :
    ∃ x, tt.slots[k]? = some x ∧ a = slotStart tt.slots k ∧ b = slotStart tt.slots k + x.ds := by
  obtain ⟨hsl, -⟩ := shifts_ends hw hr
  have hk : tt.slots[k]? = some tt.slots[k] := List.getElem?_eq_getElem (by omega)
  obtain ⟨s0, s1, s2⟩ := shifts_slot tt k _ hk
  rw [← hr.built.shifts] at s0 s1
  rw [s0] at h0; rw [s1] at h1
  cases h0; cases h1
  exact ⟨_, hk, rfl, rfl⟩

/-- The ZMP of the foot that swings in slot `k`, before it leaves the ground. -/
theorem swing_zmp (hw : Walk cfg left right initTime dT sorted ordered t) (ha : TakeTurns left.steps right.steps)
    {l r : Step K} {tt : Timetable} (hr : Run cfg left right initTime dT sorted ordered t l r tt) {k : Nat} {x y : Slot} {q : Ptr K}
    (hx : tt.slots[k]? = some x) (hy : tt.slots[k + 1]? = some y) (hq : ordered[k + 1]? = some q) :
    (if y.left then left.steps else right.steps)[(tt.slots.take (k + 1)).countP (fun z => z.left == y.left)]? = some q.step := by
  obtain ⟨-, h⟩ := stance_step hw.sort hw.made hr hw.names.left_steps hw.names.right_steps ha hx hq
  have hne := Zmp.slots_alternate hw.sort hw.made hr ha.later k x y hx hy
  have hkl := (List.getElem?_eq_some_iff.mp hx).1
  have hs : tt.slots.take (k + 1) = tt.slots.take k ++ [x] := by
    rw [List.take_add_one, hx]; rfl
  rw [hs, List.countP_append, List.countP_singleton, show (x.left == y.left) = false by simpa using hne]
  simp only [Bool.false_eq_true, if_false, Nat.add_zero]
  revert h hne
  cases x.left <;> cases y.left <;> simp

/-- The foot that `addFirstDoubleSupportPhase` takes for the one that swings first is that one. -/
theorem first_swing (hw : Walk cfg left right initTime dT sorted ordered t) {l r : Step K} {tt : Timetable}
    (hr : Run cfg left right initTime dT sorted ordered t l r tt) {x : Slot} (hx : tt.slots[0]? = some x) {u v : Ptr K} {p : Phase}
    (eu : ordered[0]? = some u) (ev : ordered[1]? = some v) (hp : t.left[0]? = some p) :
    firstSwing p u.step v.step = if x.left then l else r := by
  have hPos : tt.Positive := positive_of_shifts (by rw [← hr.built.shifts]; exact hw.phases)
  have hds : 0 < x.ds := (hPos.1 x (List.mem_of_getElem? hx)).1
  have h00 : slotStart tt.slots 0 = 0 := by simp [slotStart, slotSegs, total]
  have hph := (phases_slot tt true 0 x hx).1 0 (by omega) (by omega)
  rw [← hr.built.left, hp] at hph
  have hll : l.footName = "left" := (hw.names.left_steps l (List.mem_of_head? hr.headL)).trans hw.names.left_name
  have hrr : r.footName = "right" := (hw.names.right_steps r (List.mem_of_head? hr.headR)).trans hw.names.right_name
  have hu : (ordered.take 2)[0]? = some u := by rw [List.getElem?_take]; simpa using eu
  have hvv : (ordered.take 2)[1]? = some v := by rw [List.getElem?_take]; simpa using ev
  cases hph
  rcases hr.front hw.sort with hf | hf <;> rw [hf] at hu hvv <;>
    simp only [List.getElem?_cons_zero, List.getElem?_cons_succ, Option.some.injEq] at hu hvv <;> subst hu hvv <;>
    unfold firstSwing <;> cases x.left <;> simp [hll, hrr]

end
end Dcm
end Uni
