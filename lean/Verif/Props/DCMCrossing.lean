import Verif.Lemmas.DoubleSupport
import Verif.Props.DCMHull

/-! # C102: the ZMP between two single supports -/

set_option autoImplicit false
set_option linter.unusedSectionVars false

namespace Uni
open Spec Gen
namespace Dcm

variable {cfg : GenSettings ℝ} {left right : FootPrint ℝ} {initTime dT : ℝ} {sorted ordered : List (Ptr ℝ)} {t : Timing ℝ}
variable {d d' : Dcm ℝ} {o : DcmOut ℝ}

/-- C46: two samples of the same single support: the distance of the DCM from the desired ZMP of the support grows with the exponential
of `omega` times the time. -/
theorem C46_arc (hw : Walk cfg left right initTime dT sorted ordered t) (hv : ValidDcm d) (hroom : HasRoom cfg d dT t)
    (hturns : TakeTurns left.steps right.steps) (ho : Done d cfg left right initTime dT ordered t d' o) {k a b i j : Nat}
    (ha : t.shifts[2 * k + 1]? = some a) (hb : t.shifts[2 * k + 2]? = some b) (hai : a ≤ i) (hib : i ≤ b) (haj : a ≤ j) (hjb : j ≤ b) :
    ∃ s s' z, o.samples[i]? = some s ∧ o.samples[j]? = some s' ∧ SupportZmp left right t d.leftDelta d.rightDelta k z ∧
      s'.pos = z + Real.exp (d.omega * (((j : ℝ) - i) * dT)) * (s.pos - z) := by
  obtain ⟨l0, r0, tt, hr⟩ := timeline_ok hw.made
  obtain ⟨x, y, u, v', p, init, he, -, hwh, hlen, hs⟩ := full_of exp_zero_real hw hv ho hr
  obtain ⟨hsl, hsh, hse, hN⟩ := shifts_ends hw hr
  have hPos : tt.Positive := positive_of_shifts (by rw [← hr.built.shifts]; exact hw.phases)
  have hd := hr.dT_pos
  have hlt := (List.getElem?_eq_some_iff.mp hb).1
  have e1 : tt.slots[k]? = some tt.slots[k] := List.getElem?_eq_getElem (by omega)
  obtain ⟨q, hq, -⟩ := single_of (d := d) hw hr e1 init
  obtain ⟨bt, bp, hm⟩ := hwh.singles _ (List.mem_of_getElem? (slots_mem (d := d) hw hr init e1 hq))
  obtain ⟨-, s1, s2⟩ := shifts_slot tt k _ e1
  rw [← hr.built.shifts] at s1 s2
  rw [ha] at s1; rw [hb] at s2
  have hmono := slotStart_mono tt.slots (show k + 1 ≤ tt.slots.length by omega)
  rw [slotStart_succ _ _ _ e1] at hmono
  have hPos2 := hPos.2
  have z0 := support_zmp hw hv ho hturns hr e1 hq
  have s1 := Option.some.inj s1
  have s2 := Option.some.inj s2
  have le : ∀ {m n : Nat}, m ≤ n → (m : ℝ) * dT ≤ (n : ℝ) * dT := fun h =>
    mul_le_mul_of_nonneg_right (by exact_mod_cast h) hd.le
  obtain ⟨t0, g0, -, f0⟩ := hs hroom i (by omega)
  obtain ⟨t1, g1, -, f1⟩ := hs hroom j (by omega)
  refine ⟨t0, t1, _, g0, g1, z0, ?_⟩
  rw [f0 _ hm (le (by omega)) (le (by omega)), f1 _ hm (le (by omega)) (le (by omega))]
  have e : Real.exp (d.omega * ((j : ℝ) * dT - bt)) =
      Real.exp (d.omega * (((j : ℝ) - i) * dT)) * Real.exp (d.omega * ((i : ℝ) * dT - bt)) := by
    rw [← Real.exp_add]; ring_nf
  simp only [Piece.pos, exp_real, e]
  ext <;> simp <;> ring

/-- The point at which the arc that leaves the former support and the one that reaches the latter meet: where the DCM would be in the
middle of the double support if the former support were still the only one. -/
noncomputable def meeting (ω T : ℝ) (z0 pos : Vec2 ℝ) : Vec2 ℝ := z0 + Real.exp (ω * T / 2) * (pos - z0)

/-- C102: the ZMP at the samples of a double support without pause between two single supports, `alpha` being one half.  `z0` and `z1`
are the desired ZMPs of the two supports, `s0` and `s1` the samples at the two ends of the double support, of duration `T`. -/
theorem C102_zmp (hw : Walk cfg left right initTime dT sorted ordered t) (hv : ValidDcm d) (hroom : HasRoom cfg d dT t)
    (hturns : TakeTurns left.steps right.steps) (ho : Done d cfg left right initTime dT ordered t d' o) (hα : d.alpha = 1 / 2)
    {k b a j : Nat} (hb : t.shifts[2 * k + 2]? = some b) (ha : t.shifts[2 * k + 3]? = some a) (hk : 2 * k + 5 < t.shifts.length)
    {T : ℝ} (hT : T = ((a : ℝ) - b) * dT)
    (hnp : ¬(cfg.pauseActive = true ∧ cfg.switchPercentage * cfg.maxStepTime < T ∧
      cfg.endSwitch + cfg.switchPercentage * cfg.nominalStepTime < T)) (hbj : b ≤ j) (hja : j ≤ a) :
    ∃ s0 s1 s z0 z1, o.samples[b]? = some s0 ∧ o.samples[a]? = some s1 ∧ o.samples[j]? = some s ∧
      SupportZmp left right t d.leftDelta d.rightDelta k z0 ∧ SupportZmp left right t d.leftDelta d.rightDelta (k + 1) z1 ∧
      b < a ∧ 0 < T ∧
      z1 + Real.exp (-(d.omega * T / 2)) * (s1.pos - z1) = meeting d.omega T z0 s0.pos ∧
      s.zmp = z0 + crossAlong (d.omega * T / 2) (((j : ℝ) - b) / ((a : ℝ) - b) - 1 / 2) * (z1 - z0) +
        crossAside (d.omega * T / 2) (((j : ℝ) - b) / ((a : ℝ) - b) - 1 / 2) * (meeting d.omega T z0 s0.pos - middle z0 z1) := by
  obtain ⟨l0, r0, tt, hr⟩ := timeline_ok hw.made
  obtain ⟨x, y, u, v', p, init, he, -, hwh, hlen, hs⟩ := full_of exp_zero_real hw hv ho hr
  obtain ⟨hsl, hsh, hse, hN⟩ := shifts_ends hw hr
  have hPos : tt.Positive := positive_of_shifts (by rw [← hr.built.shifts]; exact hw.phases)
  have hd := hr.dT_pos
  have e1 : tt.slots[k]? = some tt.slots[k] := List.getElem?_eq_getElem (by omega)
  have e2 : tt.slots[k + 1]? = some tt.slots[k + 1] := List.getElem?_eq_getElem (by omega)
  obtain ⟨q, hq, -⟩ := single_of (d := d) hw hr e1 init
  obtain ⟨q', hq', -⟩ := single_of (d := d) hw hr e2 init
  have z0 := support_zmp hw hv ho hturns hr e1 hq
  have z1 := support_zmp hw hv ho hturns hr e2 hq'
  obtain ⟨bt, bp, bt', bp', m1, m2, m3, m4⟩ := hwh.meet k _ _ (slots_mem (d := d) hw hr init e1 hq) (slots_mem (d := d) hw hr init e2 hq')
  obtain ⟨-, s1, s2⟩ := shifts_slot tt k _ e1
  obtain ⟨-, s3, s4⟩ := shifts_slot tt (k + 1) _ e2
  rw [← hr.built.shifts] at s1 s2 s3 s4
  rw [show 2 * (k + 1) + 1 = 2 * k + 3 by omega, ha] at s3
  rw [hb] at s2
  have hsucc := slotStart_succ tt.slots k _ e1
  have hds : 0 < tt.slots[k + 1].ds := (hPos.1 _ (List.mem_of_getElem? e2)).1
  have hss : 0 < tt.slots[k].ss := (hPos.1 _ (List.mem_of_getElem? e1)).2
  have hss' : 0 < tt.slots[k + 1].ss := (hPos.1 _ (List.mem_of_getElem? e2)).2
  have hmono := slotStart_mono tt.slots (show k + 1 + 1 ≤ tt.slots.length by omega)
  rw [slotStart_succ _ _ _ e2] at hmono
  have hPos2 := hPos.2
  generalize hA : slotStart tt.slots k + tt.slots[k].ds = A0 at *
  generalize hA' : slotStart tt.slots (k + 1) + tt.slots[k + 1].ds = a' at *
  generalize hB : A0 + tt.slots[k].ss = b' at *
  cases s2; cases s3
  have hba : b < a := by omega
  have hbaR : (b : ℝ) < a := by exact_mod_cast hba
  have hT0 : 0 < T := by rw [hT]; exact mul_pos (by linarith) hd
  have le : ∀ {m n : Nat}, m ≤ n → (m : ℝ) * dT ≤ (n : ℝ) * dT := fun h =>
    mul_le_mul_of_nonneg_right (by exact_mod_cast h) hd.le
  have hcub := m4 (by
    rw [Bool.eq_false_iff]
    intro h
    rw [pauses_iff] at h
    apply hnp
    have e : (a : ℝ) * dT - (b : ℝ) * dT = T := by rw [hT]; ring
    simp only [e] at h
    exact h)
  obtain ⟨t0, g0, -, f0⟩ := hs hroom b (by omega)
  obtain ⟨t1, g1, -, f1⟩ := hs hroom a (by omega)
  obtain ⟨ts, gs, -, fs⟩ := hs hroom j (by omega)
  have f0 := f0 _ m1 (le (by omega)) (le (by omega))
  have f1 := f1 _ m2 (le (by omega)) (le (by omega))
  have fs := fs _ hcub (le hbj) (le hja)
  have eω : (d.ready cfg dT init).omega = d.omega := rfl
  have eα : (d.ready cfg dT init).alpha = 1 / 2 := hα
  rw [eα] at m3
  simp only [eω] at m3 fs
  have hmul : ∀ τ c : ℝ, Real.exp (d.omega * (τ - c)) = Real.exp (d.omega * (τ - ((a : ℝ) * dT + (b : ℝ) * dT) * (1 / 2))) *
      Real.exp (d.omega * (((a : ℝ) * dT + (b : ℝ) * dT) * (1 / 2) - c)) := by
    intro τ c; rw [← Real.exp_add]; ring_nf
  have hE : Real.exp (d.omega * ((a : ℝ) * dT - ((a : ℝ) * dT + (b : ℝ) * dT) * (1 / 2))) = Real.exp (d.omega * T / 2) := by
    rw [hT]; ring_nf
  have hF : Real.exp (d.omega * ((b : ℝ) * dT - ((a : ℝ) * dT + (b : ℝ) * dT) * (1 / 2))) = Real.exp (-(d.omega * T / 2)) := by
    rw [hT]; ring_nf
  have hEF : Real.exp (d.omega * T / 2) * Real.exp (-(d.omega * T / 2)) = 1 := by rw [← Real.exp_add]; simp
  generalize hP : (Piece.single ((A0 : ℝ) * dT) ((b : ℝ) * dT) (d.zmpAt q.step) bt bp).pos d.omega
    (((a : ℝ) * dT + (b : ℝ) * dT) * (1 / 2)) = P at m3
  -- the ends of the arcs in terms of the meeting point
  have k0 : (Piece.single ((A0 : ℝ) * dT) ((b : ℝ) * dT) (d.zmpAt q.step) bt bp).pos d.omega ((b : ℝ) * dT) =
      d.zmpAt q.step + Real.exp (-(d.omega * T / 2)) * (P - d.zmpAt q.step) := by
    rw [← hP]
    simp only [Piece.pos, exp_real]
    rw [hmul ((b : ℝ) * dT) bt, hF]
    ext <;> simp <;> ring
  have k0' : (Piece.single ((A0 : ℝ) * dT) ((b : ℝ) * dT) (d.zmpAt q.step) bt bp).vel d.omega ((b : ℝ) * dT) =
      (d.omega * Real.exp (-(d.omega * T / 2))) * (P - d.zmpAt q.step) := by
    rw [← hP]
    simp only [Piece.pos, Piece.vel, exp_real]
    rw [hmul ((b : ℝ) * dT) bt, hF]
    ext <;> simp <;> ring
  have k1 : ∀ e, (Piece.single ((a : ℝ) * dT) e (d.zmpAt q'.step) bt' bp').pos d.omega ((a : ℝ) * dT) =
      d.zmpAt q'.step + Real.exp (d.omega * T / 2) * (P - d.zmpAt q'.step) := by
    intro e
    rw [m3]
    simp only [Piece.pos, exp_real]
    rw [hmul ((a : ℝ) * dT) bt', hE]
    ext <;> simp <;> ring
  have k1' : ∀ e, (Piece.single ((a : ℝ) * dT) e (d.zmpAt q'.step) bt' bp').vel d.omega ((a : ℝ) * dT) =
      (d.omega * Real.exp (d.omega * T / 2)) * (P - d.zmpAt q'.step) := by
    intro e
    rw [m3]
    simp only [Piece.pos, Piece.vel, exp_real]
    rw [hmul ((a : ℝ) * dT) bt', hE]
    ext <;> simp <;> ring
  rw [k0, k0', k1, k1'] at fs
  rw [k0] at f0
  rw [k1] at f1
  have hmeet : meeting d.omega T (d.zmpAt q.step) t0.pos = P := by
    rw [f0]
    unfold meeting
    ext
    · simp; linear_combination (P.x - (d.zmpAt q.step).x) * hEF
    · simp; linear_combination (P.y - (d.zmpAt q.step).y) * hEF
  refine ⟨t0, t1, ts, _, _, g0, g1, gs, z0, z1, hba, hT0, ?_, ?_⟩
  · rw [hmeet, f1]
    ext
    · simp; linear_combination (P.x - (d.zmpAt q'.step).x) * hEF
    · simp; linear_combination (P.y - (d.zmpAt q'.step).y) * hEF
  · rw [hmeet, fs]
    have dur : (a : ℝ) * dT - (b : ℝ) * dT = T := by rw [hT]; ring
    have hne : (a : ℝ) - b ≠ 0 := by linarith
    have time : (j : ℝ) * dT - (b : ℝ) * dT = T * ((((j : ℝ) - b) / ((a : ℝ) - b) - 1 / 2) + 1 / 2) := by
      rw [hT]; field_simp; ring
    have key := fun z0 z1 b m : ℝ => cubic_zmp (ω := d.omega) (T := T) (z0 := z0) (z1 := z1) (b := b)
      (x := ((j : ℝ) - m) / ((a : ℝ) - m) - 1 / 2) (E := Real.exp (d.omega * T / 2)) (F := Real.exp (-(d.omega * T / 2)))
      hv.omega_pos.ne' hT0.ne'
    ext
    · simp only [Piece.pos, Piece.vel, Vec2.sub_x, Vec2.smul_x, Vec2.add_x, middle, dur, time]
      rw [key]
      simp only [crossAlong, crossAside, crossP, crossQ, crossR, crossU, Real.cosh_eq, Real.sinh_eq]
      ring
    · simp only [Piece.pos, Piece.vel, Vec2.sub_y, Vec2.smul_y, Vec2.add_y, middle, dur, time]
      rw [key]
      simp only [crossAlong, crossAside, crossP, crossQ, crossR, crossU, Real.cosh_eq, Real.sinh_eq]
      ring

/-- C102, the double supports that are not long with respect to the time constant of the pendulum (`omega * T` up to two): the ZMP is
that of a point between the two supports, but for at most 3/200 of the cube of `omega * T` times the distance between the middle of the
supports and the meeting point of the arcs, which is among the supports that follow. -/
theorem C102_between_partial (hw : Walk cfg left right initTime dT sorted ordered t) (hv : ValidDcm d) (hroom : HasRoom cfg d dT t)
    (hturns : TakeTurns left.steps right.steps) (ho : Done d cfg left right initTime dT ordered t d' o) (hα : d.alpha = 1 / 2)
    (h0 : 0 ≤ d.lastOffset) (h1 : d.lastOffset ≤ 1)
    {k b a j : Nat} (hb : t.shifts[2 * k + 2]? = some b) (ha : t.shifts[2 * k + 3]? = some a) (hk : 2 * k + 5 < t.shifts.length)
    {T : ℝ} (hT : T = ((a : ℝ) - b) * dT)
    (hnp : ¬(cfg.pauseActive = true ∧ cfg.switchPercentage * cfg.maxStepTime < T ∧
      cfg.endSwitch + cfg.switchPercentage * cfg.nominalStepTime < T)) (hbj : b ≤ j) (hja : j ≤ a) (hshort : d.omega * T ≤ 2) :
    ∃ (s : DcmSample ℝ) (z0 z1 p : Vec2 ℝ) (along aside : ℝ), o.samples[j]? = some s ∧
      SupportZmp left right t d.leftDelta d.rightDelta k z0 ∧ SupportZmp left right t d.leftDelta d.rightDelta (k + 1) z1 ∧
      InHull (ZmpFrom left right t d.leftDelta d.rightDelta (k + 1)) p ∧ 0 ≤ along ∧ along ≤ 1 ∧
      |aside| ≤ 3 / 200 * (d.omega * T) ^ 3 ∧
      s.zmp = z0 + along * (z1 - z0) + aside * (p - middle z0 z1) := by
  obtain ⟨s0, s1, s, z0, z1, -, e1, e2, e3, e4, hba, hT0, e5, e6⟩ := C102_zmp hw hv hroom hturns ho hα hb ha hk hT hnp hbj hja
  have hbaR : (b : ℝ) < a := by exact_mod_cast hba
  have hy : 0 < d.omega * T / 2 := by have := mul_pos hv.omega_pos hT0; linarith
  have x1 : 0 ≤ ((j : ℝ) - b) / ((a : ℝ) - b) := div_nonneg (by have : (b : ℝ) ≤ j := by exact_mod_cast hbj
                                                                linarith) (by linarith)
  have x2 : ((j : ℝ) - b) / ((a : ℝ) - b) ≤ 1 := by
    rw [div_le_one (by linarith)]
    have : (j : ℝ) ≤ a := by exact_mod_cast hja
    linarith
  obtain ⟨r1, r2, r3⟩ := cross_range hy (by linarith) (x := ((j : ℝ) - b) / ((a : ℝ) - b) - 1 / 2) (by linarith) (by linarith)
  refine ⟨s, z0, z1, _, _, _, e2, e3, e4, ?_, r1, r2, r3.trans (le_of_eq (by ring)), e6⟩
  rw [← e5]
  have h4 : 2 * (k + 1) + 2 < t.shifts.length := by omega
  have hnext : t.shifts[2 * (k + 1) + 2]? = some t.shifts[2 * (k + 1) + 2] := List.getElem?_eq_getElem h4
  have hlt := List.pairwise_iff_getElem.mp hw.phases (2 * k + 3) (2 * (k + 1) + 2) (by omega) h4 (by omega)
  have ha' : t.shifts[2 * k + 3] = a := by
    have := List.getElem?_eq_some_iff.mp ha
    exact this.2
  rw [ha'] at hlt
  obtain ⟨s1', g1, hh⟩ := C98_hull hw hv hroom hturns ho hα h0 h1 (k := k + 1) (j := a) (by rw [show 2 * (k + 1) + 1 = 2 * k + 3 by omega]; exact ha)
    hnext le_rfl hlt.le
  rw [e1] at g1; cases g1
  obtain ⟨i, i1, i2⟩ := e4
  have hz1 : ZmpFrom left right t d.leftDelta d.rightDelta (k + 1) z1 := Or.inl ⟨k + 1, i, le_rfl, i1, i2⟩
  have hF : Real.exp (-(d.omega * T / 2)) ≤ 1 := Real.exp_le_one_iff.mpr (by linarith)
  have := hull_mix (hull_mem hz1) hh (Real.exp_pos (-(d.omega * T / 2))).le hF
  have e : z1 + Real.exp (-(d.omega * T / 2)) * (s1.pos - z1) =
      (1 - Real.exp (-(d.omega * T / 2))) * z1 + Real.exp (-(d.omega * T / 2)) * s1.pos := by ext <;> simp <;> ring
  rw [e]
  exact this

/-! ## The double supports at the ends of the walk -/

/-- C102, the last double support until the DCM rests: the ZMP is on the line through the desired ZMPs of the two feet, `settle` of the
way from the last support to the foot that has just landed.  `T` is the duration of the motion, `x` the part of it that is over. -/
theorem C102_last (hw : Walk cfg left right initTime dT sorted ordered t) (hv : ValidDcm d) (hroom : HasRoom cfg d dT t)
    (hturns : TakeTurns left.steps right.steps) (ho : Done d cfg left right initTime dT ordered t d' o) (h2 : 2 < t.shifts.length)
    {b j : Nat} (hb : t.shifts[t.shifts.length - 2]? = some b) (hbj : b ≤ j) (hj : j < t.left.length) {T x : ℝ}
    (hT : T = ((t.left.length : ℝ) - b) * dT * (1 - d.stillness)) (hx : x = ((j : ℝ) - b) * dT / T) (hx1 : x ≤ 1) :
    ∃ s l r, o.samples[j]? = some s ∧ left.steps.getLast? = some l ∧ right.steps.getLast? = some r ∧ 0 < T ∧ 0 ≤ x ∧
      (t.left[b - 1]? = some .stance ∨ t.right[b - 1]? = some .stance) ∧
      (t.left[b - 1]? = some .stance →
        s.zmp = inWorld l d.leftDelta + settle (d.omega * T) d.lastOffset x * (inWorld r d.rightDelta - inWorld l d.leftDelta)) ∧
      (t.right[b - 1]? = some .stance →
        s.zmp = inWorld r d.rightDelta + settle (d.omega * T) d.lastOffset x * (inWorld l d.leftDelta - inWorld r d.rightDelta)) := by
  obtain ⟨l0, r0, tt, hr⟩ := timeline_ok hw.made
  obtain ⟨px, py, u, v, p, init, he, -, hwh, hlen, hs⟩ := full_of exp_zero_real hw hv ho hr
  obtain ⟨a0, ha0, hle⟩ := last_single (d := d) hw hr h2 hb init he.ex
  have hbr := hwh.brake _ ha0
  obtain ⟨h1, hsh, -, hN⟩ := shifts_ends hw hr
  have hPos : tt.Positive := positive_of_shifts (by rw [← hr.built.shifts]; exact hw.phases)
  have hd := hr.dT_pos
  have hb' := hb
  rw [show t.shifts.length - 2 = 2 * tt.slots.length by omega, hsh] at hb'
  cases hb'
  have hlt : slotStart tt.slots tt.slots.length < t.left.length := by have := hPos.2; omega
  generalize hB : slotStart tt.slots tt.slots.length = b at *
  have hltR : (b : ℝ) < t.left.length := by exact_mod_cast hlt
  have hT0 : 0 < T := by rw [hT]; exact mul_pos (mul_pos (by linarith) hd) (by linarith [hv.still_lt])
  have hbjR : (b : ℝ) ≤ j := by exact_mod_cast hbj
  have hx0 : 0 ≤ x := by rw [hx]; exact div_nonneg (mul_nonneg (by linarith) hd.le) hT0.le
  have time : (j : ℝ) * dT - (b : ℝ) * dT = T * x := by rw [hx]; field_simp
  have hstill : (d.ready cfg dT init).stillness = d.stillness := rfl
  have hom : (d.ready cfg dT init).omega = d.omega := rfl
  simp only [hstill, hom] at hbr
  have hend : (b : ℝ) * dT + ((t.left.length : ℝ) * dT - (b : ℝ) * dT) * (1 - d.stillness) = (b : ℝ) * dT + T := by rw [hT]; ring
  rw [hend] at hbr
  obtain ⟨s, s1, -, s3⟩ := hs hroom j hj
  have hval := s3 _ hbr (mul_le_mul_of_nonneg_right hbjR hd.le) (by
    show (j : ℝ) * dT ≤ (b : ℝ) * dT + T
    have := mul_le_mul_of_nonneg_left hx1 hT0.le
    linarith)
  have hz : s.zmp = d.zmpAt px.step + settle (d.omega * T) d.lastOffset x * (d.zmpAt py.step - d.zmpAt px.step) := by
    rw [hval]
    have key := fun z p m : ℝ => brake_zmp (z := z) (p := p) (m := m) (x := x) hv.omega_pos.ne' hT0.ne'
    have dur : (b : ℝ) * dT + T - (b : ℝ) * dT = T := by ring
    have hv0 : (Piece.single a0 ((b : ℝ) * dT) (d.zmpAt px.step) ((b : ℝ) * dT)
        ((1 - d.lastOffset) * d.zmpAt px.step + d.lastOffset * d.zmpAt py.step)).vel d.omega ((b : ℝ) * dT) =
        d.omega * (((1 - d.lastOffset) * d.zmpAt px.step + d.lastOffset * d.zmpAt py.step) - d.zmpAt px.step) := by
      simp only [Piece.vel, sub_self, mul_zero, exp_zero_real]
      ext <;> simp
    rw [hv0]
    ext
    · simp only [Piece.pos, Piece.vel, Vec2.sub_x, Vec2.smul_x, Vec2.add_x, middle, dur, time, Vec2.zero_x]
      rw [key]
      unfold settle
      ring
    · simp only [Piece.pos, Piece.vel, Vec2.sub_y, Vec2.smul_y, Vec2.add_y, middle, dur, time, Vec2.zero_y]
      rw [key]
      unfold settle
      ring
  obtain ⟨n1, n2, n3⟩ := last_steps hw hturns hr he.ex he.ey
  -- which foot swings in the last single support
  have hk : tt.slots[tt.slots.length - 1]? = some tt.slots[tt.slots.length - 1] := List.getElem?_eq_getElem (by omega)
  have e1 := slotStart_succ tt.slots _ _ hk
  rw [show tt.slots.length - 1 + 1 = tt.slots.length by omega, hB] at e1
  have hss : 0 < tt.slots[tt.slots.length - 1].ss := (hPos.1 _ (List.mem_of_getElem? hk)).2
  obtain ⟨q, q1, q2⟩ := slot_ptr hr hk
  rw [show tt.slots.length - 1 + 2 = tt.slots.length + 1 by omega, he.ey] at q1
  cases q1
  have hph : ∀ f : Bool, (tt.phases f)[b - 1]? = some (if py.left = f then Phase.swing else Phase.stance) := by
    intro f
    rw [(phases_slot tt f _ _ hk).2 _ (by omega) (by omega), q2]
  have hL := hph true
  have hR := hph false
  rw [← hr.built.left] at hL
  rw [← hr.built.right] at hR
  cases hy : py.left
  · simp only [hy, Bool.false_eq_true, if_false, if_true] at n2 n3 hL hR
    refine ⟨s, _, _, s1, n2, n3, hT0, hx0, Or.inl hL, fun _ => ?_, fun h => ?_⟩
    · rw [hz, zmpAt_left hw.names (List.mem_of_getLast? n2), zmpAt_right hw.names (List.mem_of_getLast? n3)]
    · rw [hR] at h; cases h
  · simp only [hy, Bool.true_eq_false, if_false, if_true] at n2 n3 hL hR
    refine ⟨s, _, _, s1, n3, n2, hT0, hx0, Or.inr hR, fun h => ?_, fun _ => ?_⟩
    · rw [hL] at h; cases h
    · rw [hz, zmpAt_left hw.names (List.mem_of_getLast? n3), zmpAt_right hw.names (List.mem_of_getLast? n2)]

/-- C102, the last double support, with the DCM advanced enough when it begins (`settle_nonneg_iff` says that the condition is sharp),
but not beyond the middle, and a motion that is not too slow: the ZMP is between the desired ZMPs of the feet. -/
theorem C102_last_between (hw : Walk cfg left right initTime dT sorted ordered t) (hv : ValidDcm d) (hroom : HasRoom cfg d dT t)
    (hturns : TakeTurns left.steps right.steps) (ho : Done d cfg left right initTime dT ordered t d' o) (h2 : 2 < t.shifts.length)
    {b j : Nat} (hb : t.shifts[t.shifts.length - 2]? = some b) (hbj : b ≤ j) (hj : j < t.left.length) {T : ℝ}
    (hT : T = ((t.left.length : ℝ) - b) * dT * (1 - d.stillness)) (hx1 : ((j : ℝ) - b) * dT ≤ T)
    (hlo : 3 ≤ d.lastOffset * ((d.omega * T) ^ 2 + 4 * (d.omega * T) + 6)) (hhi : d.lastOffset ≤ 1 / 2) (hslow : d.omega * T ≤ 5) :
    ∃ (s : DcmSample ℝ) (l r : Step ℝ) (c : ℝ), o.samples[j]? = some s ∧ left.steps.getLast? = some l ∧ right.steps.getLast? = some r ∧
      0 ≤ c ∧ c ≤ 1 ∧ s.zmp = inWorld l d.leftDelta + c * (inWorld r d.rightDelta - inWorld l d.leftDelta) := by
  have hT0 : 0 < T := by
    obtain ⟨_, _, tt, hr⟩ := timeline_ok hw.made
    obtain ⟨h1, hsh, -, hN⟩ := shifts_ends hw hr
    have hlt : (b : ℝ) < t.left.length := by exact_mod_cast lt_of_le_of_lt hbj hj
    rw [hT]
    exact mul_pos (mul_pos (by linarith) hr.dT_pos) (by linarith [hv.still_lt])
  obtain ⟨s, l, r, e1, e2, e3, -, hx0, hst, hl, hr⟩ := C102_last hw hv hroom hturns ho h2 hb hbj hj hT rfl ((div_le_one hT0).mpr hx1)
  have ha : 0 < d.omega * T := mul_pos hv.omega_pos hT0
  have k1 := (settle_nonneg_iff ha).mpr hlo _ hx0 ((div_le_one hT0).mpr hx1)
  have k2 := settle_le_one ha hslow hhi hx0 ((div_le_one hT0).mpr hx1)
  rcases hst with h | h
  · exact ⟨s, l, r, _, e1, e2, e3, k1, k2, hl h⟩
  · refine ⟨s, l, r, 1 - settle (d.omega * T) d.lastOffset (((j : ℝ) - b) * dT / T), e1, e2, e3, by linarith, by linarith, ?_⟩
    rw [hr h]
    ext <;> simp <;> ring

/-- C102, violation: with the default offset, zero, the ZMP of the first samples of the last double support is beyond the last support on
the side opposite to the foot that lands. -/
theorem C102_last_violated (hw : Walk cfg left right initTime dT sorted ordered t) (hv : ValidDcm d) (hroom : HasRoom cfg d dT t)
    (hturns : TakeTurns left.steps right.steps) (ho : Done d cfg left right initTime dT ordered t d' o) (h2 : 2 < t.shifts.length)
    (hoff : d.lastOffset = (Dcm.new : Dcm ℝ).lastOffset)
    {b j : Nat} (hb : t.shifts[t.shifts.length - 2]? = some b) (hbj : b < j) (hj : j < t.left.length) {T x : ℝ}
    (hT : T = ((t.left.length : ℝ) - b) * dT * (1 - d.stillness)) (hx : x = ((j : ℝ) - b) * dT / T) (hx1 : x ≤ 1)
    (hearly : d.omega * T * x * (3 - 2 * x) < 6 * (1 - x)) :
    ∃ (s : DcmSample ℝ) (l r : Step ℝ) (c : ℝ), o.samples[j]? = some s ∧ left.steps.getLast? = some l ∧ right.steps.getLast? = some r ∧
      c < 0 ∧ (t.left[b - 1]? = some .stance →
        s.zmp = inWorld l d.leftDelta + c * (inWorld r d.rightDelta - inWorld l d.leftDelta)) ∧
      (t.right[b - 1]? = some .stance →
        s.zmp = inWorld r d.rightDelta + c * (inWorld l d.leftDelta - inWorld r d.rightDelta)) := by
  obtain ⟨s, l, r, e1, e2, e3, hT0, -, -, hl, hr⟩ := C102_last hw hv hroom hturns ho h2 hb hbj.le hj hT hx hx1
  have hd : 0 < dT := by
    obtain ⟨_, _, tt, hr⟩ := timeline_ok hw.made
    exact hr.dT_pos
  have hx0 : 0 < x := by
    have : (b : ℝ) < j := by exact_mod_cast hbj
    rw [hx]
    exact div_pos (mul_pos (by linarith) hd) hT0
  have h0 : d.lastOffset = 0 := hoff
  refine ⟨s, l, r, _, e1, e2, e3, ?_, hl, hr⟩
  rw [h0]
  exact settle_neg (mul_pos hv.omega_pos hT0) hx0 hearly

/-- C102, the first double support without pause, interpolated with a cubic: the ZMP in terms of the state of the DCM at its beginning
and of its position at its end.  `z` is the desired ZMP of the first support. -/
theorem C102_first (hw : Walk cfg left right initTime dT sorted ordered t) (hv : ValidDcm d) (hroom : HasRoom cfg d dT t)
    (hturns : TakeTurns left.steps right.steps) (ho : Done d cfg left right initTime dT ordered t d' o) (h2 : 2 < t.shifts.length)
    (hq : d.quintic = false) {a j : Nat} (ha : t.shifts[1]? = some a) (hja : j ≤ a) {T : ℝ} (hT : T = (a : ℝ) * dT)
    (hnp : ¬(cfg.pauseActive = true ∧ cfg.switchPercentage * cfg.maxStepTime < T ∧
      cfg.endSwitch + cfg.switchPercentage * cfg.nominalStepTime < T)) :
    ∃ (s0 s1 s : DcmSample ℝ) (z : Vec2 ℝ), o.samples[0]? = some s0 ∧ o.samples[a]? = some s1 ∧ o.samples[j]? = some s ∧
      SupportZmp left right t d.leftDelta d.rightDelta 0 z ∧ 0 < a ∧ 0 < T ∧
      s.zmp = z + startOwn (d.omega * T) ((j : ℝ) / a) * (s0.pos - z) + startSpeed (d.omega * T) ((j : ℝ) / a) * (s0.pos - s0.zmp) +
        startNext (d.omega * T) ((j : ℝ) / a) * (s1.pos - z) := by
  obtain ⟨l0, r0, tt, hr⟩ := timeline_ok hw.made
  obtain ⟨x, y, u, v', p, init, he, -, hwh, hlen, hs⟩ := full_of exp_zero_real hw hv ho hr
  obtain ⟨hsl, hsh, hse, hN⟩ := shifts_ends hw hr
  have hPos : tt.Positive := positive_of_shifts (by rw [← hr.built.shifts]; exact hw.phases)
  have hd := hr.dT_pos
  have e1 : tt.slots[0]? = some tt.slots[0] := List.getElem?_eq_getElem (by omega)
  obtain ⟨q, hq', -⟩ := single_of (d := d) hw hr e1 init
  have z0 := support_zmp hw hv ho hturns hr e1 hq'
  obtain ⟨-, s1, s2⟩ := shifts_slot tt 0 _ e1
  rw [← hr.built.shifts] at s1
  rw [show 2 * 0 + 1 = 1 by omega, ha] at s1
  have hds : 0 < tt.slots[0].ds := (hPos.1 _ (List.mem_of_getElem? e1)).1
  have hss : 0 < tt.slots[0].ss := (hPos.1 _ (List.mem_of_getElem? e1)).2
  have hmono := slotStart_mono tt.slots (show 0 + 1 ≤ tt.slots.length by omega)
  rw [slotStart_succ _ _ _ e1] at hmono
  have hmem := slots_mem (d := d) hw hr init e1 hq'
  have s1 := Option.some.inj s1
  rw [← s1] at hmem hmono
  generalize hB : a + tt.slots[0].ss = b' at *
  obtain ⟨S', hS⟩ : ∃ S', (if tt.slots.length = 0 then [] else (d.ready cfg dT init).slots t.shifts (ordered.map Ptr.step)) =
      ((a : ℝ) * dT, (b' : ℝ) * dT, d.zmpAt q.step) :: S' := by
    revert hmem
    generalize (if tt.slots.length = 0 then [] else (d.ready cfg dT init).slots t.shifts (ordered.map Ptr.step)) = L
    cases L with
    | nil => simp
    | cons c S' => intro h; simp only [List.getElem?_cons_zero, Option.some.injEq] at h; exact ⟨S', by rw [h]⟩
  have ha0 : 0 < a := by omega
  have haR : (0 : ℝ) < a := by exact_mod_cast ha0
  have hT0 : 0 < T := by rw [hT]; exact mul_pos haR hd
  obtain ⟨bt, bp, m1, m2⟩ := hwh.begun _ S' hS (by
    rw [Bool.eq_false_iff]
    intro h
    rw [pauses_iff] at h
    apply hnp
    simp only [← hT] at h
    exact h)
  have le : ∀ {m n : Nat}, m ≤ n → (m : ℝ) * dT ≤ (n : ℝ) * dT := fun h =>
    mul_le_mul_of_nonneg_right (by exact_mod_cast h) hd.le
  have hfirst : (d.ready cfg dT init).firstPiece = .cubic := by
    unfold firstPiece
    have : (d.ready cfg dT init).quintic = false := hq
    rw [this]; rfl
  have hom : (d.ready cfg dT init).omega = d.omega := rfl
  rw [hfirst, hom, ← hT] at m2
  have hPos2 := hPos.2
  obtain ⟨t0, g0, -, f0⟩ := hs hroom 0 (by omega)
  obtain ⟨t1, g1, -, f1⟩ := hs hroom a (by omega)
  obtain ⟨ts, gs, -, fs⟩ := hs hroom j (by omega)
  have f0 := f0 _ m2 (show (0 : ℝ) ≤ _ by positivity) (show ((0 : Nat) : ℝ) * dT ≤ T by rw [hT]; exact le (by omega))
  have f1 := f1 _ m1 (le le_rfl) (le (by omega))
  have fs := fs _ m2 (show (0 : ℝ) ≤ _ by positivity) (show (j : ℝ) * dT ≤ T by rw [hT]; exact le hja)
  have e0 : t0.pos = init.1 ∧ t0.pos - t0.zmp = (1 / d.omega) * init.2 := by
    have := Piece.cubic_at_start d.omega ⟨0, init.1, init.2⟩ ⟨T, (Piece.single T ((b' : ℝ) * dT) (d.zmpAt q.step) bt bp).pos d.omega T,
      (Piece.single T ((b' : ℝ) * dT) (d.zmpAt q.step) bt bp).vel d.omega T⟩
    rw [f0]
    simp only [Nat.cast_zero, zero_mul]
    refine ⟨this.1, ?_⟩
    rw [this.2]
    ext <;> simp
  refine ⟨t0, t1, ts, _, g0, g1, gs, z0, ha0, hT0, ?_⟩
  rw [e0.2, e0.1, fs, f1, ← hT]
  have hvel : (Piece.single T ((b' : ℝ) * dT) (d.zmpAt q.step) bt bp).vel d.omega T =
      d.omega * ((Piece.single T ((b' : ℝ) * dT) (d.zmpAt q.step) bt bp).pos d.omega T - d.zmpAt q.step) := by
    simp only [Piece.pos, Piece.vel]
    ext <;> simp <;> ring
  rw [hvel]
  generalize (Piece.single T ((b' : ℝ) * dT) (d.zmpAt q.step) bt bp).pos d.omega T = P
  have key := fun z p v q : ℝ => start_zmp (z := z) (p := p) (v := v) (q := q) (x := (j : ℝ) / a) hv.omega_pos.ne' hT0.ne'
  have time : (j : ℝ) * dT = T * ((j : ℝ) / a) := by rw [hT]; field_simp
  ext
  · simp only [Piece.pos, Piece.vel, Vec2.sub_x, Vec2.smul_x, Vec2.add_x, sub_zero, time]
    rw [key]
  · simp only [Piece.pos, Piece.vel, Vec2.sub_y, Vec2.smul_y, Vec2.add_y, sub_zero, time]
    rw [key]

/-! ## Example and witness -/

private noncomputable def cst (x y t : ℝ) (n : String) : Step ℝ := ⟨⟨x, y⟩, 0, t, n⟩
private noncomputable def clf : FootPrint ℝ := ⟨[cst 0 1 0 "left", cst 1 1 16 "left"], "left"⟩
private noncomputable def crf : FootPrint ℝ := ⟨[cst 0 0 0 "right", cst 2 0 32 "right"], "right"⟩
private noncomputable def cso : List (Ptr ℝ) :=
  [⟨true, 0, cst 0 1 0 "left"⟩, ⟨false, 0, cst 0 0 0 "right"⟩, ⟨true, 1, cst 1 1 16 "left"⟩, ⟨false, 1, cst 2 0 32 "right"⟩]
private noncomputable def cgen (ω : ℝ) : Dcm ℝ := { (Dcm.new : Dcm ℝ) with omega := ω, stillness := 1 / 2, lastOffset := 0 }
private noncomputable def cset : GenSettings ℝ := { (GenSettings.new : GenSettings ℝ) with endSwitch := 8, pauseActive := false }

private theorem cround (n : Nat) : roundSize (n : ℝ) = .ok n := by
  have h : stdRound (n : ℝ) = n := by
    unfold stdRound
    rw [if_pos (Nat.cast_nonneg n), Int.floor_eq_iff]
    constructor <;> push_cast <;> linarith
  unfold roundSize
  rw [h, if_pos (Int.natCast_nonneg n)]
  rfl

private def rep (l : List Phase) : List Phase := l.flatMap (List.replicate 8)

private noncomputable def ctm : Timing ℝ :=
  ⟨rep [.switchOut, .swing, .switchIn, .stance, .switchOut], rep [.switchIn, .stance, .switchOut, .swing, .switchIn],
   [0, 8, 16, 24, 32, 40], [0, 20, 39], 2, 2, 32, false, true⟩

private theorem cmade : timeline cset clf crf 0 1 cso = .ok (cso, ctm) := by
  have r16 : roundSize (16 : ℝ) = .ok 16 := by exact_mod_cast cround 16
  have r8 : roundSize (8 : ℝ) = .ok 8 := by exact_mod_cast cround 8
  have r4 : roundSize (4 : ℝ) = .ok 4 := by exact_mod_cast cround 4
  have ho : orderSteps cso = .ok cso := by simp [cso, cst, orderSteps, adjacentDup]
  simp only [timeline, clf, crf, ho]
  rw [if_neg (by decide)]
  norm_num [cset, cst, cso, ctm, rep, createPhasesTimings, GenSettings.new, Gen.addSteps, Gen.addStep, switchTime, whichSwings, stepMerges, Gen.addLast, r16, r8, r4, subSize, List.replicate, List.range']

private theorem cwalk : Walk cset clf crf 0 1 cso cso ctm where
  valid := by constructor <;> norm_num [cset, GenSettings.new]
  sort := ⟨by simpa [cso, clf, crf, Ptr.ofFeet, Ptr.ofFoot] using List.Perm.swap _ _ _, by norm_num [cso, cst]⟩
  made := cmade
  phases := by decide
  names := ⟨rfl, rfl, by simp [Named, clf, cst], by simp [Named, crf, cst]⟩

private theorem cturns : TakeTurns clf.steps crf.steps where
  later := ⟨fun i a b _ hb => by simp [clf] at hb, fun i a b _ hb => by simp [crf] at hb⟩
  firstL a b ha hb := by simp [clf] at ha hb; subst ha hb; exact ⟨cst 0 0 0 "right", by simp [crf], by norm_num [cst], by norm_num [cst]⟩
  firstR a b ha hb := by simp [crf] at ha hb; subst ha hb; exact ⟨cst 0 1 0 "left", by simp [clf], by norm_num [cst], by norm_num [cst]⟩

private theorem cvalid {ω : ℝ} (h : 0 < ω) : ValidDcm (cgen ω) := ⟨h, by norm_num [cgen, Dcm.new], by norm_num [cgen, Dcm.new]⟩

private theorem croom (ω : ℝ) : HasRoom cset (cgen ω) 1 ctm := by
  intro a b ha hb
  simp [ctm] at ha hb
  subst ha hb
  constructor <;> norm_num [cset, cgen, Dcm.new, GenSettings.new]

private theorem chere (w : Step ℝ) : inWorld w 0 = w.position := by unfold inWorld rot; ext <;> simp

private theorem csupport0 {ω : ℝ} {z : Vec2 ℝ} (h : SupportZmp clf crf ctm (cgen ω).leftDelta (cgen ω).rightDelta 0 z) : z = ⟨0, 0⟩ := by
  obtain ⟨a, ha, (⟨h1, -⟩ | ⟨-, r, h2, rfl⟩)⟩ := h
  · cases (show some 8 = some a from ha)
    exact absurd h1 (by decide)
  · cases (show some 8 = some a from ha)
    have e : landings ctm.right 8 = 0 := by decide
    rw [e] at h2
    cases (show some (cst 0 0 0 "right") = some r from h2)
    exact chere _

private theorem csupport1 {ω : ℝ} {z : Vec2 ℝ} (h : SupportZmp clf crf ctm (cgen ω).leftDelta (cgen ω).rightDelta 1 z) : z = ⟨1, 1⟩ := by
  obtain ⟨a, ha, (⟨-, r, h2, rfl⟩ | ⟨h1, -⟩)⟩ := h
  · cases (show some 24 = some a from ha)
    have e : landings ctm.left 24 = 1 := by decide
    rw [e] at h2
    cases (show some (cst 1 1 16 "left") = some r from h2)
    exact chere _
  · cases (show some 24 = some a from ha)
    exact absurd h1 (by decide)

/-- The walk of the example: the meeting point is the latter support. -/
private theorem cmeet {ω : ℝ} (hω : 0 < ω) {d' : Dcm ℝ} {o : DcmOut ℝ} (ho : Done (cgen ω) cset clf crf 0 1 cso ctm d' o) {j : Nat}
    (h1 : 16 ≤ j) (h2 : j ≤ 24) :
    ∃ s, o.samples[j]? = some s ∧ s.zmp = (crossAlong (4 * ω) (((j : ℝ) - 16) / 8 - 1 / 2) + crossAside (4 * ω) (((j : ℝ) - 16) / 8 - 1 / 2) / 2) *
      (⟨1, 1⟩ : Vec2 ℝ) := by
  obtain ⟨s0, s1, s, z0, z1, -, e1, e2, e3, e4, -, -, e5, e6⟩ := C102_zmp cwalk (cvalid hω) (croom ω) cturns ho
    (by norm_num [cgen, Dcm.new]) (k := 0) (b := 16) (a := 24) (j := j) rfl rfl (by decide) (T := 8) (by norm_num) (by simp [cset]) h1 h2
  obtain ⟨u, l, r, u1, u2, u3, u4, -⟩ := C76_last_offset exp_zero_real cwalk (cvalid hω) (croom ω) cturns ho (by decide) (b := 32) rfl
  cases (show some (cst 1 1 16 "left") = some l from u2)
  have u4 := u4 (by decide)
  have hlast : u.pos = ⟨1, 1⟩ := by
    rw [u4]
    have : (cgen ω).lastOffset = 0 := rfl
    have dl : (cgen ω).leftDelta = 0 := rfl
    rw [this, dl, chere]
    ext <;> simp [cst]
  obtain ⟨w, w', z, w1, w2, w3, w4⟩ := C46_arc cwalk (cvalid hω) (croom ω) cturns ho (k := 1) (a := 24) (b := 32) (i := 32) (j := 24) rfl rfl
    (by omega) (by omega) (by omega) (by omega)
  rw [u1] at w1; cases w1
  rw [e1] at w2; cases w2
  have hz0 := csupport0 e3
  have hz1 := csupport1 e4
  have hz := csupport1 w3
  subst hz0 hz1 hz
  have hs1 : s1.pos = ⟨1, 1⟩ := by rw [w4, hlast]; ext <;> simp
  rw [hs1] at e5
  have em : meeting (cgen ω).omega 8 ⟨0, 0⟩ s0.pos = ⟨1, 1⟩ := by rw [← e5]; ext <;> simp
  refine ⟨s, e2, ?_⟩
  rw [e6, em]
  have : (cgen ω).omega * 8 / 2 = 4 * ω := by show ω * 8 / 2 = _; ring
  rw [this]
  have e : ((24 : Nat) : ℝ) - ((16 : Nat) : ℝ) = 8 := by norm_num
  rw [e]
  norm_num
  ext <;> simp [middle] <;> ring

/-- C102, violation: with a double support eight times as long as the time constant of the pendulum, the ZMP at its second sample is
behind the support that the robot leaves, which is the rearmost of all the contacts that it has. -/
theorem C102_behind_witness : ∃ d' o, Done (cgen 1) cset clf crf 0 1 cso ctm d' o ∧ ctm.left[17]? = some .switchIn ∧
    ctm.right[17]? = some .switchOut ∧ (∀ w, w ∈ clf.steps ∨ w ∈ crf.steps → 0 ≤ w.position.x) ∧
    ∃ s, o.samples[17]? = some s ∧ s.zmp.x < 0 := by
  obtain ⟨d', o, ho⟩ := C73_succeeds exp_zero_real cwalk (cvalid one_pos) (croom 1) (by decide)
  refine ⟨d', o, ho, by decide, by decide, ?_, ?_⟩
  · intro w hw
    simp only [clf, crf, List.mem_cons, List.not_mem_nil, or_false] at hw
    rcases hw with (rfl | rfl) | (rfl | rfl) <;> norm_num [cst]
  obtain ⟨s, s1, s2⟩ := cmeet one_pos ho (j := 17) (by omega) (by omega)
  refine ⟨s, s1, ?_⟩
  rw [s2]
  simp only [Vec2.smul_x, mul_one]
  have h4 : Real.exp (-4) < 1 / 33 := by
    rw [Real.exp_neg, inv_eq_one_div]
    refine one_div_lt_one_div_of_lt (by norm_num) ?_
    have h := Real.add_one_le_exp (1 / 4 : ℝ)
    have : Real.exp 4 = Real.exp (1 / 4) ^ 16 := by rw [← Real.exp_nat_mul]; norm_num
    rw [this]
    have h2 : (5 / 4 : ℝ) ^ 16 ≤ Real.exp (1 / 4) ^ 16 := pow_le_pow_left₀ (by norm_num) (by linarith) 16
    norm_num at h2 ⊢
    linarith
  unfold crossAlong crossAside crossR crossU crossP crossQ
  rw [Real.cosh_eq, Real.sinh_eq]
  norm_num
  linarith

/-- C102, violation: the walk of the example, with the default offset, brakes with a ZMP that is behind both feet. -/
theorem C102_last_witness : ∃ d' o, Done (cgen (1 / 8)) cset clf crf 0 1 cso ctm d' o ∧ ctm.left[33]? = some .switchOut ∧
    ctm.right[33]? = some .switchIn ∧ landings ctm.left 33 = 1 ∧ landings ctm.right 33 = 1 ∧
    (∀ w, clf.steps[1]? = some w ∨ crf.steps[1]? = some w → 1 ≤ w.position.x) ∧ ∃ s, o.samples[33]? = some s ∧ s.zmp.x < 1 / 2 := by
  obtain ⟨d', o, ho⟩ := C73_succeeds exp_zero_real cwalk (cvalid (ω := 1 / 8) (by norm_num)) (croom (1 / 8)) (by decide)
  refine ⟨d', o, ho, by decide, by decide, by decide, by decide, ?_, ?_⟩
  · rintro w (h | h)
    · cases (show some (cst 1 1 16 "left") = some w from h); norm_num [cst]
    · cases (show some (cst 2 0 32 "right") = some w from h); norm_num [cst]
  have hN : ctm.left.length = 40 := by decide
  obtain ⟨s, l, r, e1, e2, e3, -, -, -, hl, -⟩ := C102_last cwalk (cvalid (ω := 1 / 8) (by norm_num)) (croom (1 / 8)) cturns ho (by decide)
    (b := 32) (j := 33) rfl (by omega) (by omega) (T := 4) (x := 1 / 4) (by rw [hN]; norm_num [cgen]) (by norm_num) (by norm_num)
  cases (show some (cst 1 1 16 "left") = some l from e2)
  cases (show some (cst 2 0 32 "right") = some r from e3)
  refine ⟨s, e1, ?_⟩
  have dl : (cgen (1 / 8)).leftDelta = 0 := rfl
  have dr : (cgen (1 / 8)).rightDelta = 0 := rfl
  rw [hl (by decide), dl, dr, chere, chere]
  have h1 : (cgen (1 / 8)).omega * 4 = 1 / 2 := by show (1 / 8 : ℝ) * 4 = _; norm_num
  have h2 : (cgen (1 / 8)).lastOffset = 0 := rfl
  rw [h1, h2]
  norm_num [cst, settle, brakeOwn, brakeRest]

/-- Non-vacuity of C102_first: the first double support of the same walk. -/
example : ∃ d' o, Done (cgen (1 / 8)) cset clf crf 0 1 cso ctm d' o ∧ ∃ s s1 : DcmSample ℝ, o.samples[4]? = some s ∧ o.samples[8]? = some s1 ∧
    s.zmp = startOwn 1 (1 / 2) * (⟨0, 1 / 2⟩ : Vec2 ℝ) + startNext 1 (1 / 2) * s1.pos := by
  obtain ⟨d', o, ho⟩ := C73_succeeds exp_zero_real cwalk (cvalid (ω := 1 / 8) (by norm_num)) (croom (1 / 8)) (by decide)
  refine ⟨d', o, ho, ?_⟩
  obtain ⟨s0, s1, s, z, e0, e1, e2, e3, -, -, e4⟩ := C102_first cwalk (cvalid (ω := 1 / 8) (by norm_num)) (croom (1 / 8)) cturns ho
    (by decide) rfl (a := 8) (j := 4) rfl (by omega) (T := 8) (by norm_num) (by simp [cset])
  refine ⟨s, s1, e2, e1, ?_⟩
  have hz := csupport0 e3
  subst hz
  obtain ⟨s0', l, r, f0, f1, f2, f3, f4⟩ := C74_default exp_zero_real cwalk (cvalid (ω := 1 / 8) (by norm_num)) ho rfl
  rw [e0] at f0; cases f0
  have h1 : (cgen (1 / 8)).omega * 8 = 1 := by show (1 / 8 : ℝ) * 8 = _; norm_num
  have hdyn := C46_dynamics ho (by norm_num [cgen]) s0 (List.mem_of_getElem? e0)
  have hrest : s0.pos - s0.zmp = 0 := by
    rw [f3] at hdyn
    have hx := congrArg Vec2.x hdyn
    have hy := congrArg Vec2.y hdyn
    simp [cgen] at hx hy
    ext <;> simp <;> linarith
  cases (show some (cst 0 1 0 "left") = some l from f1)
  cases (show some (cst 0 0 0 "right") = some r from f2)
  have dl : (cgen (1 / 8)).leftDelta = 0 := rfl
  have dr : (cgen (1 / 8)).rightDelta = 0 := rfl
  rw [e4, hrest, f4, h1, dl, dr]
  ext <;> norm_num [cst]

/-- Non-vacuity of C102: with a double support as long as the time constant the ZMP is between the supports. -/
example : ∃ d' o, Done (cgen (1 / 8)) cset clf crf 0 1 cso ctm d' o ∧ ∃ s, o.samples[17]? = some s ∧
    |s.zmp.x - 1 / 2| ≤ 51 / 100 ∧ |s.zmp.y - 1 / 2| ≤ 51 / 100 := by
  obtain ⟨d', o, ho⟩ := C73_succeeds exp_zero_real cwalk (cvalid (ω := 1 / 8) (by norm_num)) (croom (1 / 8)) (by decide)
  refine ⟨d', o, ho, ?_⟩
  obtain ⟨s, s1, s2⟩ := cmeet (ω := 1 / 8) (by norm_num) ho (j := 17) (by omega) (by omega)
  refine ⟨s, s1, ?_⟩
  obtain ⟨r1, r2, r3⟩ := cross_range (y := 4 * (1 / 8)) (x := (((17 : Nat) : ℝ) - 16) / 8 - 1 / 2) (by norm_num) (by norm_num)
    (by norm_num) (by norm_num)
  rw [s2]
  simp only [Vec2.smul_x, Vec2.smul_y, mul_one]
  generalize crossAlong _ _ = u at *
  generalize crossAside _ _ = v at *
  rw [abs_le] at *
  norm_num at r3
  refine ⟨?_, ?_⟩ <;> (constructor <;> linarith)

end Dcm
end Uni
