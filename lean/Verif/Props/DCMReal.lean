import Verif.Props.DCM

/-! # C46, C47, C74, C76 over the reals: the trajectory as a curve -/

set_option autoImplicit false
set_option linter.unusedSectionVars false

namespace Uni
open Spec Gen
namespace Dcm

variable {cfg : GenSettings ℝ} {left right : FootPrint ℝ} {initTime dT : ℝ} {sorted ordered : List (Ptr ℝ)} {t : Timing ℝ}
variable {d d' : Dcm ℝ} {o : DcmOut ℝ}

theorem exp_zero_real : Trig.exp (0 : ℝ) = 1 := by simp

/-- C46, C47: the pieces form a curve with a continuous velocity that passes through the samples; in the single supports the curve
is a solution of the dynamics of the DCM, with the ZMP of the stance foot. -/
theorem C47_curve (hw : Walk cfg left right initTime dT sorted ordered t) (hv : ValidDcm d)
    (ho : Done d cfg left right initTime dT ordered t d' o) :
    ∃ c v : ℝ → Vec2 ℝ, (∀ τ, HasDerivAt (fun τ => (c τ).x) (v τ).x τ ∧ HasDerivAt (fun τ => (c τ).y) (v τ).y τ) ∧
      Continuous (fun τ => (v τ).x) ∧ Continuous (fun τ => (v τ).y) ∧
      (∀ p ∈ o.pieces, ∀ τ, p.start ≤ τ → τ ≤ p.stop → c τ = p.pos d.omega τ ∧ v τ = p.vel d.omega τ) ∧
      (HasRoom cfg d dT t → ∀ (j : Nat) (s : DcmSample ℝ), o.samples[j]? = some s → s.pos = c ((j : ℝ) * dT) ∧ s.vel = v ((j : ℝ) * dT)) ∧
      (TakeTurns left.steps right.steps → ∀ k a b : Nat, t.shifts[2 * k + 1]? = some a → t.shifts[2 * k + 2]? = some b →
        (t.left[a]? = some .stance → ∃ l, left.steps[landings t.left a]? = some l ∧ ∀ τ, (a : ℝ) * dT ≤ τ → τ ≤ (b : ℝ) * dT →
          v τ = d.omega * (c τ - inWorld l d.leftDelta)) ∧
        (t.right[a]? = some .stance → ∃ r, right.steps[landings t.right a]? = some r ∧ ∀ τ, (a : ℝ) * dT ≤ τ → τ ≤ (b : ℝ) * dT →
          v τ = d.omega * (c τ - inWorld r d.rightDelta))) := by
  obtain ⟨l0, r0, tt, hr⟩ := timeline_ok hw.made
  obtain ⟨x, y, u, v', p, init, -, -, hwh, hlen, hs⟩ := full_of exp_zero_real hw hv ho hr
  obtain ⟨q, qs, e, -⟩ := hwh.first
  have hω : (d.ready cfg dT init).omega = d.omega := rfl
  obtain ⟨c, v, c1, c2, c3, c4⟩ := chain_curve d.omega o.pieces (by rw [e]; simp) hwh.chain hwh.order
  refine ⟨c, v, c1, c2, c3, c4, fun hroom j s hj => ?_, fun hturns k a b ha hb => ?_⟩
  · have hjl : j < t.left.length := by rw [← hlen]; exact (List.getElem?_eq_some_iff.mp hj).1
    obtain ⟨s', s1, ⟨q', q1, q2, q3⟩, s3⟩ := hs hroom j hjl
    rw [hj] at s1; cases s1
    rw [s3 q' q1 q2 q3, (c4 q' q1 _ q2 q3).1, (c4 q' q1 _ q2 q3).2]
    exact ⟨rfl, rfl⟩
  · obtain ⟨hsl, -⟩ := shifts_ends hw hr
    have hPos : tt.Positive := positive_of_shifts (by rw [← hr.built.shifts]; exact hw.phases)
    have hlt := (List.getElem?_eq_some_iff.mp hb).1
    have hk : tt.slots[k]? = some tt.slots[k] := List.getElem?_eq_getElem (by omega)
    obtain ⟨-, s1, s2⟩ := shifts_slot tt k _ hk
    rw [← hr.built.shifts] at s1 s2
    rw [s1] at ha; rw [s2] at hb
    cases ha; cases hb
    have hss : 0 < tt.slots[k].ss := (hPos.1 _ (List.mem_of_getElem? hk)).2
    obtain ⟨w, hq, -⟩ := single_of (d := d) hw hr hk init
    obtain ⟨bt, bp, hm⟩ := hwh.singles _ (List.mem_of_getElem? (slots_mem (d := d) hw hr init hk hq))
    have dyn : ∀ τ, ((slotStart tt.slots k + tt.slots[k].ds : Nat) : ℝ) * dT ≤ τ →
        τ ≤ ((slotStart tt.slots k + tt.slots[k].ds + tt.slots[k].ss : Nat) : ℝ) * dT → v τ = d.omega * (c τ - d.zmpAt w.step) := by
      intro τ h1 h2
      rw [(c4 _ hm τ h1 h2).1, (c4 _ hm τ h1 h2).2]
      simp only [Piece.pos, Piece.vel]
      ext <;> simp <;> ring
    obtain ⟨-, hst⟩ := stance_step hw.sort hw.made hr hw.names.left_steps hw.names.right_steps hturns hk hq
    have find : ∀ f : Bool, (if f then t.left else t.right)[slotStart tt.slots k + tt.slots[k].ds]? = some .stance →
        tt.slots[k].left = !f ∧ landings (if f then t.left else t.right) (slotStart tt.slots k + tt.slots[k].ds) =
          (tt.slots.take k).countP (fun y => y.left == f) := by
      intro f hf
      obtain ⟨k', x', hk', h1, h2, h3, h4⟩ := slot_of_phase hw hr f hf (Or.inl rfl)
      have ek : k' = k := by
        rcases lt_trichotomy k' k with hc | hc | hc
        · have := slotStart_mono tt.slots (show k' + 1 ≤ k by omega)
          rw [slotStart_succ _ _ _ hk'] at this
          omega
        · exact hc
        · have := slotStart_mono tt.slots (show k + 1 ≤ k' by omega)
          rw [slotStart_succ _ _ _ hk] at this
          omega
      subst ek
      rw [hk] at hk'; cases hk'
      exact ⟨by simpa using h3, h4 f⟩
    refine ⟨fun hf => ?_, fun hf => ?_⟩
    · obtain ⟨f1, f2⟩ := find true (by simpa using hf)
      simp only [if_true, Bool.not_true] at f1 f2
      rw [f1] at hst
      simp only [Bool.false_eq_true, if_false, Bool.not_false] at hst
      rw [f2]
      refine ⟨_, hst, ?_⟩
      rw [← zmpAt_left hw.names (List.mem_of_getElem? hst)]
      exact dyn
    · obtain ⟨f1, f2⟩ := find false (by simpa using hf)
      simp only [Bool.false_eq_true, if_false, Bool.not_false] at f1 f2
      rw [f1] at hst
      simp only [if_true, Bool.not_true] at hst
      rw [f2]
      refine ⟨_, hst, ?_⟩
      rw [← zmpAt_right hw.names (List.mem_of_getElem? hst)]
      exact dyn

/-- C46: in the single supports the velocity is the derivative of the position and obeys the dynamics of the DCM with the ZMP of the
stance foot; the samples lie on this curve. -/
theorem C46_curve (hw : Walk cfg left right initTime dT sorted ordered t) (hv : ValidDcm d)
    (hroom : HasRoom cfg d dT t) (hturns : TakeTurns left.steps right.steps)
    (ho : Done d cfg left right initTime dT ordered t d' o) (k a b : Nat) (ha : t.shifts[2 * k + 1]? = some a)
    (hb : t.shifts[2 * k + 2]? = some b) :
    ∃ c v : ℝ → Vec2 ℝ, ∃ z : Vec2 ℝ,
      (∀ τ, HasDerivAt (fun τ => (c τ).x) (v τ).x τ ∧ HasDerivAt (fun τ => (c τ).y) (v τ).y τ) ∧
      (∀ τ, (a : ℝ) * dT ≤ τ → τ ≤ (b : ℝ) * dT → v τ = d.omega * (c τ - z)) ∧
      (∀ (j : Nat) s, o.samples[j]? = some s → s.pos = c ((j : ℝ) * dT) ∧ s.vel = v ((j : ℝ) * dT)) ∧
      ((t.left[a]? = some .stance ∧ ∃ l, left.steps[landings t.left a]? = some l ∧ z = inWorld l d.leftDelta) ∨
       (t.right[a]? = some .stance ∧ ∃ r, right.steps[landings t.right a]? = some r ∧ z = inWorld r d.rightDelta)) := by
  obtain ⟨c, v, h1, -, -, -, h5, h6⟩ := C47_curve hw hv ho
  obtain ⟨h7, h8⟩ := h6 hturns k a b ha hb
  obtain ⟨l0, r0, tt, hr⟩ := timeline_ok hw.made
  obtain ⟨hsl, -⟩ := shifts_ends hw hr
  have hPos : tt.Positive := positive_of_shifts (by rw [← hr.built.shifts]; exact hw.phases)
  have hlt := (List.getElem?_eq_some_iff.mp hb).1
  have hk : tt.slots[k]? = some tt.slots[k] := List.getElem?_eq_getElem (by omega)
  have hss : 0 < tt.slots[k].ss := (hPos.1 _ (List.mem_of_getElem? hk)).2
  obtain ⟨-, s1, -⟩ := shifts_slot tt k _ hk
  rw [← hr.built.shifts, ha] at s1
  cases s1
  have hph : ∀ f : Bool, (tt.phases f)[slotStart tt.slots k + tt.slots[k].ds]? =
      some (if tt.slots[k].left = f then Phase.swing else Phase.stance) := fun f =>
    (phases_slot tt f _ _ hk).2 _ (by omega) (by omega)
  cases hl : tt.slots[k].left
  · have hst : t.left[slotStart tt.slots k + tt.slots[k].ds]? = some .stance := by
      rw [hr.built.left, hph true, hl]; rfl
    obtain ⟨l, e1, e2⟩ := h7 hst
    exact ⟨c, v, _, h1, e2, h5 hroom, Or.inl ⟨hst, l, e1, rfl⟩⟩
  · have hst : t.right[slotStart tt.slots k + tt.slots[k].ds]? = some .stance := by
      rw [hr.built.right, hph false, hl]; rfl
    obtain ⟨r, e1, e2⟩ := h8 hst
    exact ⟨c, v, _, h1, e2, h5 hroom, Or.inr ⟨hst, r, e1, rfl⟩⟩

/-! ## `alpha` -/

/-- Two arcs of single support with different ZMPs meet once at most. -/
theorem meet_unique {ω : ℝ} (hω : 0 < ω) {a b a' b' bt bt' : ℝ} {z z' bp bp' : Vec2 ℝ} (hz : z ≠ z') {s u : ℝ}
    (hs : (Piece.single a b z bt bp).pos ω s = (Piece.single a' b' z' bt' bp').pos ω s)
    (hu : (Piece.single a b z bt bp).pos ω u = (Piece.single a' b' z' bt' bp').pos ω u) : s = u := by
  by_contra hne
  apply hz
  simp only [Piece.pos, exp_real] at hs hu
  have hf : ∀ w c : ℝ, Real.exp (ω * (w - c)) = Real.exp (ω * w) * Real.exp (-(ω * c)) := by
    intro w c; rw [← Real.exp_add]; ring_nf
  simp only [hf] at hs hu
  have hes : Real.exp (ω * s) - Real.exp (ω * u) ≠ 0 := by
    intro h
    have := Real.exp_injective (sub_eq_zero.mp h)
    exact hne (mul_left_cancel₀ hω.ne' this)
  have key : ∀ (p p' c c' : ℝ),
      p + Real.exp (ω * s) * Real.exp (-(ω * bt)) * (c - p) = p' + Real.exp (ω * s) * Real.exp (-(ω * bt')) * (c' - p') →
      p + Real.exp (ω * u) * Real.exp (-(ω * bt)) * (c - p) = p' + Real.exp (ω * u) * Real.exp (-(ω * bt')) * (c' - p') → p = p' := by
    intro p p' c c' h1 h2
    have h3 : (Real.exp (ω * s) - Real.exp (ω * u)) * (Real.exp (-(ω * bt)) * (c - p) - Real.exp (-(ω * bt')) * (c' - p')) = 0 := by
      linear_combination h1 - h2
    have h4 := (mul_eq_zero.mp h3).resolve_left hes
    linear_combination h1 - Real.exp (ω * s) * h4
  have hx := key z.x z'.x bp.x bp'.x (by simpa using congrArg Vec2.x hs) (by simpa using congrArg Vec2.x hu)
  have hy := key z.y z'.y bp.y bp'.y (by simpa using congrArg Vec2.y hs) (by simpa using congrArg Vec2.y hu)
  exact Vec2.ext hx hy

/-- C76: for `alpha` equal to one half the arcs of consecutive single supports meet in the middle of the double support. -/
theorem C76_alpha_partial (hw : Walk cfg left right initTime dT sorted ordered t) (hv : ValidDcm d)
    (ho : Done d cfg left right initTime dT ordered t d' o) (hα : d.alpha = 1 / 2) {k a b a' b' : Nat}
    (h1 : t.shifts[2 * k + 1]? = some a) (h2 : t.shifts[2 * k + 2]? = some b) (h3 : t.shifts[2 * k + 3]? = some a')
    (h4 : t.shifts[2 * k + 4]? = some b') (hk : 2 * k + 5 < t.shifts.length) {q q' : Ptr ℝ} (hq : ordered[k + 1]? = some q)
    (hq' : ordered[k + 2]? = some q') :
    ∃ bt bp bt' bp', .single ((a : ℝ) * dT) ((b : ℝ) * dT) (d.zmpAt q.step) bt bp ∈ o.pieces ∧
      .single ((a' : ℝ) * dT) ((b' : ℝ) * dT) (d.zmpAt q'.step) bt' bp' ∈ o.pieces ∧
      (Piece.single ((a : ℝ) * dT) ((b : ℝ) * dT) (d.zmpAt q.step) bt bp).pos d.omega ((b : ℝ) * dT + d.alpha * ((a' : ℝ) * dT - (b : ℝ) * dT)) =
        (Piece.single ((a' : ℝ) * dT) ((b' : ℝ) * dT) (d.zmpAt q'.step) bt' bp').pos d.omega ((b : ℝ) * dT + d.alpha * ((a' : ℝ) * dT - (b : ℝ) * dT)) := by
  obtain ⟨bt, bp, bt', bp', m1, m2, m3⟩ := C76_meet exp_zero_real hw hv ho h1 h2 h3 h4 hk hq hq'
  refine ⟨bt, bp, bt', bp', m1, m2, ?_⟩
  rw [hα] at m3 ⊢
  rw [show (b : ℝ) * dT + 1 / 2 * ((a' : ℝ) * dT - (b : ℝ) * dT) = ((a' : ℝ) * dT + (b : ℝ) * dT) * (1 / 2) by ring]
  exact m3

/-- C76, violation: for `alpha` equal to one the arcs of consecutive single supports on different ZMPs do not meet in the double
support between them: the only instant at which they would is later. -/
theorem C76_alpha_violation (hw : Walk cfg left right initTime dT sorted ordered t) (hv : ValidDcm d)
    (ho : Done d cfg left right initTime dT ordered t d' o) (hα : d.alpha = 1) {k a b a' b' : Nat}
    (h1 : t.shifts[2 * k + 1]? = some a) (h2 : t.shifts[2 * k + 2]? = some b) (h3 : t.shifts[2 * k + 3]? = some a')
    (h4 : t.shifts[2 * k + 4]? = some b') (hk : 2 * k + 5 < t.shifts.length) {q q' : Ptr ℝ} (hq : ordered[k + 1]? = some q)
    (hq' : ordered[k + 2]? = some q') (hz : d.zmpAt q.step ≠ d.zmpAt q'.step) :
    ∃ bt bp bt' bp', .single ((a : ℝ) * dT) ((b : ℝ) * dT) (d.zmpAt q.step) bt bp ∈ o.pieces ∧
      .single ((a' : ℝ) * dT) ((b' : ℝ) * dT) (d.zmpAt q'.step) bt' bp' ∈ o.pieces ∧
      (∀ τ, (Piece.single ((a : ℝ) * dT) ((b : ℝ) * dT) (d.zmpAt q.step) bt bp).pos d.omega τ =
        (Piece.single ((a' : ℝ) * dT) ((b' : ℝ) * dT) (d.zmpAt q'.step) bt' bp').pos d.omega τ → (a' : ℝ) * dT < τ) := by
  obtain ⟨l0, r0, tt, hr⟩ := timeline_ok hw.made
  obtain ⟨bt, bp, bt', bp', m1, m2, m3⟩ := C76_meet exp_zero_real hw hv ho h1 h2 h3 h4 hk hq hq'
  refine ⟨bt, bp, bt', bp', m1, m2, fun τ hτ => ?_⟩
  rw [meet_unique hv.omega_pos hz hτ m3, hα, mul_one]
  have hb : 0 < b := by
    obtain ⟨x1, x2⟩ := List.getElem?_eq_some_iff.mp h1
    obtain ⟨y1, y2⟩ := List.getElem?_eq_some_iff.mp h2
    have := List.pairwise_iff_getElem.mp hw.phases _ _ x1 y1 (by omega)
    omega
  have : 0 < (b : ℝ) * dT := mul_pos (by exact_mod_cast hb) hr.dT_pos
  linarith

/-! ## The default initial state -/

/-- C74: if the first contacts are not turned, the default initial state is the middle of their ZMPs. -/
theorem C74_default_partial (hw : Walk cfg left right initTime dT sorted ordered t) (hv : ValidDcm d)
    (ho : Done d cfg left right initTime dT ordered t d' o) (hspec : d.specified = false)
    (hl : ∀ l, left.steps.head? = some l → l.angle = 0) (hr : ∀ r, right.steps.head? = some r → r.angle = 0) :
    ∃ s l r, o.samples[0]? = some s ∧ left.steps.head? = some l ∧ right.steps.head? = some r ∧ s.vel = 0 ∧
      s.pos = (1 / 2 : ℝ) * (inWorld l d.leftDelta + inWorld r d.rightDelta) := by
  obtain ⟨s, l, r, h1, h2, h3, h4, h5⟩ := C74_default exp_zero_real hw hv ho hspec
  refine ⟨s, l, r, h1, h2, h3, h4, ?_⟩
  rw [h5]
  unfold inWorld
  rw [hl l h2, hr r h3]
  ext <;> simp [rot]

/-- C74, violation: if both feet are turned by the same angle, not zero, and have the same offset, not zero, the default initial
state is not the middle of the ZMPs of the first contacts. -/
theorem C74_default_violation (hw : Walk cfg left right initTime dT sorted ordered t) (hv : ValidDcm d)
    (ho : Done d cfg left right initTime dT ordered t d' o) (hspec : d.specified = false) {l r : Step ℝ}
    (hl : left.steps.head? = some l) (hr : right.steps.head? = some r) (hang : l.angle = r.angle) (hcos : Real.cos l.angle ≠ 1)
    (hδ : d.leftDelta = d.rightDelta) (h0 : d.leftDelta ≠ 0) :
    ∃ s, o.samples[0]? = some s ∧ s.pos ≠ (1 / 2 : ℝ) * (inWorld l d.leftDelta + inWorld r d.rightDelta) := by
  obtain ⟨s, l', r', h1, h2, h3, h4, h5⟩ := C74_default exp_zero_real hw hv ho hspec
  rw [hl] at h2; rw [hr] at h3
  cases h2; cases h3
  refine ⟨s, h1, fun h => h0 ?_⟩
  rw [h5] at h
  unfold inWorld at h
  rw [← hδ, ← hang] at h
  have hx := congrArg Vec2.x h
  have hy := congrArg Vec2.y h
  simp [rot] at hx hy
  have hx' : d.leftDelta.x * (1 - Real.cos l.angle) = -Real.sin l.angle * d.leftDelta.y := by linarith
  have hy' : d.leftDelta.y * (1 - Real.cos l.angle) = Real.sin l.angle * d.leftDelta.x := by linarith
  have hsq : (d.leftDelta.x ^ 2 + d.leftDelta.y ^ 2) * (1 - Real.cos l.angle) = 0 := by
    linear_combination d.leftDelta.x * hx' + d.leftDelta.y * hy'
  have := (mul_eq_zero.mp hsq).resolve_right (fun h => hcos (by linarith))
  have e1 : d.leftDelta.x = 0 := by nlinarith [sq_nonneg d.leftDelta.x, sq_nonneg d.leftDelta.y]
  have e2 : d.leftDelta.y = 0 := by nlinarith [sq_nonneg d.leftDelta.x, sq_nonneg d.leftDelta.y]
  exact Vec2.ext e1 e2

end Dcm
end Uni
