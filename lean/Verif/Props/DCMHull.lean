import Verif.Spec.Hull
import Verif.Props.DCMReal

/-! # C98: the DCM stays among the ZMPs of the present and of the future supports -/

set_option autoImplicit false
set_option linter.unusedSectionVars false

namespace Uni
open Spec Gen
namespace Dcm

variable {cfg : GenSettings ℝ} {left right : FootPrint ℝ} {initTime dT : ℝ} {sorted ordered : List (Ptr ℝ)} {t : Timing ℝ}
variable {d d' : Dcm ℝ} {o : DcmOut ℝ}

theorem hull_mem {P : Vec2 ℝ → Prop} {z : Vec2 ℝ} (h : P z) : InHull P z := fun _ _ hc => hc z h

private theorem hull_mono {P Q : Vec2 ℝ → Prop} (h : ∀ z, P z → Q z) {z : Vec2 ℝ} (hz : InHull P z) : InHull Q z :=
  fun n c hc => hz n c fun y hy => hc y (h y hy)

/-- A convex combination. -/
theorem hull_mix {P : Vec2 ℝ → Prop} {y z : Vec2 ℝ} (hy : InHull P y) (hz : InHull P z) {w : ℝ} (h0 : 0 ≤ w) (h1 : w ≤ 1) :
    InHull P ((1 - w) * y + w * z) := by
  intro n c hc
  have e1 := hy n c hc
  have e2 := hz n c hc
  simp only [Vec2.add_x, Vec2.add_y, Vec2.smul_x, Vec2.smul_y]
  have := mul_le_mul_of_nonneg_left e1 (show 0 ≤ 1 - w by linarith)
  have := mul_le_mul_of_nonneg_left e2 h0
  linarith

/-- Before `m` the arc about `z` is between `z` and its point at `m`. -/
private theorem hull_arc {P : Vec2 ℝ → Prop} {ω : ℝ} (hω : 0 < ω) {a b z bt bp} (hz : P z) {m τ : ℝ}
    (hm : InHull P ((Piece.single a b z bt bp).pos ω m)) (hτ : τ ≤ m) : InHull P ((Piece.single a b z bt bp).pos ω τ) := by
  have hle : Real.exp (ω * (τ - m)) ≤ 1 := Real.exp_le_one_iff.mpr (mul_nonpos_of_nonneg_of_nonpos hω.le (by linarith))
  have h := hull_mix (hull_mem hz) hm (Real.exp_pos _).le hle
  have e : (Piece.single a b z bt bp).pos ω τ =
      (1 - Real.exp (ω * (τ - m))) * z + Real.exp (ω * (τ - m)) * (Piece.single a b z bt bp).pos ω m := by
    have : Real.exp (ω * (τ - bt)) = Real.exp (ω * (τ - m)) * Real.exp (ω * (m - bt)) := by rw [← Real.exp_add]; ring_nf
    simp only [Piece.pos, exp_real, this]
    ext <;> simp <;> ring
  rw [e]
  exact h

/-- Two arcs about the same point that pass through the same point at the same time are the same. -/
theorem same_arc {ω : ℝ} {a b z bt bp bt' bp'} {m : ℝ}
    (h : (Piece.single a b z bt bp).pos ω m = (Piece.single a b z bt' bp').pos ω m) (τ : ℝ) :
    (Piece.single a b z bt bp).pos ω τ = (Piece.single a b z bt' bp').pos ω τ := by
  have hf : ∀ c : ℝ, Real.exp (ω * (τ - c)) = Real.exp (ω * (τ - m)) * Real.exp (ω * (m - c)) := by
    intro c; rw [← Real.exp_add]; ring_nf
  simp only [Piece.pos, exp_real] at h ⊢
  have hx := congrArg Vec2.x h
  have hy := congrArg Vec2.y h
  simp only [Vec2.add_x, Vec2.add_y, Vec2.smul_x, Vec2.smul_y, Vec2.sub_x, Vec2.sub_y] at hx hy
  rw [hf bt, hf bt']
  ext <;> simp only [Vec2.add_x, Vec2.add_y, Vec2.smul_x, Vec2.smul_y, Vec2.sub_x, Vec2.sub_y]
  · linear_combination Real.exp (ω * (τ - m)) * hx
  · linear_combination Real.exp (ω * (τ - m)) * hy

/-- The ZMP of the piece of a single support is the desired one of the foot that is the support. -/
theorem support_zmp (hw : Walk cfg left right initTime dT sorted ordered t) (hv : ValidDcm d)
    (ho : Done d cfg left right initTime dT ordered t d' o) (hturns : TakeTurns left.steps right.steps) {l r : Step ℝ} {tt : Timetable}
    (hr : Gen.Run cfg left right initTime dT sorted ordered t l r tt) {k : Nat} {x : Slot} {q : Ptr ℝ} (hk : tt.slots[k]? = some x)
    (hq : ordered[k + 1]? = some q) : SupportZmp left right t d.leftDelta d.rightDelta k (d.zmpAt q.step) := by
  obtain ⟨c, v, -, -, -, c4, c5, c6⟩ := C47_curve hw hv ho
  obtain ⟨_, _, _, _, _, init, -, -, hwh, -, -⟩ := full_of exp_zero_real hw hv ho hr
  obtain ⟨bt, bp, hm⟩ := hwh.singles _ (List.mem_of_getElem? (slots_mem (d := d) hw hr init hk hq))
  have hPos : tt.Positive := positive_of_shifts (by rw [← hr.built.shifts]; exact hw.phases)
  have hd := hr.dT_pos
  obtain ⟨-, s1, s2⟩ := shifts_slot tt k _ hk
  rw [← hr.built.shifts] at s1 s2
  have hss : 0 < x.ss := (hPos.1 _ (List.mem_of_getElem? hk)).2
  have hle : ((slotStart tt.slots k + x.ds : Nat) : ℝ) * dT ≤ ((slotStart tt.slots k + x.ds + x.ss : Nat) : ℝ) * dT :=
    mul_le_mul_of_nonneg_right (by exact_mod_cast Nat.le_add_right _ _) hd.le
  obtain ⟨h7, h8⟩ := c6 hturns k _ _ s1 s2
  have hph : ∀ f : Bool, (tt.phases f)[slotStart tt.slots k + x.ds]? =
      some (if x.left = f then Phase.swing else Phase.stance) := fun f => (phases_slot tt f _ _ hk).2 _ (by omega) (by omega)
  have same : ∀ z : Vec2 ℝ, v (((slotStart tt.slots k + x.ds : Nat) : ℝ) * dT) =
      d.omega * (c (((slotStart tt.slots k + x.ds : Nat) : ℝ) * dT) - z) → d.zmpAt q.step = z := by
    intro z h
    obtain ⟨g1, g2⟩ := c4 _ hm (((slotStart tt.slots k + x.ds : Nat) : ℝ) * dT) le_rfl hle
    rw [g1, g2] at h
    simp only [Piece.pos, Piece.vel] at h
    have hx := congrArg Vec2.x h
    have hy := congrArg Vec2.y h
    simp only [Vec2.add_x, Vec2.add_y, Vec2.smul_x, Vec2.smul_y, Vec2.sub_x, Vec2.sub_y] at hx hy
    ext
    · exact mul_left_cancel₀ hv.omega_pos.ne' (by linarith)
    · exact mul_left_cancel₀ hv.omega_pos.ne' (by linarith)
  cases hl : x.left
  · have hst : t.left[slotStart tt.slots k + x.ds]? = some .stance := by
      rw [hr.built.left, hph true, hl]; rfl
    obtain ⟨l, e1, e2⟩ := h7 hst
    exact ⟨_, s1, Or.inl ⟨hst, l, e1, same _ (e2 _ le_rfl hle)⟩⟩
  · have hst : t.right[slotStart tt.slots k + x.ds]? = some .stance := by
      rw [hr.built.right, hph false, hl]; rfl
    obtain ⟨r, e1, e2⟩ := h8 hst
    exact ⟨_, s1, Or.inr ⟨hst, r, e1, same _ (e2 _ le_rfl hle)⟩⟩

/-- C98: with `alpha` equal to one half and the last offset between zero and one, in every single support the DCM is in the convex
hull of the desired ZMPs of the feet that are the support from then on and of the last contacts. -/
theorem C98_hull (hw : Walk cfg left right initTime dT sorted ordered t) (hv : ValidDcm d) (hroom : HasRoom cfg d dT t)
    (hturns : TakeTurns left.steps right.steps) (ho : Done d cfg left right initTime dT ordered t d' o) (hα : d.alpha = 1 / 2)
    (h0 : 0 ≤ d.lastOffset) (h1 : d.lastOffset ≤ 1) {k a b j : Nat} (ha : t.shifts[2 * k + 1]? = some a)
    (hb : t.shifts[2 * k + 2]? = some b) (haj : a ≤ j) (hjb : j ≤ b) :
    ∃ s, o.samples[j]? = some s ∧ InHull (ZmpFrom left right t d.leftDelta d.rightDelta k) s.pos := by
  obtain ⟨c, v, -, -, -, c4, c5, c6⟩ := C47_curve hw hv ho
  obtain ⟨l0, r0, tt, hr⟩ := timeline_ok hw.made
  obtain ⟨x, y, u, v', p, init, he, -, hwh, hlen, hs⟩ := full_of exp_zero_real hw hv ho hr
  obtain ⟨hsl, hsh, hse, hN⟩ := shifts_ends hw hr
  have hPos : tt.Positive := positive_of_shifts (by rw [← hr.built.shifts]; exact hw.phases)
  have hd := hr.dT_pos
  -- the ZMP of a single support is one of the points
  have hz : ∀ (k : Nat) x q, tt.slots[k]? = some x → ordered[k + 1]? = some q →
      ZmpFrom left right t d.leftDelta d.rightDelta k (d.zmpAt q.step) := by
    intro k x q hk hq
    obtain ⟨a, h1, h2⟩ := support_zmp hw hv ho hturns hr hk hq
    exact Or.inl ⟨k, a, le_rfl, h1, h2⟩
  -- the arcs, from the last one back
  have arc : ∀ n k : Nat, k + n + 1 = tt.slots.length → ∀ x q, tt.slots[k]? = some x → ordered[k + 1]? = some q → ∀ bt bp,
      .single (((slotStart tt.slots k + x.ds : Nat) : ℝ) * dT) (((slotStart tt.slots k + x.ds + x.ss : Nat) : ℝ) * dT)
        (d.zmpAt q.step) bt bp ∈ o.pieces → ∀ τ, τ ≤ ((slotStart tt.slots k + x.ds + x.ss : Nat) : ℝ) * dT →
      InHull (ZmpFrom left right t d.leftDelta d.rightDelta k)
        ((Piece.single (((slotStart tt.slots k + x.ds : Nat) : ℝ) * dT) (((slotStart tt.slots k + x.ds + x.ss : Nat) : ℝ) * dT)
        (d.zmpAt q.step) bt bp).pos d.omega τ) := by
    intro n
    induction n with
    | zero =>
      intro k hkn x q hk hq bt bp hm τ hτ
      refine hull_arc hv.omega_pos (hz k x q hk hq) ?_ hτ
      have hss : 0 < x.ss := (hPos.1 _ (List.mem_of_getElem? hk)).2
      have hle : ((slotStart tt.slots k + x.ds : Nat) : ℝ) * dT ≤ ((slotStart tt.slots k + x.ds + x.ss : Nat) : ℝ) * dT :=
        mul_le_mul_of_nonneg_right (by exact_mod_cast Nat.le_add_right _ _) hd.le
      have hsucc := slotStart_succ tt.slots k x hk
      rw [show k + 1 = tt.slots.length by omega] at hsucc
      obtain ⟨s, l, r, e1, e2, e3, e4, e5⟩ := C76_last_offset exp_zero_real hw hv hroom hturns ho (by omega)
        (b := slotStart tt.slots k + x.ds + x.ss) (by rw [show t.shifts.length - 2 = 2 * tt.slots.length by omega, hsh, hsucc])
      rw [← (c4 _ hm (((slotStart tt.slots k + x.ds + x.ss : Nat) : ℝ) * dT) hle le_rfl).1, ← (c5 hroom _ _ e1).1]
      have hL : InHull (ZmpFrom left right t d.leftDelta d.rightDelta k) (inWorld l d.leftDelta) :=
        hull_mem (Or.inr (Or.inl ⟨l, e2, rfl⟩))
      have hR : InHull (ZmpFrom left right t d.leftDelta d.rightDelta k) (inWorld r d.rightDelta) :=
        hull_mem (Or.inr (Or.inr ⟨r, e3, rfl⟩))
      have hph : ∀ f : Bool, (tt.phases f)[slotStart tt.slots k + x.ds + x.ss - 1]? =
          some (if x.left = f then Phase.swing else Phase.stance) := fun f => (phases_slot tt f _ _ hk).2 _ (by omega) (by omega)
      cases hl : x.left
      · rw [e4 (by rw [hr.built.left, hph true, hl]; rfl)]
        exact hull_mix hL hR h0 h1
      · rw [e5 (by rw [hr.built.right, hph false, hl]; rfl)]
        exact hull_mix hR hL h0 h1
    | succ n ih =>
      intro k hkn x q hk hq bt bp hm τ hτ
      have hk' : tt.slots[k + 1]? = some tt.slots[k + 1] := List.getElem?_eq_getElem (by omega)
      obtain ⟨q', hq', -⟩ := single_of (d := d) hw hr hk' init
      obtain ⟨bt2, bp2, bt', bp', m1, m2, m3, -⟩ := hwh.meet k _ _ (slots_mem (d := d) hw hr init hk hq) (slots_mem (d := d) hw hr init hk' hq')
      have hle : ((slotStart tt.slots k + x.ds : Nat) : ℝ) * dT ≤ ((slotStart tt.slots k + x.ds + x.ss : Nat) : ℝ) * dT :=
        mul_le_mul_of_nonneg_right (by exact_mod_cast Nat.le_add_right _ _) hd.le
      have hsucc := slotStart_succ tt.slots k x hk
      have hle2 : ((slotStart tt.slots k + x.ds + x.ss : Nat) : ℝ) * dT ≤
          ((slotStart tt.slots (k + 1) + tt.slots[k + 1].ds : Nat) : ℝ) * dT :=
        mul_le_mul_of_nonneg_right (by exact_mod_cast (by omega)) hd.le
      have hle3 : ((slotStart tt.slots (k + 1) + tt.slots[k + 1].ds : Nat) : ℝ) * dT ≤
          ((slotStart tt.slots (k + 1) + tt.slots[k + 1].ds + tt.slots[k + 1].ss : Nat) : ℝ) * dT :=
        mul_le_mul_of_nonneg_right (by exact_mod_cast Nat.le_add_right _ _) hd.le
      have eα : (d.ready cfg dT init).alpha = 1 / 2 := hα
      have eω : (d.ready cfg dT init).omega = d.omega := rfl
      rw [eα, eω] at m3
      have hsame := same_arc (ω := d.omega) (show (Piece.single _ _ _ bt bp).pos d.omega _ = (Piece.single _ _ _ bt2 bp2).pos d.omega _ from
        (c4 _ hm (((slotStart tt.slots k + x.ds + x.ss : Nat) : ℝ) * dT) hle le_rfl).1.symm.trans (c4 _ m1 (((slotStart tt.slots k + x.ds + x.ss : Nat) : ℝ) * dT) hle le_rfl).1)
      refine hull_arc hv.omega_pos (m := ((((slotStart tt.slots (k + 1) + tt.slots[k + 1].ds : Nat) : ℝ) * dT) +
        (((slotStart tt.slots k + x.ds + x.ss : Nat) : ℝ) * dT)) * (1 / 2)) (hz k x q hk hq) ?_ (by linarith)
      rw [hsame, m3]
      refine hull_mono ?_ (ih (k + 1) (by omega) _ _ hk' hq' _ _ m2 _ (by linarith))
      rintro z (⟨i, a, hi, hz⟩ | hz)
      · exact Or.inl ⟨i, a, by omega, hz⟩
      · exact Or.inr hz
  have hlt := (List.getElem?_eq_some_iff.mp hb).1
  have hk : tt.slots[k]? = some tt.slots[k] := List.getElem?_eq_getElem (by omega)
  obtain ⟨-, s1, s2⟩ := shifts_slot tt k _ hk
  rw [← hr.built.shifts] at s1 s2
  rw [s1] at ha; rw [s2] at hb
  rw [← Option.some.inj ha] at haj
  rw [← Option.some.inj hb] at hjb
  obtain ⟨q, hq, -⟩ := single_of (d := d) hw hr hk init
  obtain ⟨bt, bp, hm⟩ := hwh.singles _ (List.mem_of_getElem? (slots_mem (d := d) hw hr init hk hq))
  have hmono := slotStart_mono tt.slots (show k + 1 ≤ tt.slots.length by omega)
  rw [slotStart_succ _ _ _ hk] at hmono
  have := hPos.2
  obtain ⟨s, g1, -, -⟩ := hs hroom j (by omega)
  refine ⟨s, g1, ?_⟩
  have hj1 : ((slotStart tt.slots k + tt.slots[k].ds : Nat) : ℝ) * dT ≤ (j : ℝ) * dT :=
    mul_le_mul_of_nonneg_right (by exact_mod_cast haj) hd.le
  have hj2 : (j : ℝ) * dT ≤ ((slotStart tt.slots k + tt.slots[k].ds + tt.slots[k].ss : Nat) : ℝ) * dT :=
    mul_le_mul_of_nonneg_right (by exact_mod_cast hjb) hd.le
  rw [(c5 hroom _ _ g1).1, (c4 _ hm _ hj1 hj2).1]
  exact arc (tt.slots.length - k - 1) k (by omega) _ _ hk hq _ _ hm _ hj2

/-! ## Example -/

private noncomputable def st (x y t : ℝ) (n : String) : Step ℝ := ⟨⟨x, y⟩, 0, t, n⟩
private noncomputable def lf : FootPrint ℝ := ⟨[st 0 1 0 "left", st 1 1 4 "left"], "left"⟩
private noncomputable def rf : FootPrint ℝ := ⟨[st 0 0 0 "right", st 2 0 8 "right"], "right"⟩
private noncomputable def so : List (Ptr ℝ) :=
  [⟨true, 0, st 0 1 0 "left"⟩, ⟨false, 0, st 0 0 0 "right"⟩, ⟨true, 1, st 1 1 4 "left"⟩, ⟨false, 1, st 2 0 8 "right"⟩]
private noncomputable def gen : Dcm ℝ := { (Dcm.new : Dcm ℝ) with omega := 2, stillness := 1 / 2 }
private noncomputable def set : GenSettings ℝ := { (GenSettings.new : GenSettings ℝ) with endSwitch := 2 }

private theorem round_nat (n : Nat) : roundSize (n : ℝ) = .ok n := by
  have h : stdRound (n : ℝ) = n := by
    unfold stdRound
    rw [if_pos (Nat.cast_nonneg n), Int.floor_eq_iff]
    constructor <;> push_cast <;> linarith
  unfold roundSize
  rw [h, if_pos (Int.natCast_nonneg n)]
  rfl

private def tm : Timing ℝ :=  ⟨[.switchOut, .switchOut, .swing, .swing, .switchIn, .switchIn, .stance, .stance, .switchOut, .switchOut],
   [.switchIn, .switchIn, .stance, .stance, .switchOut, .switchOut, .swing, .swing, .switchIn, .switchIn], [0, 2, 4, 6, 8, 10], [0, 5, 9], 2, 2, 8, false, true⟩

private theorem made : timeline set lf rf 0 1 so = .ok (so, ⟨[.switchOut, .switchOut, .swing, .swing, .switchIn, .switchIn, .stance, .stance, .switchOut, .switchOut],
   [.switchIn, .switchIn, .stance, .stance, .switchOut, .switchOut, .swing, .swing, .switchIn, .switchIn], [0, 2, 4, 6, 8, 10], [0, 5, 9], 2, 2, 8, false, true⟩) := by
  have r4 : roundSize (4 : ℝ) = .ok 4 := by exact_mod_cast round_nat 4
  have r2 : roundSize (2 : ℝ) = .ok 2 := by exact_mod_cast round_nat 2
  have r1 : roundSize (1 : ℝ) = .ok 1 := by exact_mod_cast round_nat 1
  have ho : orderSteps so = .ok so := by simp [so, st, orderSteps, adjacentDup]
  simp only [timeline, lf, rf, ho]
  rw [if_neg (by decide)]
  norm_num [set, st, so, tm, createPhasesTimings, GenSettings.new, Gen.addSteps, Gen.addStep, switchTime, whichSwings, stepMerges, Gen.addLast, r4, r2, r1, subSize, List.replicate, List.range']

private theorem rwalk : Walk set lf rf 0 1 so so tm where
  valid := by constructor <;> norm_num [set, GenSettings.new]
  sort := ⟨by simpa [so, lf, rf, Ptr.ofFeet, Ptr.ofFoot] using List.Perm.swap _ _ _, by norm_num [so, st]⟩
  made := made
  phases := by decide
  names := ⟨rfl, rfl, by simp [Named, lf, st], by simp [Named, rf, st]⟩

private theorem rturns : TakeTurns lf.steps rf.steps where
  later := ⟨fun i a b _ hb => by simp [lf] at hb, fun i a b _ hb => by simp [rf] at hb⟩
  firstL a b ha hb := by simp [lf] at ha hb; subst ha hb; exact ⟨st 0 0 0 "right", by simp [rf], by norm_num [st], by norm_num [st]⟩
  firstR a b ha hb := by simp [rf] at ha hb; subst ha hb; exact ⟨st 0 1 0 "left", by simp [lf], by norm_num [st], by norm_num [st]⟩

private theorem rvalid : ValidDcm gen := by constructor <;> norm_num [gen, Dcm.new]

private theorem rroom : HasRoom set gen 1 tm := by
  intro a b ha hb
  simp [tm] at ha hb
  subst ha hb
  constructor <;> norm_num [set, gen, Dcm.new, GenSettings.new]

/-- Non-vacuity of C98 (and of C46, C47 and C76 over the reals): a step of each foot; the generation succeeds, and while the right foot
is the support for the step of the left one the DCM is not behind it, nor beyond the last contact, nor outside the feet. -/
example : ∃ d' o, Done gen set lf rf 0 1 so tm d' o ∧ ∃ s, o.samples[3]? = some s ∧ 0 ≤ s.pos.x ∧ s.pos.x ≤ 2 ∧ 0 ≤ s.pos.y ∧ s.pos.y ≤ 1 := by
  obtain ⟨d', o, ho⟩ := C73_succeeds exp_zero_real rwalk rvalid rroom (by decide)
  refine ⟨d', o, ho, ?_⟩
  obtain ⟨s, hs, hh⟩ := C98_hull rwalk rvalid rroom rturns ho (by norm_num [gen, Dcm.new]) (by norm_num [gen, Dcm.new])
    (by norm_num [gen, Dcm.new]) (k := 0) (a := 2) (b := 4) (j := 3) rfl rfl (by omega) (by omega)
  refine ⟨s, hs, ?_⟩
  have box : ∀ z, ZmpFrom lf rf tm gen.leftDelta gen.rightDelta 0 z → 0 ≤ z.x ∧ z.x ≤ 2 ∧ 0 ≤ z.y ∧ z.y ≤ 1 := by
    have mem : ∀ w, w ∈ lf.steps ∨ w ∈ rf.steps → 0 ≤ w.position.x ∧ w.position.x ≤ 2 ∧ 0 ≤ w.position.y ∧ w.position.y ≤ 1 := by
      intro w hw
      simp only [lf, rf, List.mem_cons, List.not_mem_nil, or_false] at hw
      rcases hw with (rfl | rfl) | (rfl | rfl) <;> norm_num [st]
    have dl : gen.leftDelta = 0 := rfl
    have dr : gen.rightDelta = 0 := rfl
    have here : ∀ w : Step ℝ, inWorld w 0 = w.position := fun w => by unfold inWorld rot; ext <;> simp
    rintro z (⟨i, a, -, -, (⟨-, l, hl, rfl⟩ | ⟨-, r, hr, rfl⟩)⟩ | ⟨l, hl, rfl⟩ | ⟨r, hr, rfl⟩)
    · rw [dl, here]; exact mem _ (Or.inl (List.mem_of_getElem? hl))
    · rw [dr, here]; exact mem _ (Or.inr (List.mem_of_getElem? hr))
    · rw [dl, here]; exact mem _ (Or.inl (List.mem_of_getLast? hl))
    · rw [dr, here]; exact mem _ (Or.inr (List.mem_of_getLast? hr))
  have h1 := hh ⟨-1, 0⟩ 0 fun z hz => by have := box z hz; dsimp only; linarith
  have h2 := hh ⟨1, 0⟩ 2 fun z hz => by have := box z hz; dsimp only; linarith
  have h3 := hh ⟨0, -1⟩ 0 fun z hz => by have := box z hz; dsimp only; linarith
  have h4 := hh ⟨0, 1⟩ 1 fun z hz => by have := box z hz; dsimp only; linarith
  dsimp only at h1 h2 h3 h4
  exact ⟨by linarith, by linarith, by linarith, by linarith⟩

end Dcm
end Uni
