import Verif.Lemmas.DCMWalk
import Mathlib.Analysis.SpecialFunctions.ExpDeriv
import Mathlib.Topology.Order.OrderClosed

/-! # The trajectory of the DCM as a curve -/

set_option autoImplicit false
set_option linter.unusedSectionVars false

namespace Uni
open Spec

section
variable {K : Type} [Field K] [LinearOrder K] [IsStrictOrderedRing K] [Trig K]

/-- Where the samples come from, without any assumption: from a piece whose interval is at most half a period away. -/
theorem evaluate_inv {d : Dcm K} {n t : Nat} {tr : List (Piece K)} {l : List (DcmSample K)} (h : d.evaluate n t tr = .ok l) :
    l.length = n ∧ ∀ i s, l[i]? = some s → ∃ q ∈ tr,
      q.start - d.dT / 2 ≤ ((t + i : Nat) : K) * d.dT ∧ ((t + i : Nat) : K) * d.dT ≤ q.stop + d.dT / 2 ∧
      s = ⟨q.pos d.omega (((t + i : Nat) : K) * d.dT), q.vel d.omega (((t + i : Nat) : K) * d.dT),
        q.zmp d.omega (((t + i : Nat) : K) * d.dT)⟩ := by
  induction n generalizing t tr l with
  | zero => simp only [Dcm.evaluate] at h; cases h; simp
  | succ n ih =>
    cases tr with
    | nil => simp only [Dcm.evaluate] at h; cases h
    | cons p ps =>
      simp only [Dcm.evaluate] at h
      split at h
      · cases h
      · rename_i q qs hq
        have hsub : ∀ x ∈ q :: qs, x ∈ p :: ps := by
          intro x hx
          rw [← hq] at hx
          split_ifs at hx
          · exact List.mem_cons_of_mem _ hx
          · exact hx
        rw [Out.bind_eq_ok] at h
        obtain ⟨s, h1, h⟩ := h
        rw [Out.bind_eq_ok] at h
        obtain ⟨l', h2, h⟩ := h
        cases h
        obtain ⟨i1, i2⟩ := ih h2
        refine ⟨by simp [i1], fun i x hx => ?_⟩
        cases i with
        | zero =>
          simp only [List.getElem?_cons_zero, Option.some.injEq] at hx
          subst hx
          refine ⟨q, hsub q List.mem_cons_self, ?_⟩
          rw [Nat.add_zero]
          unfold Piece.sample Piece.state at h1
          by_cases hdom : q.inDomain ((t : K) * d.dT) (d.dT / 2) = true
          · rw [if_pos hdom] at h1
            by_cases hf : q.finite = true
            · rw [if_pos hf, Out.bind_ok] at h1
              by_cases hz : q.zmpFinite d.omega = true
              · rw [if_pos hz] at h1
                cases h1
                simp only [Piece.inDomain, decide_eq_true_eq] at hdom
                exact ⟨hdom.1, hdom.2, rfl⟩
              · rw [if_neg hz] at h1; cases h1
            · rw [if_neg hf] at h1; cases h1
          · rw [if_neg hdom] at h1; cases h1
        | succ i =>
          obtain ⟨y, y1, y2⟩ := i2 i x (by simpa using hx)
          rw [show t + 1 + i = t + (i + 1) by omega] at y2
          exact ⟨y, hsub y y1, y2⟩
end

/-- In a piece the velocity is the derivative of the position. -/
theorem Piece.hasDerivAt (ω : ℝ) (p : Piece ℝ) (t : ℝ) :
    HasDerivAt (fun τ => (p.pos ω τ).x) (p.vel ω t).x t ∧ HasDerivAt (fun τ => (p.pos ω τ).y) (p.vel ω t).y t := by
  have hcub : ∀ (c : ℝ × ℝ × ℝ × ℝ) (a : ℝ), HasDerivAt (fun τ => cubicPos c (τ - a)) (cubicVel c (t - a)) t := by
    intro c a
    have h : HasDerivAt (fun τ : ℝ => τ - a) 1 t := (hasDerivAt_id t).sub_const a
    unfold cubicPos cubicVel
    exact (((((h.fun_pow 3).mul_const c.1).fun_add ((h.fun_pow 2).mul_const c.2.1)).fun_add (h.mul_const c.2.2.1)).add_const
      c.2.2.2).congr_deriv (by norm_num)
  have hqui : ∀ (c : ℝ × ℝ × ℝ × ℝ × ℝ × ℝ) (a : ℝ), HasDerivAt (fun τ => quinticPos c (τ - a)) (quinticVel c (t - a)) t := by
    intro c a
    have h : HasDerivAt (fun τ : ℝ => τ - a) 1 t := (hasDerivAt_id t).sub_const a
    unfold quinticPos quinticVel
    exact (((((((h.fun_pow 5).mul_const c.1).fun_add ((h.fun_pow 4).mul_const c.2.1)).fun_add ((h.fun_pow 3).mul_const
      c.2.2.1)).fun_add ((h.fun_pow 2).mul_const c.2.2.2.1)).fun_add (h.mul_const c.2.2.2.2.1)).add_const
      c.2.2.2.2.2).congr_deriv (by norm_num)
  cases p with
  | single a b z bt bp =>
    have h : HasDerivAt (fun τ : ℝ => Real.exp (ω * (τ - bt))) (ω * Real.exp (ω * (t - bt))) t :=
      (((hasDerivAt_id t).sub_const bt).const_mul ω).exp.congr_deriv (by simp; ring)
    simp only [Piece.pos, Piece.vel, exp_real, Vec2.add_x, Vec2.add_y, Vec2.smul_x, Vec2.smul_y, Vec2.sub_x, Vec2.sub_y]
    exact ⟨(h.mul_const _).const_add _, (h.mul_const _).const_add _⟩
  | cubic i f => exact ⟨hcub _ _, hcub _ _⟩
  | quintic i f a j => exact ⟨hqui _ _, hqui _ _⟩

theorem Piece.continuous_vel (ω : ℝ) (p : Piece ℝ) :
    Continuous (fun τ => (p.vel ω τ).x) ∧ Continuous (fun τ => (p.vel ω τ).y) := by
  cases p with
  | single a b z bt bp =>
    simp only [Piece.vel, exp_real, Vec2.smul_x, Vec2.smul_y]
    constructor <;> fun_prop
  | cubic i f =>
    simp only [Piece.vel, cubicVel]
    constructor <;> fun_prop
  | quintic i f a j =>
    simp only [Piece.vel, quinticVel]
    constructor <;> fun_prop

/-- Pieces that are joined make a continuously differentiable curve. -/
theorem chain_curve (ω : ℝ) (tr : List (Piece ℝ)) (hne : tr ≠ []) (hc : tr.IsChain (Joined ω)) (ho : ∀ q ∈ tr, q.start ≤ q.stop) :
    ∃ c v : ℝ → Vec2 ℝ, (∀ t, HasDerivAt (fun τ => (c τ).x) (v t).x t ∧ HasDerivAt (fun τ => (c τ).y) (v t).y t) ∧
      Continuous (fun τ => (v τ).x) ∧ Continuous (fun τ => (v τ).y) ∧
      ∀ p ∈ tr, ∀ t, p.start ≤ t → t ≤ p.stop → c t = p.pos ω t ∧ v t = p.vel ω t := by
  induction tr with
  | nil => exact absurd rfl hne
  | cons p tr ih =>
    cases tr with
    | nil =>
      refine ⟨p.pos ω, p.vel ω, fun t => p.hasDerivAt ω t, (p.continuous_vel ω).1, (p.continuous_vel ω).2, fun q hq t _ _ => ?_⟩
      rw [List.mem_singleton] at hq; subst hq; exact ⟨rfl, rfl⟩
    | cons q tr =>
      have hc' := hc
      rw [List.isChain_cons_cons] at hc'
      obtain ⟨c, v, h1, h2, h3, h4⟩ := ih (by simp) hc'.2 (fun x hx => ho x (List.mem_cons_of_mem _ hx))
      have hj := hc'.1
      have hq := h4 q (by simp) p.stop hj.time.ge (by rw [hj.time]; exact ho q (by simp))
      have e1 : p.pos ω p.stop = c p.stop := by rw [hq.1, hj.pos, hj.time]
      have e2 : p.vel ω p.stop = v p.stop := by rw [hq.2, hj.vel, hj.time]
      refine ⟨fun t => if t ≤ p.stop then p.pos ω t else c t, fun t => if t ≤ p.stop then p.vel ω t else v t, fun t => ?_, ?_, ?_, ?_⟩
      · have jx := hasDerivAt_join (t1 := p.stop) (fun t => (p.hasDerivAt ω t).1) (fun t => (h1 t).1) (by rw [e1]) (by rw [e2]) t
        have jy := hasDerivAt_join (t1 := p.stop) (fun t => (p.hasDerivAt ω t).2) (fun t => (h1 t).2) (by rw [e1]) (by rw [e2]) t
        refine ⟨?_, ?_⟩
        · refine (jx.congr_deriv (by simp only; split_ifs <;> rfl)).congr_of_eventuallyEq (Filter.Eventually.of_forall fun τ => ?_)
          simp only; split_ifs <;> rfl
        · refine (jy.congr_deriv (by simp only; split_ifs <;> rfl)).congr_of_eventuallyEq (Filter.Eventually.of_forall fun τ => ?_)
          simp only; split_ifs <;> rfl
      · have := Continuous.if_le (p.continuous_vel ω).1 h2 continuous_id continuous_const (fun x (hx : x = p.stop) => by
          rw [hx, e2])
        refine this.congr fun τ => ?_
        simp only [id]; split_ifs <;> rfl
      · have := Continuous.if_le (p.continuous_vel ω).2 h3 continuous_id continuous_const (fun x (hx : x = p.stop) => by
          rw [hx, e2])
        refine this.congr fun τ => ?_
        simp only [id]; split_ifs <;> rfl
      · intro x hx t t1 t2
        rcases List.mem_cons.mp hx with hx' | hx'
        · rw [hx'] at t1 t2 ⊢
          simp only [if_pos t2, and_self]
        · have hle := chain_le hc ho x hx'
          obtain ⟨a, b⟩ := h4 x hx' t t1 t2
          rcases (hle.trans t1).eq_or_lt with he | hlt
          · rw [← he] at a b ⊢
            simp only [le_refl, if_true]
            exact ⟨e1.trans a, e2.trans b⟩
          · simp only [if_neg (not_le.mpr hlt)]
            exact ⟨a, b⟩

end Uni
