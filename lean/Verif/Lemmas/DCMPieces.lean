import Verif.Spec.Dcm
import Verif.Lemmas.Spline
import Mathlib.Data.List.Chain

/-! # The sub-trajectories of the DCM -/

set_option autoImplicit false
set_option linter.unusedSectionVars false

namespace Uni
open Spec

variable {K : Type} [Field K] [LinearOrder K] [IsStrictOrderedRing K]

theorem cubic_start (p0 v0 p1 v1 T : K) :
    cubicPos (cubicCoeffs p0 v0 p1 v1 T) 0 = p0 ∧ cubicVel (cubicCoeffs p0 v0 p1 v1 T) 0 = v0 := by
  constructor <;> simp [cubicPos, cubicVel, cubicCoeffs]

theorem cubic_stop (p0 v0 p1 v1 : K) {T : K} (hT : T ≠ 0) :
    cubicPos (cubicCoeffs p0 v0 p1 v1 T) T = p1 ∧ cubicVel (cubicCoeffs p0 v0 p1 v1 T) T = v1 := by
  constructor <;> simp only [cubicPos, cubicVel, cubicCoeffs] <;> field_simp <;> ring

theorem cubic_rest (p T t : K) :
    cubicPos (cubicCoeffs p 0 p 0 T) t = p ∧ cubicVel (cubicCoeffs p 0 p 0 T) t = 0 := by
  constructor <;> simp only [cubicPos, cubicVel, cubicCoeffs] <;> ring

theorem quintic_start (p0 v0 p1 v1 T : K) :
    quinticPos (quinticCoeffs p0 v0 0 0 p1 v1 T) 0 = p0 ∧ quinticVel (quinticCoeffs p0 v0 0 0 p1 v1 T) 0 = v0 := by
  constructor <;> simp [quinticPos, quinticVel, quinticCoeffs]

theorem quintic_stop (p0 v0 p1 v1 : K) {T : K} (hT : T ≠ 0) :
    quinticPos (quinticCoeffs p0 v0 0 0 p1 v1 T) T = p1 ∧ quinticVel (quinticCoeffs p0 v0 0 0 p1 v1 T) T = v1 := by
  constructor <;> simp only [quinticPos, quinticVel, quinticCoeffs] <;> field_simp <;> ring

namespace Piece
variable [Trig K]

theorem cubic_at_start (ω : K) (i f : DcmPoint K) :
    (cubic i f).pos ω i.time = i.pos ∧ (cubic i f).vel ω i.time = i.vel := by
  constructor <;> ext <;> simp [pos, vel, cubic_start]

theorem cubic_at_stop (ω : K) {i f : DcmPoint K} (h : i.time ≠ f.time) :
    (cubic i f).pos ω f.time = f.pos ∧ (cubic i f).vel ω f.time = f.vel := by
  have h' : f.time - i.time ≠ 0 := sub_ne_zero.mpr h.symm
  constructor <;> ext <;> simp [pos, vel, cubic_stop _ _ _ _ h']

theorem cubic_at_rest (ω : K) (a b : K) (p : Vec2 K) (t : K) :
    (cubic ⟨a, p, 0⟩ ⟨b, p, 0⟩).pos ω t = p ∧ (cubic ⟨a, p, 0⟩ ⟨b, p, 0⟩).vel ω t = 0 := by
  constructor <;> ext <;> simp [pos, vel, cubic_rest]

theorem quintic_at_start (ω : K) (i f : DcmPoint K) :
    (quintic i f 0 0).pos ω i.time = i.pos ∧ (quintic i f 0 0).vel ω i.time = i.vel := by
  constructor <;> ext <;> simp [pos, vel, quintic_start]

theorem quintic_at_stop (ω : K) {i f : DcmPoint K} (h : i.time ≠ f.time) :
    (quintic i f 0 0).pos ω f.time = f.pos ∧ (quintic i f 0 0).vel ω f.time = f.vel := by
  have h' : f.time - i.time ≠ 0 := sub_ne_zero.mpr h.symm
  constructor <;> ext <;> simp [pos, vel, quintic_stop _ _ _ _ h']

/-- The reported ZMP is the one of the DCM dynamics. -/
theorem zmp_eq {ω : K} (hω : ω ≠ 0) (p : Piece K) (t : K) : p.zmp ω t = p.pos ω t - (1 / ω) * p.vel ω t := by
  cases p with
  | single a b z bt bp =>
    ext <;> simp [zmp, pos, vel] <;> field_simp <;> ring
  | cubic i f => rfl
  | quintic i f a j => rfl

theorem state_ok {ω : K} {p : Piece K} {t tol : K} (hf : p.finite = true) (h1 : p.start - tol ≤ t) (h2 : t ≤ p.stop + tol) :
    p.state ω t tol = .ok (p.pos ω t, p.vel ω t) := by
  unfold state inDomain
  rw [if_pos (by simp [h1, h2]), if_pos hf]

theorem sample_ok {ω : K} (hω : ω ≠ 0) {p : Piece K} {t tol : K} (hf : p.finite = true) (h1 : p.start - tol ≤ t)
    (h2 : t ≤ p.stop + tol) : p.sample ω t tol = .ok ⟨p.pos ω t, p.vel ω t, p.zmp ω t⟩ := by
  unfold sample
  rw [state_ok hf h1 h2, Out.bind_ok, if_pos]
  cases p <;> simp_all [zmpFinite]

theorem finite_of_lt {p : Piece K} (h : p.start < p.stop) : p.finite = true := by
  cases p <;> simp only [finite, decide_eq_true_eq] <;> exact h.ne'

end Piece

section
variable [Trig K]

/-- Later pieces begin later. -/
theorem chain_le {ω : K} {p : Piece K} {tr : List (Piece K)} (hc : (p :: tr).IsChain (Joined ω))
    (ho : ∀ q ∈ p :: tr, q.start ≤ q.stop) : ∀ q ∈ tr, p.stop ≤ q.start := by
  induction tr generalizing p with
  | nil => simp
  | cons r tr ih =>
    rw [List.isChain_cons_cons] at hc
    intro q hq
    rcases List.mem_cons.mp hq with rfl | hq
    · exact hc.1.time.le
    · have := ih hc.2 (fun q hq => ho q (List.mem_cons_of_mem _ hq)) q hq
      have := ho r (by simp)
      have := hc.1.time
      linarith

/-- Two pieces, one of which ends when the other begins, agree at this time. -/
theorem chain_meet {ω : K} {p : Piece K} {tr : List (Piece K)} (hc : (p :: tr).IsChain (Joined ω))
    (ho : ∀ q ∈ p :: tr, q.start ≤ q.stop) : ∀ q ∈ tr, p.stop = q.start →
      p.pos ω p.stop = q.pos ω q.start ∧ p.vel ω p.stop = q.vel ω q.start := by
  induction tr generalizing p with
  | nil => simp
  | cons r tr ih =>
    have hc' := hc
    rw [List.isChain_cons_cons] at hc
    have ho' : ∀ q ∈ r :: tr, q.start ≤ q.stop := fun q hq => ho q (List.mem_cons_of_mem _ hq)
    intro q hq he
    rcases List.mem_cons.mp hq with rfl | hq
    · exact ⟨hc.1.pos, hc.1.vel⟩
    · have h1 := chain_le hc.2 ho' q hq
      have h2 := ho' r (by simp)
      have h3 := hc.1.time
      have h4 : r.stop = r.start := le_antisymm (by linarith) h2
      obtain ⟨a, b⟩ := ih hc.2 ho' q hq (by rw [h4, ← h3, he])
      rw [h4] at a b
      exact ⟨hc.1.pos.trans a, hc.1.vel.trans b⟩

/-- All the pieces whose interval contains a time agree at that time. -/
theorem chain_agree {ω : K} {tr : List (Piece K)} (hc : tr.IsChain (Joined ω)) (ho : ∀ q ∈ tr, q.start ≤ q.stop) {t : K} :
    ∀ p ∈ tr, ∀ q ∈ tr, p.start ≤ t → t ≤ p.stop → q.start ≤ t → t ≤ q.stop →
      p.pos ω t = q.pos ω t ∧ p.vel ω t = q.vel ω t := by
  have key : ∀ (p : Piece K) (tr : List (Piece K)), (p :: tr).IsChain (Joined ω) → (∀ q ∈ p :: tr, q.start ≤ q.stop) →
      ∀ q ∈ tr, t ≤ p.stop → q.start ≤ t → p.pos ω t = q.pos ω t ∧ p.vel ω t = q.vel ω t := by
    intro p tr hc ho q hq h1 h2
    have h3 := chain_le hc ho q hq
    have e1 : t = p.stop := le_antisymm h1 (h3.trans h2)
    have e2 : p.stop = q.start := le_antisymm h3 (h2.trans h1)
    have := chain_meet hc ho q hq e2
    rw [← e2, ← e1] at this
    exact this
  induction tr with
  | nil => simp
  | cons r tr ih =>
    have hc2 : tr.IsChain (Joined ω) := hc.tail
    have ho2 : ∀ q ∈ tr, q.start ≤ q.stop := fun q hq => ho q (List.mem_cons_of_mem _ hq)
    intro p hp q hq h1 h2 h3 h4
    rcases List.mem_cons.mp hp with hp' | hp' <;> rcases List.mem_cons.mp hq with hq' | hq'
    · rw [hp', hq']; exact ⟨rfl, rfl⟩
    · rw [hp'] at h2 ⊢; exact key _ _ hc ho q hq' h2 h3
    · rw [hq'] at h4 ⊢
      have := key _ _ hc ho p hp' h4 h1
      exact ⟨this.1.symm, this.2.symm⟩
    · exact ih hc2 ho2 p hp' q hq' h1 h2 h3 h4

/-- The samples, if every piece after the first and before the last one lasts at least a sample. -/
theorem evaluate_ok {d : Dcm K} (hω : d.omega ≠ 0) (hd : 0 < d.dT) (n t : Nat) (p : Piece K) (ps : List (Piece K))
    (hc : (p :: ps).IsChain (Joined d.omega)) (hlong : ∀ q ∈ ps.dropLast, q.start + d.dT ≤ q.stop) (hf : p.finite = true)
    (h1 : p.start ≤ (t : K) * d.dT) (h2 : (t : K) * d.dT ≤ p.stop + d.dT)
    (hl : ∀ q, (p :: ps).getLast? = some q → ∀ i, i < n → ((t + i : Nat) : K) * d.dT ≤ q.stop) :
    ∃ l, d.evaluate n t (p :: ps) = .ok l ∧ l.length = n ∧ ∀ i, i < n → ∃ q ∈ p :: ps,
      q.start ≤ ((t + i : Nat) : K) * d.dT ∧ ((t + i : Nat) : K) * d.dT ≤ q.stop ∧
      l[i]? = some ⟨q.pos d.omega (((t + i : Nat) : K) * d.dT), q.vel d.omega (((t + i : Nat) : K) * d.dT),
        q.zmp d.omega (((t + i : Nat) : K) * d.dT)⟩ := by
  induction n generalizing t p ps with
  | zero => exact ⟨[], rfl, rfl, by simp⟩
  | succ n ih =>
    have next : ∀ (q : Piece K) (qs : List (Piece K)), (∀ x ∈ q :: qs, x ∈ p :: ps) → (q :: qs).IsChain (Joined d.omega) →
        (∀ x ∈ qs.dropLast, x.start + d.dT ≤ x.stop) → q.finite = true → q.start ≤ (t : K) * d.dT → (t : K) * d.dT ≤ q.stop →
        (q :: qs).getLast? = (p :: ps).getLast? →
        ∃ l, (do
          let s ← q.sample d.omega ((t : K) * d.dT) (d.dT / 2)
          let l ← d.evaluate n (t + 1) (q :: qs)
          Out.ok (s :: l)) = .ok l ∧ l.length = n + 1 ∧ ∀ i, i < n + 1 → ∃ q ∈ p :: ps,
          q.start ≤ ((t + i : Nat) : K) * d.dT ∧ ((t + i : Nat) : K) * d.dT ≤ q.stop ∧
          l[i]? = some ⟨q.pos d.omega (((t + i : Nat) : K) * d.dT), q.vel d.omega (((t + i : Nat) : K) * d.dT),
            q.zmp d.omega (((t + i : Nat) : K) * d.dT)⟩ := by
      intro q qs hsub hc' hlong' hf' a1 a2 hlast
      obtain ⟨l, l1, l2, l3⟩ := ih (t + 1) q qs hc' hlong' hf' (by push_cast; linarith) (by push_cast; linarith)
        (fun x hx i hi => by
          rw [hlast] at hx
          have := hl x hx (i + 1) (by omega)
          rw [show t + 1 + i = t + (i + 1) by omega]; exact this)
      rw [Piece.sample_ok hω hf' (by linarith) (by linarith), Out.bind_ok, l1, Out.bind_ok]
      refine ⟨_, rfl, by simp [l2], fun i hi => ?_⟩
      cases i with
      | zero => exact ⟨q, hsub q (by simp), a1, a2, rfl⟩
      | succ i =>
        obtain ⟨x, x1, x2, x3, x4⟩ := l3 i (by omega)
        rw [show t + 1 + i = t + (i + 1) by omega] at x2 x3 x4
        exact ⟨x, hsub x x1, x2, x3, by simpa using x4⟩
    simp only [Dcm.evaluate]
    by_cases hlt : p.stop < (t : K) * d.dT
    · rw [if_pos hlt]
      cases ps with
      | nil =>
        have := hl p (by simp) 0 (by omega)
        rw [Nat.add_zero] at this
        exact absurd this (not_le.mpr hlt)
      | cons q qs =>
        rw [List.isChain_cons_cons] at hc
        have hj := hc.1.time
        have hq : (t : K) * d.dT ≤ q.stop := by
          cases qs with
          | nil =>
            have := hl q (by simp) 0 (by omega)
            simpa using this
          | cons r rs =>
            have := hlong q (by simp)
            linarith
        refine next q qs (fun x hx => List.mem_cons_of_mem _ hx) hc.2 (fun x hx => ?_) (Piece.finite_of_lt (by linarith))
          (by linarith) hq (by simp)
        cases qs with
        | nil => simp at hx
        | cons r rs => exact hlong x (by rw [List.dropLast_cons_cons]; exact List.mem_cons_of_mem _ hx)
    · rw [if_neg hlt]
      exact next p ps (fun x hx => hx) hc hlong hf h1 (not_lt.mp hlt) rfl

end
end Uni
