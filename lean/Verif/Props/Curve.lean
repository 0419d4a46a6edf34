import Verif.Lemmas.Curve

/-! # C114: the DCM over everything that is executed is one smooth curve -/

set_option autoImplicit false
set_option linter.unusedSectionVars false

namespace Uni.Walker
open Spec Gen

section
variable {K : Type} [Field K] [LinearOrder K] [IsStrictOrderedRing K] [FloorRing K] [Trig K]
variable {integ : Integrator K} {sort : Sorter K} {w : Walker K} {dT time : K} {legs : List (Leg K)}

/-- C114: there is a sample of the DCM for every sample that is executed. -/
theorem C114_samples (hpi : (0 : K) ≤ Trig.pi) (hexp : Trig.exp (0 : K) = 1) (hsort : ∀ l r, SortedPtrs l r (sort l r))
    (h : Walking integ sort dT legs w time) (htimes : Everywhere (fun w _ => NonNeg w.left ∧ NonNeg w.right) legs w time)
    (hfine : Everywhere (DcmFine sort dT) legs w time) (hnames : LeftRight (firstWalk legs w).left (firstWalk legs w).right) :
    (executed dcmOf legs w).length = (executed supportsOf legs w).length := by
  have key : ∀ {legs : List (Leg K)} {w : Walker K} {time : K}, Walking integ sort dT legs w time →
      Everywhere (fun w _ => NonNeg w.left ∧ NonNeg w.right) legs w time → DcmFine sort dT w time →
      LeftRight (firstWalk legs w).left (firstWalk legs w).right → (dcmOf w).length = (supportsOf w).length := by
    intro legs w time h ht hf hn
    obtain ⟨p, d, o, ordered, t, -, -, e, hv, -, hw, hroom, ho, hl⟩ := dcm_made hsort h (names_everywhere hpi h ht hn) hf
    obtain ⟨l0, r0, tt, hr⟩ := timeline_ok hw.made
    obtain ⟨_, _, _, _, _, _, -, -, -, hlen, -⟩ := Dcm.full_of hexp hw hv ho hr
    rw [e, hl, hlen]
  induction h with
  | start hr hg hd => simpa [executed] using key (.start hr hg hd) htimes hfine.2 hnames
  | @again legs before old new c k m q hw hd hm ih =>
    obtain ⟨t1, t2⟩ := everywhere_snoc htimes
    obtain ⟨f1, f2⟩ := everywhere_snoc hfine
    have hn : LeftRight (firstWalk legs old).left (firstWalk legs old).right := by cases legs <;> simpa [firstWalk] using hnames
    have i := ih t1 f1 hn
    have a := key hw t1 f1.2 hn
    have b := key (.again hw hd hm) htimes f2 hnames
    rw [executed, executed, List.length_append, List.length_append, a] at i
    rw [executed_snoc, executed_snoc]
    simp only [List.length_append, List.length_take, a, b]
    omega

/-- C114: at every sample that is executed position and velocity of the DCM and the ZMP obey the dynamics of the DCM, with the same
`omega`. -/
theorem C114_dynamics (hpi : (0 : K) ≤ Trig.pi) (hsort : ∀ l r, SortedPtrs l r (sort l r))
    (h : Walking integ sort dT legs w time) (htimes : Everywhere (fun w _ => NonNeg w.left ∧ NonNeg w.right) legs w time)
    (hfine : Everywhere (DcmFine sort dT) legs w time) (hnames : LeftRight (firstWalk legs w).left (firstWalk legs w).right)
    {p : Plugin (Dcm K) (DcmOut K)} (hp : (firstWalk legs w).dcm = some p) :
    ∀ s ∈ executed dcmOf legs w, s.vel = p.state.omega * (s.pos - s.zmp) := by
  have key : ∀ {legs : List (Leg K)} {w : Walker K} {time : K}, Walking integ sort dT legs w time →
      Everywhere (fun w _ => NonNeg w.left ∧ NonNeg w.right) legs w time → DcmFine sort dT w time →
      LeftRight (firstWalk legs w).left (firstWalk legs w).right → (firstWalk legs w).dcm = some p →
      ∀ s ∈ dcmOf w, s.vel = p.state.omega * (s.pos - s.zmp) := by
    intro legs w time h ht hf hn hp s hs
    obtain ⟨p', d, o, ordered, t, h1, -, e, hv, eω, hw, hroom, ho, hl⟩ := dcm_made hsort h (names_everywhere hpi h ht hn) hf
    rw [← omega_everywhere hpi h ht hp h1, ← eω]
    exact Dcm.C46_dynamics ho hv.omega_pos.ne' s (by rw [← e]; exact hs)
  induction h with
  | start hr hg hd => simpa [executed] using key (.start hr hg hd) htimes hfine.2 hnames hp
  | @again legs before old new c k m q hw hd hm ih =>
    obtain ⟨t1, t2⟩ := everywhere_snoc htimes
    obtain ⟨f1, f2⟩ := everywhere_snoc hfine
    have i := ih t1 f1 (by cases legs <;> simpa [firstWalk] using hnames) (by cases legs <;> simpa [firstWalk] using hp)
    intro s hs
    rw [executed_snoc, List.mem_append, List.mem_append] at hs
    rcases hs with (hs | hs) | hs
    · exact i s (by rw [executed]; exact List.mem_append_left _ hs)
    · exact i s (by rw [executed]; exact List.mem_append_right _ (List.mem_of_mem_take hs))
    · exact key (.again hw hd hm) htimes f2 hnames hp s hs

end

variable {integ : Integrator ℝ} {sort : Sorter ℝ} {w : Walker ℝ} {dT time : ℝ} {legs : List (Leg ℝ)}

/-- C114: however often the walk is replaced, there is a curve with a continuous velocity that passes through all samples of the DCM that
are executed, with their velocities. -/
theorem C114_curve (hsort : ∀ l r, SortedPtrs l r (sort l r)) (h : Walking integ sort dT legs w time)
    (htimes : Everywhere (fun w _ => NonNeg w.left ∧ NonNeg w.right) legs w time) (hfine : Everywhere (DcmFine sort dT) legs w time)
    (hnames : LeftRight (firstWalk legs w).left (firstWalk legs w).right) :
    ∃ c v : ℝ → Vec2 ℝ, SmoothCurve c v ∧ ∀ (j : Nat) (s : DcmSample ℝ), (executed dcmOf legs w)[j]? = some s →
      s.pos = c ((j : ℝ) * dT) ∧ s.vel = v ((j : ℝ) * dT) := by
  have hpi : (0 : ℝ) ≤ Trig.pi := by rw [pi_real]; exact Real.pi_pos.le
  have key : ∀ {legs : List (Leg ℝ)} {w : Walker ℝ} {time : ℝ}, Walking integ sort dT legs w time →
      Everywhere (fun w _ => NonNeg w.left ∧ NonNeg w.right) legs w time → DcmFine sort dT w time →
      LeftRight (firstWalk legs w).left (firstWalk legs w).right → 0 < dT ∧ ∃ c v : ℝ → Vec2 ℝ, SmoothCurve c v ∧
        ∀ (j : Nat) (s : DcmSample ℝ), (dcmOf w)[j]? = some s → s.pos = c ((j : ℝ) * dT) ∧ s.vel = v ((j : ℝ) * dT) := by
    intro legs w time h ht hf hn
    obtain ⟨p, d, o, ordered, t, -, -, e, hv, -, hw, hroom, ho, -⟩ := dcm_made hsort h (names_everywhere hpi h ht hn) hf
    obtain ⟨c, v, c1, c2, c3, -, c5, -⟩ := Dcm.C47_curve hw hv ho
    obtain ⟨_, _, _, hr⟩ := timeline_ok hw.made
    exact ⟨hr.dT_pos, c, v, ⟨fun τ => (c1 τ).1, fun τ => (c1 τ).2, c2, c3⟩, fun j s hs => c5 hroom j s (by rw [← e]; exact hs)⟩
  induction h with
  | start hr hg hd => simpa [executed] using (key (.start hr hg hd) htimes hfine.2 hnames).2
  | @again legs before old new cl k m q hw hd hm ih =>
    obtain ⟨t1, t2⟩ := everywhere_snoc htimes
    obtain ⟨f1, f2⟩ := everywhere_snoc hfine
    have hn : LeftRight (firstWalk legs old).left (firstWalk legs old).right := by cases legs <;> simpa [firstWalk] using hnames
    obtain ⟨c, v, h1, h2⟩ := ih t1 f1 hn
    have hw' := Walking.again hw hd hm
    obtain ⟨hdT, c', v', h3, h4⟩ := key hw' htimes f2 hnames
    obtain ⟨p, e1, hv, g1⟩ := f1.2
    change old.dcm = some p at e1
    obtain ⟨p', e2, -, g2⟩ := f2
    obtain ⟨o, o', a, b, r1, r2, s1, s2, j1, j2⟩ := C88_dcm hpi (by simp) hsort hm t1.2.1 t1.2.2 (fun _ _ ht => (g2 _ _ ht).1)
      (names_everywhere hpi hw t1 hn) (by intro q hq; rw [e1] at hq; cases hq; exact hv) p p' e1 e2
    have d1 : dcmOf old = o.samples := by simp [dcmOf, e1, r1]
    have d2 : dcmOf new = o'.samples := by simp [dcmOf, e2, r2]
    set pre := legs.flatMap fun l => (dcmOf l.walk).take l.count with hpre
    have hm' : m < (dcmOf old).length := by rw [d1]; exact (List.getElem?_eq_some_iff.mp s1).1
    obtain ⟨k1, k2⟩ := h2 (pre.length + m) a (by
      rw [executed, ← hpre, List.getElem?_append_right (by omega), Nat.add_sub_cancel_left, d1]
      exact s1)
    obtain ⟨k3, k4⟩ := h4 0 b (by rw [d2]; exact s2)
    simp only [Nat.cast_zero, zero_mul] at k3 k4
    refine ⟨_, _, SmoothCurve.glue h1 h3 (((pre.length + m : Nat) : ℝ) * dT) (by rw [← k1, ← k3, j1]) (by rw [← k2, ← k4, j2]), fun j s hs => ?_⟩
    rw [executed_snoc] at hs
    have hlen : (pre ++ (dcmOf old).take m).length = pre.length + m := by simp; omega
    by_cases hj : j < pre.length + m
    · rw [List.getElem?_append_left (by rw [hlen]; exact hj)] at hs
      have hle : (j : ℝ) * dT ≤ ((pre.length + m : Nat) : ℝ) * dT := mul_le_mul_of_nonneg_right (by exact_mod_cast hj.le) hdT.le
      simp only [if_pos hle]
      refine h2 j s ?_
      rw [executed]
      by_cases hj' : j < pre.length
      · rw [List.getElem?_append_left hj'] at hs ⊢; exact hs
      · rw [List.getElem?_append_right (not_lt.mp hj')] at hs ⊢
        rw [List.getElem?_take] at hs
        split_ifs at hs
        exact hs
    · rw [List.getElem?_append_right (by rw [hlen]; omega), hlen] at hs
      obtain ⟨x, y⟩ := h4 _ s hs
      have hcast : ((j - (pre.length + m) : Nat) : ℝ) * dT = (j : ℝ) * dT - ((pre.length + m : Nat) : ℝ) * dT := by
        rw [Nat.cast_sub (by omega)]; ring
      rw [hcast] at x y
      rcases (not_lt.mp hj).eq_or_lt with he | hlt
      · rw [← he] at x y ⊢
        simp only [sub_self] at x y
        simp only [le_refl, if_true]
        exact ⟨by rw [x, ← k1, ← k3, j1], by rw [y, ← k2, ← k4, j2]⟩
      · have hnle : ¬ (j : ℝ) * dT ≤ ((pre.length + m : Nat) : ℝ) * dT :=
          not_le.mpr (mul_lt_mul_of_pos_right (by exact_mod_cast hlt) hdT)
        simp only [if_neg hnle]
        exact ⟨x, y⟩

end Uni.Walker
