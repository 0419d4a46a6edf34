import Verif.Spec.Walker
import Verif.Props.ZMP
import Verif.Props.DCM
import Verif.Props.CubicFeet
import Verif.Props.CoMHeight
import Verif.Props.Accept

/-! # Lengths of the trajectories -/

set_option autoImplicit false
set_option linter.unusedSectionVars false

namespace Uni
open Spec Gen
variable {K : Type} [Field K] [LinearOrder K] [IsStrictOrderedRing K] [FloorRing K] [Trig K]
variable {cfg : GenSettings K} {left right : FootPrint K} {initTime dT : K} {sorted ordered : List (Ptr K)} {t : Timing K}

theorem footBody_length {swing : Step K → Step K → Nat → Out (List (FootSample K))}
    (hsw : ∀ s s' n l, swing s s' n = .ok l → l.length = n) (k : Nat) (b : Bool) (p : Phase) (i j : Nat) (s s' : List (Step K))
    (l : List (FootSample K)) (h : footBody swing k b p i j s = .ok (s', l)) : l.length = j - i := by
  unfold footBody at h
  split at h
  · cases h
  · split_ifs at h
    · split at h
      · cases h
      · rw [Out.bind_eq_ok] at h
        obtain ⟨a, ha, h⟩ := h
        cases h
        exact hsw _ _ _ _ ha
    · cases h; simp

theorem foot_length (h : timeline cfg left right initTime dT sorted = .ok (ordered, t))
    {swing : Step K → Step K → Nat → Out (List (FootSample K))} (hsw : ∀ s s' n l, swing s s' n = .ok l → l.length = n)
    {phases : List Phase} (hph : phases = t.left ∨ phases = t.right) {steps : List (Step K)} {r : List (Step K) × List (FootSample K)}
    (hr : overPhases (footBody swing) phases t.shifts steps = .ok r) : r.2.length = t.left.length :=
  (overPhases_at (s' := r.1) (out := r.2) h (footBody_length hsw) hph hr).1

theorem MinJerk.lengths {c : FeetSettings K} (h : timeline cfg left right initTime dT sorted = .ok (ordered, t)) (h0 : 0 < c.swingApex)
    (h1 : c.swingApex < 1) {o : FeetOut K} (ho : computeNewTrajectories c dT left right t.left t.right t.shifts = .ok o) :
    o.1.length = t.left.length ∧ o.2.length = t.left.length := by
  obtain ⟨_, _, _, hr⟩ := timeline_ok h
  have hsw : ∀ s s' n l, swing c dT s s' n = .ok l → l.length = n := by
    intro s s' n l hl
    obtain ⟨l', h1, h2⟩ := swing_total hr.dT_pos h0 h1 s s' n
    rw [hl] at h1
    cases h1
    exact h2
  unfold computeNewTrajectories interpolateFoot at ho
  by_cases hh : c.stepHeight < 0
  · rw [if_pos hh] at ho; cases ho
  rw [if_neg hh, if_neg hh] at ho
  rw [Out.bind_eq_ok] at ho
  obtain ⟨a, ha, ho⟩ := ho
  rw [Out.bind_eq_ok] at ho ha
  obtain ⟨b, hb, ho⟩ := ho
  obtain ⟨a', ha', ha⟩ := ha
  rw [Out.bind_eq_ok] at hb
  obtain ⟨b', hb', hb⟩ := hb
  cases ha; cases hb; cases ho
  exact ⟨foot_length h hsw (Or.inl rfl) ha', foot_length h hsw (Or.inr rfl) hb'⟩

theorem CubicFeet.lengths {c : FeetSettings K} {z0 : K} (h : timeline cfg left right initTime dT sorted = .ok (ordered, t))
    {o : FeetOut K} (ho : computeNewTrajectories c z0 dT left right t.left t.right t.shifts = .ok o) :
    o.1.length = t.left.length ∧ o.2.length = t.left.length := by
  have hsw : ∀ s s' n l, swing c z0 dT s s' n = .ok l → l.length = n := by
    intro s s' n l hl
    unfold swing at hl
    simp only [Out.bind_eq_ok] at hl
    obtain ⟨_, -, _, -, _, -, _, -, _, -, hl⟩ := hl
    cases hl
    simp
  unfold computeNewTrajectories interpolateFoot at ho
  by_cases hh : c.stepHeight < 0
  · rw [if_pos hh] at ho; cases ho
  rw [if_neg hh, if_neg hh] at ho
  rw [Out.bind_eq_ok] at ho
  obtain ⟨a, ha, ho⟩ := ho
  rw [Out.bind_eq_ok] at ho ha
  obtain ⟨b, hb, ho⟩ := ho
  obtain ⟨a', ha', ha⟩ := ha
  rw [Out.bind_eq_ok] at hb
  obtain ⟨b', hb', hb⟩ := hb
  cases ha; cases hb; cases ho
  exact ⟨foot_length h hsw (Or.inl rfl) ha', foot_length h hsw (Or.inr rfl) hb'⟩

namespace Zmp

theorem worldFrom_length {ol or : Step K} {first : Nat} : ∀ {zl : List (Motion2 K)} {n : Nat} {zr wl wr sl sr} {out : List (ZmpSample K)},
    worldFrom ol or dT first n zl zr wl wr sl sr = .ok out → out.length = zl.length := by
  intro zl
  induction zl with
  | nil => intro n zr wl wr sl sr out h; simp only [worldFrom] at h; cases h; rfl
  | cons a zl ih =>
    intro n zr wl wr sl sr out h
    unfold worldFrom at h
    split at h
    · cases h; rename_i hh; cases hh
    · rename_i hh
      cases hh
      rw [Out.bind_eq_ok] at h
      obtain ⟨l, hl, h⟩ := h
      cases h
      simp [ih hl]
    · cases h

theorem localZmp_length (h : timeline cfg left right initTime dT sorted = .ok (ordered, t)) {c : ZmpTimes K} {a b : Vec2 K}
    {phases : List Phase} (hph : phases = t.left ∨ phases = t.right) {l : List (Motion2 K)}
    (hl : localZmp c a b dT phases t.shifts = .ok l) : l.length = t.left.length := by
  unfold localZmp at hl
  rw [Out.bind_eq_ok] at hl
  obtain ⟨r, hr, hl⟩ := hl
  cases hl
  exact (overPhases_at (s' := r.1) (out := r.2) h (localBody_length c a b dT) hph hr).1

theorem lengths {z z' : Zmp K} {o : ZmpOut K} (h : timeline cfg left right initTime dT sorted = .ok (ordered, t))
    (ho : z.computeNewTrajectories cfg initTime dT t.merges left right (ordered.map Ptr.step) t.left t.right t.shifts = .ok (z', o)) :
    o.weightL.length = t.left.length ∧ o.weightR.length = t.left.length ∧ o.localL.length = t.left.length ∧
      o.localR.length = t.left.length ∧ o.world.length = t.left.length := by
  obtain ⟨a, b, -⟩ := C44_single_support h ho
  obtain ⟨-, -, -, h1, h2, h3, -⟩ := compute_inv ho
  have hl := localZmp_length h (Or.inl rfl) h1
  refine ⟨a, b, hl, localZmp_length h (Or.inr rfl) h2, ?_⟩
  unfold world at h3
  split at h3
  · cases h3
  · split_ifs at h3
    simp only [Out.bind_eq_ok] at h3
    obtain ⟨_, -, _, -, _, -, _, -, h3⟩ := h3
    rw [worldFrom_length h3, hl]

end Zmp

namespace Dcm

theorem weightBody_length (d : Dcm K) (zmps : List (Vec2 K)) (k : Nat) (b : Bool) (p : Phase) (i j : Nat)
    (s s' : List (Step K) × List (Step K)) (l : List (K × K)) (h : d.weightBody zmps k b p i j s = .ok (s', l)) : l.length = j - i := by
  unfold weightBody at h
  simp only at h
  split at h
  · split at h <;> cases h; simp
  · split at h <;> cases h; simp
  all_goals
    split at h
    · split_ifs at h with hn
      cases h
      simp only [List.length_map]
      simp only [List.length_take, List.length_drop] at hn ⊢
      omega
    · cases h

theorem evaluate_length {d : Dcm K} : ∀ {n k : Nat} {tr : List (Piece K)} {l : List (DcmSample K)}, d.evaluate n k tr = .ok l → l.length = n := by
  intro n
  induction n with
  | zero => intro k tr l h; simp only [evaluate] at h; cases h; rfl
  | succ n ih =>
    intro k tr l h
    cases tr with
    | nil => simp only [evaluate] at h; cases h
    | cons p ps =>
      simp only [evaluate] at h
      split at h
      · cases h
      · simp only [Out.bind_eq_ok] at h
        obtain ⟨s, -, l', h2, h⟩ := h
        cases h
        simp [ih h2]

theorem lengths {d d' : Dcm K} {o : DcmOut K} (h : timeline cfg left right initTime dT sorted = .ok (ordered, t))
    (ho : d.computeNewTrajectories cfg initTime dT (ordered.map Ptr.step) t.shifts t.left left right = .ok (true, d', some o)) :
    o.samples.length = t.left.length ∧ o.weights.length = t.left.length := by
  obtain ⟨l, r, init, -, -, -, h4, -⟩ := compute_inv ho
  unfold generate at h4
  simp only [Out.bind_eq_ok] at h4
  obtain ⟨tr, -, n, hn, s, hs, w, hw, h4⟩ := h4
  cases h4
  obtain ⟨-, p2, p3, -⟩ := C34_partition h
  have e1 : t.shifts.getLastD 0 = t.left.length := by rw [List.getLastD_eq_getLast?, p2]; rfl
  have e2 : t.shifts.headD 0 = 0 := by rw [List.headD_eq_head?_getD, p3]; rfl
  rw [e1, e2] at hn
  have := subSize_ok hn
  refine ⟨by rw [evaluate_length hs]; omega, ?_⟩
  unfold feetWeights at hw
  rw [Out.bind_eq_ok] at hw
  obtain ⟨r', hr', hw⟩ := hw
  cases hw
  exact (overPhases_at (s' := r'.1) (out := r'.2) h (weightBody_length _ _) (Or.inl rfl) hr').1

end Dcm
end Uni
