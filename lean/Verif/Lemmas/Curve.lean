import Verif.Spec.Curve
import Verif.Props.DCMReal
import Verif.Props.Executed

/-! # The DCM over everything that is executed, for `Verif.Props.Curve` -/

set_option autoImplicit false
set_option linter.unusedSectionVars false

namespace Uni.Walker
open Spec Gen

/-- Two curves that meet make one curve. -/
theorem SmoothCurve.glue {c v c' v' : ℝ → Vec2 ℝ} (h : SmoothCurve c v) (h' : SmoothCurve c' v') (T : ℝ) (hc : c T = c' 0) (hv : v T = v' 0) :
    SmoothCurve (fun τ => if τ ≤ T then c τ else c' (τ - T)) (fun τ => if τ ≤ T then v τ else v' (τ - T)) := by
  have s : ∀ {f g : ℝ → ℝ}, (∀ τ, HasDerivAt f (g τ) τ) → ∀ τ, HasDerivAt (fun τ => f (τ - T)) (g (τ - T)) τ := fun hf τ =>
    HasDerivAt.comp_sub_const τ T (hf (τ - T))
  have jx := hasDerivAt_join (t1 := T) h.x (s h'.x) (by simp [hc]) (by simp [hv])
  have jy := hasDerivAt_join (t1 := T) h.y (s h'.y) (by simp [hc]) (by simp [hv])
  refine ⟨fun τ => ?_, fun τ => ?_, ?_, ?_⟩
  · refine ((jx τ).congr_deriv (by split_ifs <;> rfl)).congr_of_eventuallyEq (Filter.Eventually.of_forall fun τ => ?_)
    simp only; split_ifs <;> rfl
  · refine ((jy τ).congr_deriv (by split_ifs <;> rfl)).congr_of_eventuallyEq (Filter.Eventually.of_forall fun τ => ?_)
    simp only; split_ifs <;> rfl
  · have := Continuous.if_le h.vx (h'.vx.comp (continuous_id.sub continuous_const : Continuous fun τ : ℝ => id τ - T)) continuous_id
      continuous_const (fun x (hx : x = T) => by simp [hx, hv])
    refine this.congr fun τ => ?_
    simp only [id, Function.comp]; split_ifs <;> rfl
  · have := Continuous.if_le h.vy (h'.vy.comp (continuous_id.sub continuous_const : Continuous fun τ : ℝ => id τ - T)) continuous_id
      continuous_const (fun x (hx : x = T) => by simp [hx, hv])
    refine this.congr fun τ => ?_
    simp only [id, Function.comp]; split_ifs <;> rfl

section
variable {K : Type} [Field K] [LinearOrder K] [IsStrictOrderedRing K] [FloorRing K] [Trig K]
variable {integ : Integrator K} {sort : Sorter K} {w : Walker K} {dT time : K} {legs : List (Leg K)}

/-- The names of the feet never change. -/
theorem names_everywhere (hpi : (0 : K) ≤ Trig.pi) (h : Walking integ sort dT legs w time)
    (htimes : Everywhere (fun w _ => NonNeg w.left ∧ NonNeg w.right) legs w time)
    (hn : LeftRight (firstWalk legs w).left (firstWalk legs w).right) : LeftRight w.left w.right := by
  induction h with
  | start => exact hn
  | @again legs before old new c k m q hw hd hm ih =>
    obtain ⟨t1, t2⟩ := everywhere_snoc htimes
    have i := ih t1 (by cases legs <;> simpa [firstWalk] using hn)
    obtain ⟨_, _, _, w3, _, t', _, _, _, _, _, _, _, _, hm3, _, _, parts⟩ := parts hpi hm t1.2.1 t1.2.2
    exact ⟨parts.leftNamed.2.trans i.left_name, parts.rightNamed.2.trans i.right_name, parts.leftNamed.1, parts.rightNamed.1⟩

/-- What is known of the trajectory of the DCM of a walk. -/
theorem dcm_made (hsort : ∀ l r, SortedPtrs l r (sort l r)) (h : Walking integ sort dT legs w time) (hn : LeftRight w.left w.right)
    (hf : DcmFine sort dT w time) : ∃ p d o ordered t, w.dcm = some p ∧ p.result = some o ∧ dcmOf w = o.samples ∧ ValidDcm d ∧
      d.omega = p.state.omega ∧ Dcm.Walk w.cfg w.left w.right time dT (sort w.left w.right) ordered t ∧ Dcm.HasRoom w.cfg d dT t ∧
      Dcm.Done d w.cfg w.left w.right time dT ordered t p.state o ∧ (supportsOf w).length = t.left.length := by
  obtain ⟨p, hp, hv, hr⟩ := hf
  obtain ⟨w1, ordered, t, hreach, hm⟩ := walking_made h
  obtain ⟨p0, o, -, a2, a3⟩ := hm.dcm p hp
  obtain ⟨g1, g2⟩ := hr _ _ hm.made
  obtain ⟨l, r, init, -, -, -, -, e⟩ := Dcm.compute_inv a3
  have eω : p.state.omega = p0.state.omega := by rw [e]; rfl
  have es : p.state.stillness = p0.state.stillness := by rw [e]; rfl
  have hlen := hm.outputs
  obtain ⟨l0, r0, tt, hrun⟩ := timeline_ok hm.made
  refine ⟨p, p0.state, o, ordered, t, hp, a2, ?_, ⟨eω ▸ hv.1, es ▸ hv.2, es ▸ hv.3⟩, eω.symm, ⟨hreach.valid, hsort _ _, hm.made, g1, hn⟩,
    fun a b ha hb => es ▸ g2 a b ha hb, a3, ?_⟩
  · simp [dcmOf, hp, a2]
  · simp only [supportsOf, hm.outputs, contacts, List.length_zip, List.length_map, ← (C34_partition hm.made).1]
    omega

theorem omega_everywhere (hpi : (0 : K) ≤ Trig.pi) (h : Walking integ sort dT legs w time)
    (htimes : Everywhere (fun w _ => NonNeg w.left ∧ NonNeg w.right) legs w time) {p p' : Plugin (Dcm K) (DcmOut K)}
    (hp : (firstWalk legs w).dcm = some p) (hp' : w.dcm = some p') : p'.state.omega = p.state.omega := by
  induction h generalizing p' with
  | start => exact congrArg (fun p => p.state.omega) (Option.some.inj (hp'.symm.trans hp))
  | @again legs before old new c k m q hw hd hm ih =>
    obtain ⟨t1, t2⟩ := everywhere_snoc htimes
    obtain ⟨_, _, _, w3, _, t', _, _, _, _, _, _, _, _, hm3, _, _, parts⟩ := parts hpi hm t1.2.1 t1.2.2
    obtain ⟨p2, o, e, -, g⟩ := hm3.dcm p' hp'
    rw [parts.dcm] at e
    cases hold : old.dcm with
    | none => rw [hold] at e; cases e
    | some p1 =>
      rw [hold] at e
      cases e
      obtain ⟨l, r, init, -, -, -, -, e⟩ := Dcm.compute_inv g
      have i := ih t1 (by cases legs <;> simpa [firstWalk] using hp) hold
      rw [e, ← i]; rfl

end

end Uni.Walker
