import Verif.Lemmas.ZMPSteps
import Verif.Lemmas.Kinematic

/-! # Derivatives of the ZMP -/

set_option autoImplicit false
set_option linter.unusedSectionVars false

namespace Uni
open Spec Gen
namespace Zmp

/-- A motion whose velocity is the derivative of its position, and whose acceleration is the derivative of its velocity from the
right. -/
def Steady (c : ℝ → Motion ℝ) : Prop :=
  ∀ t, HasDerivAt (fun t => (c t).pos) (c t).vel t ∧ HasDerivWithinAt (fun t => (c t).vel) (c t).acc (Set.Ici t) t

theorem Steady.of_smooth {c : ℝ → Motion ℝ} (h : ∀ t, Smooth c t) : Steady c := fun t => ⟨(h t).pos, (h t).vel.hasDerivWithinAt⟩

theorem steady_const (m : ℝ) : Steady (fun _ => ⟨m, 0, 0⟩) := fun t => ⟨hasDerivAt_const t m, hasDerivWithinAt_const t _ 0⟩

theorem steady_hermite (y0 v0 y1 v1 T : ℝ) : Steady (fun t => hermite y0 v0 y1 v1 T t) :=
  Steady.of_smooth fun t => hermite_smooth y0 v0 y1 v1 T t

theorem smooth_const (m : ℝ) (t : ℝ) : Smooth (fun _ => ⟨m, 0, 0⟩) t := ⟨hasDerivAt_const t m, hasDerivAt_const t 0⟩

/-- A transfer that ends at rest, followed by rest. -/
theorem steady_then_still (y0 y1 T : ℝ) (hT : 0 < T) :
    Steady (fun t => if t < T then hermite y0 0 y1 0 T t else ⟨y1, 0, 0⟩) := by
  have e : (fun t => if t < T then hermite y0 0 y1 0 T t else ⟨y1, 0, 0⟩) =
      (fun t => if t ≤ T then (⟨(hermite y0 0 y1 0 T t).pos, (hermite y0 0 y1 0 T t).vel, if t < T then (hermite y0 0 y1 0 T t).acc else 0⟩ : Motion ℝ)
        else ⟨y1, 0, 0⟩) := by
    funext t
    rcases lt_trichotomy t T with h | h | h
    · rw [if_pos h, if_pos h.le, if_pos h]
    · subst h
      have := hermite_end y0 0 y1 0 hT.ne'
      rw [if_neg (lt_irrefl _), if_pos (le_refl _), this.1, this.2, if_neg (lt_irrefl _)]
    · rw [if_neg h.le.not_gt, if_neg (not_le.mpr h)]
  intro t
  refine ⟨?_, ?_⟩
  rotate_left
  · rcases lt_or_ge t T with h | h
    · simp only [if_pos h]
      have : (fun t => (if t < T then hermite y0 0 y1 0 T t else ⟨y1, 0, 0⟩ : Motion ℝ).vel) =ᶠ[nhds t] fun t => (hermite y0 0 y1 0 T t).vel := by
        filter_upwards [Iio_mem_nhds h] with x hx
        rw [if_pos (Set.mem_Iio.mp hx)]
      exact ((hermite_smooth y0 0 y1 0 T t).vel.congr_of_eventuallyEq this).hasDerivWithinAt
    · simp only [if_neg h.not_gt]
      refine (hasDerivWithinAt_const t (Set.Ici t) (0 : ℝ)).congr (fun x hx => ?_) ?_
      · rw [if_neg (not_lt.mpr (h.trans hx))]
      · rw [if_neg h.not_gt]
  rw [e]
  have h1 := hasDerivAt_join (f := fun t => (hermite y0 0 y1 0 T t).pos) (f' := fun t => (hermite y0 0 y1 0 T t).vel)
    (g := fun _ => y1) (g' := fun _ => 0) (t1 := T) (fun t => (hermite_smooth y0 0 y1 0 T t).pos) (fun t => hasDerivAt_const t y1)
    (hermite_end y0 0 y1 0 hT.ne').1 (hermite_end y0 0 y1 0 hT.ne').2 t
  have e1 : (fun t => (if t ≤ T then (⟨(hermite y0 0 y1 0 T t).pos, (hermite y0 0 y1 0 T t).vel, if t < T then (hermite y0 0 y1 0 T t).acc else 0⟩ : Motion ℝ)
        else ⟨y1, 0, 0⟩).pos) = fun t => if t ≤ T then (hermite y0 0 y1 0 T t).pos else y1 := by
    funext t; split_ifs <;> rfl
  have e2 : (if t ≤ T then (⟨(hermite y0 0 y1 0 T t).pos, (hermite y0 0 y1 0 T t).vel, if t < T then (hermite y0 0 y1 0 T t).acc else 0⟩ : Motion ℝ)
        else ⟨y1, 0, 0⟩).vel = if t ≤ T then (hermite y0 0 y1 0 T t).vel else 0 := by
    split_ifs <;> rfl
  rw [e1, e2]
  exact h1

/-- The reported velocity of the ZMP after the first phase is not the derivative of the position, and the reported acceleration is
not the one of the velocity: the positions of the feet are added to the velocities and to the accelerations. -/
theorem worldAfter_deriv {wl wr xl yl xr yr : ℝ → Motion ℝ} (h1 : Steady wl) (h2 : Steady wr) (h3 : Steady xl) (h4 : Steady yl)
    (h5 : Steady xr) (h6 : Steady yr) (sl sr : Step ℝ) (t : ℝ) :
    let c := fun t => worldAfter (wl t) (wr t) sl sr (xl t, yl t) (xr t, yr t)
    (HasDerivAt (fun t => (c t).pos.x) ((c t).vel.x - ((wl t).pos * sl.position.x + (wr t).pos * sr.position.x)) t ∧
    HasDerivAt (fun t => (c t).pos.y) ((c t).vel.y - ((wl t).pos * sl.position.y + (wr t).pos * sr.position.y)) t) ∧
    HasDerivWithinAt (fun t => (c t).vel.x) ((c t).acc.x - (((wl t).pos + (wl t).vel) * sl.position.x +
      ((wr t).pos + (wr t).vel) * sr.position.x)) (Set.Ici t) t ∧
    HasDerivWithinAt (fun t => (c t).vel.y) ((c t).acc.y - (((wl t).pos + (wl t).vel) * sl.position.y +
      ((wr t).pos + (wr t).vel) * sr.position.y)) (Set.Ici t) t := by
  obtain ⟨a1, b1⟩ := h1 t
  obtain ⟨a2, b2⟩ := h2 t
  obtain ⟨a3, b3⟩ := h3 t
  obtain ⟨a4, b4⟩ := h4 t
  obtain ⟨a5, b5⟩ := h5 t
  obtain ⟨a6, b6⟩ := h6 t
  have c1 := a1.hasDerivWithinAt (s := Set.Ici t)
  have c2 := a2.hasDerivWithinAt (s := Set.Ici t)
  have c3 := a3.hasDerivWithinAt (s := Set.Ici t)
  have c4 := a4.hasDerivWithinAt (s := Set.Ici t)
  have c5 := a5.hasDerivWithinAt (s := Set.Ici t)
  have c6 := a6.hasDerivWithinAt (s := Set.Ici t)
  simp only [worldAfter, toWorld, mpos, mvel, macc, rot, Vec2.add_x, Vec2.add_y, Vec2.smul_x, Vec2.smul_y, cos_real, sin_real]
  refine ⟨⟨?_, ?_⟩, ?_, ?_⟩
  · refine ((a1.fun_mul (((a3.const_mul _).fun_sub (a4.const_mul _)).const_add _)).fun_add
      (a2.fun_mul (((a5.const_mul _).fun_sub (a6.const_mul _)).const_add _))).congr_deriv ?_
    ring
  · refine ((a1.fun_mul (((a3.const_mul _).fun_add (a4.const_mul _)).const_add _)).fun_add
      (a2.fun_mul (((a5.const_mul _).fun_add (a6.const_mul _)).const_add _))).congr_deriv ?_
    ring
  · refine ((((b1.fun_mul (((c3.const_mul _).fun_sub (c4.const_mul _)).const_add _)).fun_add
      (c1.fun_mul (((b3.const_mul _).fun_sub (b4.const_mul _)).const_add _))).fun_add
      (b2.fun_mul (((c5.const_mul _).fun_sub (c6.const_mul _)).const_add _))).fun_add
      (c2.fun_mul (((b5.const_mul _).fun_sub (b6.const_mul _)).const_add _))).congr_deriv ?_
    ring
  · refine ((((b1.fun_mul (((c3.const_mul _).fun_add (c4.const_mul _)).const_add _)).fun_add
      (c1.fun_mul (((b3.const_mul _).fun_add (b4.const_mul _)).const_add _))).fun_add
      (b2.fun_mul (((c5.const_mul _).fun_add (c6.const_mul _)).const_add _))).fun_add
      (c2.fun_mul (((b5.const_mul _).fun_add (b6.const_mul _)).const_add _))).congr_deriv ?_
    ring

/-- In the first phase, where the ZMP does not move in the frame of the feet, velocity and acceleration are right. -/
theorem worldFirst_deriv {k wl wr : ℝ → Motion ℝ} (h0 : ∀ t, Smooth k t) (h1 : ∀ t, Smooth wl t) (h2 : ∀ t, Smooth wr t)
    (sl sr ol or : Step ℝ) (zl zr : Motion2 ℝ) (t : ℝ) :
    let c := fun t => worldFirst (k t) (wl t) (wr t) sl sr ol or zl zr
    (HasDerivAt (fun t => (c t).pos.x) (c t).vel.x t ∧ HasDerivAt (fun t => (c t).pos.y) (c t).vel.y t) ∧
    (HasDerivAt (fun t => (c t).vel.x) (c t).acc.x t ∧ HasDerivAt (fun t => (c t).vel.y) (c t).acc.y t) := by
  obtain ⟨a0, b0⟩ := h0 t
  obtain ⟨a1, b1⟩ := h1 t
  obtain ⟨a2, b2⟩ := h2 t
  simp only [worldFirst, Vec2.add_x, Vec2.add_y, Vec2.smul_x, Vec2.smul_y, Vec2.sub_x, Vec2.sub_y]
  refine ⟨⟨?_, ?_⟩, ?_, ?_⟩
  · refine ((a1.fun_mul ((a0.mul_const _).const_add _)).fun_add (a2.fun_mul ((a0.mul_const _).const_add _))).congr_deriv ?_
    ring
  · refine ((a1.fun_mul ((a0.mul_const _).const_add _)).fun_add (a2.fun_mul ((a0.mul_const _).const_add _))).congr_deriv ?_
    ring
  · refine ((((b1.fun_mul ((a0.mul_const _).const_add _)).fun_add ((a1.fun_mul b0).mul_const _)).fun_add
      (b2.fun_mul ((a0.mul_const _).const_add _))).fun_add ((a2.fun_mul b0).mul_const _)).congr_deriv ?_
    ring
  · refine ((((b1.fun_mul ((a0.mul_const _).const_add _)).fun_add ((a1.fun_mul b0).mul_const _)).fun_add
      (b2.fun_mul ((a0.mul_const _).const_add _))).fun_add ((a2.fun_mul b0).mul_const _)).congr_deriv ?_
    ring

/-- The weight in a phase without a pause. -/
theorem weightBody_curve {c : ZmpTimes ℝ} {init : Motion ℝ} {phases : List Phase} {dT : ℝ} {k : Nat} {b : Bool} {p : Phase}
    {i j : Nat} {s s' : Unit} {l : List (Motion ℝ)} (hd : 0 < dT) (he : 0 ≤ c.endSwitch) (hn : 0 ≤ c.nominalSwitch)
    (hp : c.pauses dT (j - i) = false) (h : weightBody c init phases dT k b p i j s = .ok (s', l))
    (hph : ∀ m, i ≤ m → m < j → phases[m]? = some p) (hij : i < j) :
    ∃ f : ℝ → Motion ℝ, (∀ t, Smooth f t) ∧ ∀ m, m < j - i → l[m]? = some (f ((m : ℝ) * dT)) := by
  by_cases hs : p = .stance ∨ p = .swing
  · exact ⟨_, fun t => smooth_const (if p = .stance then 1 else 0) t, fun m hm => weightBody_single h hs hph m hm⟩
  · have hdd : p = .switchIn ∨ p = .switchOut := by cases p <;> simp_all
    exact ⟨_, fun t => hermite_smooth _ _ _ _ _ t, fun m hm => (weightBody_double hd he hn h hdd hph hij m hm).1 hp⟩

/-- The ZMP in the frame of a foot in a phase. -/
theorem localBody_curve {c : ZmpTimes ℝ} {stance switch : Vec2 ℝ} {dT : ℝ} {k : Nat} {b : Bool} {p : Phase}
    {i j : Nat} {s s' : Unit} {l : List (Motion2 ℝ)} (hd : 0 < dT)
    (h : localBody c stance switch dT k b p i j s = .ok (s', l)) (hij : i < j) :
    ∃ x y : ℝ → Motion ℝ, Steady x ∧ Steady y ∧ ∀ m, m < j - i → l[m]? = some (x ((m : ℝ) * dT), y ((m : ℝ) * dT)) := by
  have key := fun m hm => localBody_at (m := m) hd h hm
  by_cases h1 : p = .swing ∨ p = .switchIn ∨ (p = .switchOut ∧ k = 1)
  · exact ⟨_, _, steady_const stance.x, steady_const stance.y, fun m hm => (key m hm).1 h1⟩
  by_cases h2 : p = .stance
  · exact ⟨_, _, steady_hermite _ _ _ _ _, steady_hermite _ _ _ _ _, fun m hm => (key m hm).2.1 h2⟩
  have h3 : p = .switchOut ∧ k ≠ 1 := by cases p <;> simp_all
  have hT := ((key 0 (by omega)).2.2 h3.1 h3.2).1
  refine ⟨_, _, steady_then_still switch.x stance.x _ hT, steady_then_still switch.y stance.y _ hT, fun m hm => ?_⟩
  obtain ⟨-, k1, k2⟩ := (key m hm).2.2 h3.1 h3.2
  by_cases hlt : (m : ℝ) * dT < backTime c dT b (j - i)
  · simp only [if_pos hlt]; exact k1 hlt
  · simp only [if_neg hlt]; exact k2 (not_lt.mp hlt)

end Zmp
end Uni
