import Verif.Spec.Feet
import Mathlib.Analysis.SpecialFunctions.Trigonometric.Deriv
import Mathlib.LinearAlgebra.Matrix.Notation
import Mathlib.Tactic.Ring
import Mathlib.Tactic.FinCases
import Mathlib.Tactic.LinearCombination

/-! # Derivatives of the pose of a foot -/

set_option autoImplicit false

namespace Uni
open Spec

/-- A motion whose velocity and acceleration are the derivatives of its position. -/
structure Smooth (c : ℝ → Motion ℝ) (t : ℝ) : Prop where
  pos : HasDerivAt (fun t => (c t).pos) (c t).vel t
  vel : HasDerivAt (fun t => (c t).vel) (c t).acc t

theorem kinematic_of {x y z p w : ℝ → Motion ℝ} {t : ℝ} (hx : Smooth x t) (hy : Smooth y t) (hz : Smooth z t)
    (hp : Smooth p t) (hw : Smooth w t) : Kinematic (fun t => sampleOf (x t) (y t) (z t) (p t) (w t)) t := by
  have sp := hp.pos.sin
  have cp := hp.pos.cos
  have sw := hw.pos.sin
  have cw := hw.pos.cos
  refine ⟨hx.pos, hy.pos, hz.pos, ?_, hx.vel, hy.vel, hz.vel, ?_, ?_, hw.vel⟩
  · intro i j
    fin_cases i <;> fin_cases j <;>
      simp only [attitude, skew, sampleOf, rightTrivialized, Matrix.mul_apply, Fin.sum_univ_three, Matrix.of_apply,
        Matrix.cons_val_zero, Matrix.cons_val_one, Matrix.cons_val, Fin.zero_eta, Fin.mk_one, Fin.reduceFinMk, sin_real, cos_real]
    · refine (cw.fun_mul cp).congr_deriv ?_; ring
    · refine sw.fun_neg.congr_deriv ?_; ring
    · refine (cw.fun_mul sp).congr_deriv ?_; ring
    · refine (sw.fun_mul cp).congr_deriv ?_; ring
    · refine cw.congr_deriv ?_; ring
    · refine (sw.fun_mul sp).congr_deriv ?_; ring
    · refine sp.fun_neg.congr_deriv ?_
      linear_combination (Real.cos (p t).pos * (p t).vel) * Real.sin_sq_add_cos_sq (w t).pos
    · refine (hasDerivAt_const t (0 : ℝ)).congr_deriv ?_; ring
    · refine cp.congr_deriv ?_
      linear_combination (Real.sin (p t).pos * (p t).vel) * Real.sin_sq_add_cos_sq (w t).pos
  · simp only [sampleOf, rightTrivialized, rightTrivializedRate, sin_real, cos_real]
    refine (sw.fun_neg.fun_mul hp.vel).congr_deriv ?_
    ring
  · simp only [sampleOf, rightTrivialized, rightTrivializedRate, sin_real, cos_real]
    refine (cw.fun_mul hp.vel).congr_deriv ?_
    ring

end Uni
