/-
Derivatives of the determinant and of the inverse along a line of matrices.
-/
import Verif.Spec.Jacobian
import Mathlib.LinearAlgebra.Matrix.Charpoly.Coeff
import Mathlib.LinearAlgebra.Matrix.NonsingularInverse
import Mathlib.Topology.Instances.Matrix
import Mathlib.Topology.Algebra.Polynomial
import Mathlib.Analysis.SpecialFunctions.Log.Deriv
import Mathlib.Analysis.Calculus.Deriv.Pi

namespace Pansfem

open Matrix

variable {d : ℕ} (F V : Matrix (Fin d) (Fin d) ℝ)

theorem continuous_line : Continuous fun s : ℝ => F + s • V := by fun_prop

theorem eventually_det_ne (h : F.det ≠ 0) : ∀ᶠ s in nhds (0 : ℝ), (F + s • V).det ≠ 0 := by
  have hc : ContinuousAt (fun s : ℝ => (F + s • V).det) 0 := (continuous_line F V).matrix_det.continuousAt
  refine hc.eventually_ne ?_
  simpa using h

theorem eventually_det_pos (h : 0 < F.det) : ∀ᶠ s in nhds (0 : ℝ), 0 < (F + s • V).det := by
  have hc : ContinuousAt (fun s : ℝ => (F + s • V).det) 0 := (continuous_line F V).matrix_det.continuousAt
  refine hc.eventually (lt_mem_nhds ?_)
  simpa using h

theorem hasDerivAt_det (h : F.det ≠ 0) :
    HasDerivAt (fun s : ℝ => (F + s • V).det) (F.det * trace (F⁻¹ * V)) 0 := by
  refine hasDerivAt_of_expansion (a := F.det)
    (r := fun s => F.det * (det (1 + (Polynomial.X : Polynomial ℝ) •
      (F⁻¹ * V).map Polynomial.C)).divX.divX.eval s) ?_ (Filter.Eventually.of_forall fun s => ?_)
  · exact (continuous_const.mul (Polynomial.continuous _)).continuousAt
  · have e : F + s • V = F * (1 + s • (F⁻¹ * V)) := by
      rw [Matrix.mul_add, Matrix.mul_one, Matrix.mul_smul, ← Matrix.mul_assoc,
        Matrix.mul_nonsing_inv _ (Ne.isUnit h), Matrix.one_mul]
    rw [e, det_mul, det_one_add_smul, smul_eq_mul, smul_eq_mul]
    ring

theorem hasDerivAt_log_det (h : F.det ≠ 0) :
    HasDerivAt (fun s : ℝ => Real.log (F + s • V).det) (trace (F⁻¹ * V)) 0 := by
  have h0 : (F + (0 : ℝ) • V).det = F.det := by simp
  have := (hasDerivAt_det F V h).log (by rw [h0]; exact h)
  rwa [h0, mul_div_cancel_left₀ _ h] at this

theorem inv_line {s : ℝ} (h : F.det ≠ 0) (hs : (F + s • V).det ≠ 0) :
    (F + s • V)⁻¹ = F⁻¹ + s • -(F⁻¹ * V * F⁻¹) + s ^ 2 • (F⁻¹ * V * (F⁻¹ * V) * (F + s • V)⁻¹) := by
  have e1 : (F + s • V)⁻¹ = F⁻¹ - s • (F⁻¹ * V * (F + s • V)⁻¹) := by
    have h1 : F⁻¹ * ((F + s • V) * (F + s • V)⁻¹) = F⁻¹ := by
      rw [Matrix.mul_nonsing_inv _ (Ne.isUnit hs), Matrix.mul_one]
    rw [Matrix.add_mul, Matrix.mul_add, ← Matrix.mul_assoc, Matrix.nonsing_inv_mul _ (Ne.isUnit h),
      Matrix.one_mul, Matrix.smul_mul, Matrix.mul_smul, ← Matrix.mul_assoc] at h1
    exact eq_sub_of_add_eq h1
  conv_lhs => rw [e1, e1]
  rw [Matrix.mul_sub, Matrix.mul_smul, smul_sub, smul_smul, ← pow_two, smul_neg, Matrix.mul_assoc (F⁻¹ * V)
    (F⁻¹ * V)]
  abel

theorem hasDerivAt_inv_apply (h : F.det ≠ 0) (k a : Fin d) :
    HasDerivAt (fun s : ℝ => (F + s • V)⁻¹ k a) ((-(F⁻¹ * V * F⁻¹)) k a) 0 := by
  refine hasDerivAt_of_expansion (a := F⁻¹ k a)
    (r := fun s => (F⁻¹ * V * (F⁻¹ * V) * (F + s • V)⁻¹) k a) ?_ ?_
  · have h1 : ContinuousAt (fun s : ℝ => (F + s • V)⁻¹) 0 := by
      refine ContinuousAt.comp (f := fun s : ℝ => F + s • V) (g := Inv.inv) ?_
        (continuous_line F V).continuousAt
      refine continuousAt_matrix_inv _ ?_
      rw [Ring.inverse_eq_inv']
      exact continuousAt_inv₀ (by simpa using h)
    have h2 : Continuous fun M : Matrix (Fin d) (Fin d) ℝ => (F⁻¹ * V * (F⁻¹ * V) * M) k a := by
      fun_prop
    exact h2.continuousAt.comp h1
  · filter_upwards [eventually_det_ne F V h] with s hs
    conv_lhs => rw [inv_line F V h hs]
    rfl

end Pansfem
