/-
The Jacobian of a map between vectors of local unknowns.
-/
import Mathlib.Analysis.Calculus.Deriv.Basic
import Mathlib.Analysis.Calculus.Deriv.Slope
import Mathlib.Data.Matrix.Mul

namespace Pansfem

open Matrix

/-- `A` is the Jacobian at `z` of a map between vectors of local unknowns: in every direction the
derivative is given by `A`. -/
def IsJacobian {ι : Type} [Fintype ι] (F : (ι → ℝ) → ι → ℝ) (z : ι → ℝ) (A : Matrix ι ι ℝ) : Prop :=
  ∀ w, HasDerivAt (fun s : ℝ => F (z + s • w)) (A *ᵥ w) 0

theorem IsJacobian.unique {ι : Type} [Fintype ι] {F : (ι → ℝ) → ι → ℝ} {z : ι → ℝ} {A B : Matrix ι ι ℝ}
    (hA : IsJacobian F z A) (hB : IsJacobian F z B) : ∀ w, A *ᵥ w = B *ᵥ w :=
  fun w => (hA w).unique (hB w)

/-- A map with a first-order expansion. -/
theorem hasDerivAt_of_expansion {E : Type} [NormedAddCommGroup E] [NormedSpace ℝ E] {f r : ℝ → E}
    {a b : E} (hr : ContinuousAt r 0) (h : ∀ᶠ s in nhds (0 : ℝ), f s = a + s • b + s ^ 2 • r s) :
    HasDerivAt f b 0 := by
  have h0 : f 0 = a := by simpa using h.self_of_nhds
  rw [hasDerivAt_iff_tendsto_slope_zero]
  have e : ∀ᶠ t in nhdsWithin (0 : ℝ) {0}ᶜ, b + t • r t = t⁻¹ • (f (0 + t) - f 0) := by
    filter_upwards [h.filter_mono nhdsWithin_le_nhds, self_mem_nhdsWithin] with t ht hne
    have hne : t ≠ 0 := hne
    rw [zero_add, h0, ht, add_assoc, add_sub_cancel_left, smul_add, smul_smul, smul_smul,
      inv_mul_cancel₀ hne, one_smul, pow_two, ← mul_assoc, inv_mul_cancel₀ hne, one_mul]
  refine Filter.Tendsto.congr' e ?_
  have : Filter.Tendsto (fun t : ℝ => b + t • r t) (nhds 0) (nhds (b + (0 : ℝ) • r 0)) :=
    tendsto_const_nhds.add (Filter.Tendsto.smul Filter.tendsto_id hr)
  rw [zero_smul, add_zero] at this
  exact this.mono_left nhdsWithin_le_nhds

end Pansfem
