/-
Elements over the reals for the cases beside the theorems.
-/
import Verif.Lemmas.Elastic
import Mathlib.Data.Real.Basic

noncomputable section

namespace Pansfem

open Matrix

/-- The triangle of the examples over the reals. -/
def exTriR : Matrix (Fin 3) (Fin 2) ℝ := !![2, 0; 0, 1; 0, 0]

def exRuleR : IC ℝ 2 := ⟨1, ![![1 / 3, 1 / 3]], ![![1, 1 / 2]]⟩

theorem exTriR_det (r : Fin 2 → ℝ) : ((SF.triangle3 : SF ℝ 2 3).dNdr r * exTriR).det = 2 := by
  simp [Matrix.det_fin_two, SF.triangle3, exTriR]

theorem exTriR_regular : Regular (SF.triangle3 : SF ℝ 2 3) exRuleR exTriR := fun g => by
  rw [exTriR_det]; norm_num

theorem exTriR_grad (r : Fin 2 → ℝ) : gradAt (SF.triangle3 : SF ℝ 2 3) exTriR r
    = !![1 / 2, 0, -(1 / 2); 0, 1, -1] := by
  rw [gradAt, Matrix.inv_def, exTriR_det, Matrix.adjugate_fin_two]
  ext i j
  fin_cases i <;> fin_cases j <;>
    simp [Matrix.mul_apply, Fin.sum_univ_succ, SF.triangle3, exTriR]

/-- A tetrahedron over the reals. -/
def exTetR : Matrix (Fin 4) (Fin 3) ℝ := !![1, 0, 0; 0, 2, 0; 0, 0, 3; 0, 0, 0]

/-- The one-point rule of a tetrahedron. -/
def exRule3R : IC ℝ 3 := ⟨1, ![![1 / 4, 1 / 4, 1 / 4]], ![![1, 1, 1 / 6]]⟩

theorem exTetR_det (r : Fin 3 → ℝ) : ((SF.tetrahedron4 : SF ℝ 3 4).dNdr r * exTetR).det = 6 := by
  have : (SF.tetrahedron4 : SF ℝ 3 4).dNdr r * exTetR = Matrix.diagonal ![1, 2, 3] := by
    ext i j
    fin_cases i <;> fin_cases j <;>
      simp [Matrix.mul_apply, Fin.sum_univ_succ, SF.tetrahedron4, exTetR]
  rw [this, Matrix.det_diagonal]
  simp [Fin.prod_univ_succ]; norm_num

theorem exTetR_regular : Regular (SF.tetrahedron4 : SF ℝ 3 4) exRule3R exTetR := fun g => by
  rw [exTetR_det]; norm_num

end Pansfem
