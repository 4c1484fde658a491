/-
C02  `Determinant()` is the determinant, for square matrices of every size, and fails on the rest.
C03  `Inverse()` is the two-sided inverse when the determinant is not zero.
-/
import Verif.Props.C01_Dense
import Mathlib.LinearAlgebra.Matrix.Determinant.Basic
import Mathlib.LinearAlgebra.Matrix.Adjugate
import Mathlib.LinearAlgebra.Matrix.NonsingularInverse

namespace Pansfem

variable {K : Type*}

/-- `Cofactor(i, j)` deletes row `i` and column `j`. -/
theorem C02_cofactor {r c : ℕ} (M : Matrix (Fin (r + 1)) (Fin (c + 1)) K) (i : Fin (r + 1))
    (j : Fin (c + 1)) :
    (dense M).cofactor i j = some (dense (M.submatrix i.succAbove j.succAbove)) := by
  unfold Mat.cofactor
  rw [if_pos (by simp only [dense_row, dense_col]; omega)]
  simp only [dense_row, dense_col, Nat.add_sub_cancel]
  rw [fillM_some (M := M.submatrix i.succAbove j.succAbove)]
  · rfl
  · intro a b
    simp only [Nat.cast_lt, Matrix.submatrix_apply]
    have hr : ((i.succAbove a : Fin (r + 1)) : ℕ) = if (a : ℕ) < i then (a : ℕ) else a + 1 := by
      unfold Fin.succAbove
      simp only [Fin.lt_def, Fin.val_castSucc]
      split <;> rfl
    have hc : ((j.succAbove b : Fin (c + 1)) : ℕ) = if (b : ℕ) < j then (b : ℕ) else b + 1 := by
      unfold Fin.succAbove
      simp only [Fin.lt_def, Fin.val_castSucc]
      split <;> rfl
    have hg := dense_get M (i.succAbove a) (j.succAbove b)
    rw [hr, hc] at hg
    rw [← hg]
    by_cases h1 : (a : ℕ) < i <;> by_cases h2 : (b : ℕ) < j <;> simp [h1, h2]

/-- The determinant of every non-empty square matrix. -/
theorem C02_determinant [CommRing K] {n : ℕ} (M : Matrix (Fin (n + 1)) (Fin (n + 1)) K) :
    (dense M).determinant = some M.det := by
  unfold Mat.determinant
  rw [dense_row]
  induction n with
  | zero =>
    have h := dense_get M 0 0
    simp at h
    simp [Mat.detAux, h]
  | succ n ih =>
    match n, ih with
    | 0, _ =>
      have h00 := dense_get M 0 0
      have h01 := dense_get M 0 1
      have h10 := dense_get M 1 0
      have h11 := dense_get M 1 1
      simp at h00 h01 h10 h11
      simp [Mat.detAux, h00, h01, h10, h11, Matrix.det_fin_two]
    | 1, _ =>
      have h00 := dense_get M 0 0
      have h01 := dense_get M 0 1
      have h02 := dense_get M 0 2
      have h10 := dense_get M 1 0
      have h11 := dense_get M 1 1
      have h12 := dense_get M 1 2
      have h20 := dense_get M 2 0
      have h21 := dense_get M 2 1
      have h22 := dense_get M 2 2
      simp at h00 h01 h02 h10 h11 h12 h20 h21 h22
      simp [Mat.detAux, h00, h01, h02, h10, h11, h12, h20, h21, h22, Matrix.det_fin_three]
      ring
    | n + 2, ih =>
      rw [Mat.detAux, Matrix.det_succ_column_zero]
      rw [if_pos (by simp), if_neg (by simp), if_neg (by simp), if_neg (by simp)]
      simp only [dense_row, dense_col]
      rw [sumM_some (n := n + 2 + 1 + 1) (g := fun i => (-1) ^ (i : ℕ) * M i 0 *
        (M.submatrix i.succAbove Fin.succ).det)]
      intro i
      have h0 := dense_get M i 0
      have h1 := C02_cofactor M i 0
      simp only [Fin.val_zero, add_zero] at h0
      simp only [Fin.val_zero, Nat.cast_zero, Fin.succAbove_zero] at h1
      rw [h0, h1]
      simp only [Option.bind_eq_bind, Option.bind_some]
      rw [ih (M.submatrix i.succAbove Fin.succ)]
      rfl

/-- `Determinant()` fails exactly on matrices that are empty or not square. -/
theorem C02_determinant_fails [CommRing K] (A : Mat K) (hA : A.WF) :
    A.determinant = none ↔ ¬ (A.row = A.col ∧ A.row ≠ 0) := by
  constructor
  · rintro hn ⟨h1, h2⟩
    obtain ⟨M, hM⟩ := exists_dense A hA
    obtain ⟨n, hr⟩ := Nat.exists_eq_succ_of_ne_zero h2
    generalize A.row = r at *
    generalize A.col = c at *
    subst h1 hr hM
    have := hn.symm.trans (C02_determinant (n := n) M)
    cases this
  · intro h
    unfold Mat.determinant
    cases hr : A.row with
    | zero => rfl
    | succ r =>
      rw [Mat.detAux, if_neg h]

example : (⟨4, 4, [2, 0, 0, 1, 0, 3, 0, 0, 0, 0, 5, 0, 1, 0, 0, 1]⟩ : Mat ℚ).determinant
    = some 15 := by decide +kernel
example : (dense !![(1 : ℚ), 2; 3, 4]).determinant = some (!![(1 : ℚ), 2; 3, 4]).det :=
  C02_determinant _
example : (⟨1, 2, [1, 2]⟩ : Mat ℚ).determinant = none :=
  (C02_determinant_fails _ (by rfl)).2 (by decide)

/-- `Inverse()` of a non-empty square matrix: the matrix inverse when the determinant is not zero,
an undefined result (division by zero) when it is. -/
theorem C03_inverse [Field K] [DecidableEq K] {n : ℕ}
    (M : Matrix (Fin (n + 1)) (Fin (n + 1)) K) :
    (dense M).inverse = if M.det = 0 then none else some (dense M⁻¹) := by
  unfold Mat.inverse
  rw [if_pos (by simp)]
  match n with
  | 0 =>
    have h : (dense M).values[0]? = some (M 0 0) := by
      have := dense_get M 0 0
      rwa [show ((0 : Fin (0 + 1)) : ℕ) * (0 + 1) + ((0 : Fin (0 + 1)) : ℕ) = 0 from rfl] at this
    have hs : ∀ i : Fin (0 + 1), i = 0 := fun i => by omega
    have hdet : M.det = M 0 0 := Matrix.det_fin_one M
    rw [if_pos (by simp), h]
    simp only [Option.bind_eq_bind, Option.bind_some, hdet]
    by_cases hd : M 0 0 = 0
    · rw [if_pos hd, if_pos hd]
    · rw [if_neg hd, if_neg hd]
      have hi : M⁻¹ = Matrix.of fun _ _ => (M 0 0)⁻¹ := by
        ext i j
        rw [hs i, hs j, Matrix.inv_def, hdet]
        simp [Matrix.adjugate_fin_one]
      rw [hi]
      simp [dense]
  | m + 1 =>
    rw [if_neg (by simp)]
    simp only [dense_row, dense_col]
    rw [fillM_some (M := M.adjugate)]
    · simp only [Option.bind_eq_bind, Option.bind_some]
      rw [C02_determinant]
      simp only [Option.bind_some]
      change Mat.sdiv (dense M.adjugate) M.det = _
      by_cases hd : M.det = 0
      · simp only [hd, if_true]
        unfold Mat.sdiv
        rw [if_pos (by simp)]
      · simp only [hd, if_false]
        rw [C01_mat_sdiv _ _ hd, Matrix.inv_def]
        simp
    · intro i j
      have h1 := C02_cofactor M j i
      rw [h1]
      simp only [Option.bind_eq_bind, Option.bind_some]
      rw [C02_determinant, Matrix.adjugate_fin_succ_eq_det_submatrix, add_comm (i : ℕ)]
      rfl

/-- The result of `Inverse()` is a two-sided inverse for the library's own product. -/
theorem C03_inverse_two_sided [Field K] [DecidableEq K] {n : ℕ}
    (M : Matrix (Fin (n + 1)) (Fin (n + 1)) K) (hd : M.det ≠ 0) :
    ∃ B : Mat K, (dense M).inverse = some B ∧
      (dense M).mul B = Mat.identity (n + 1) ∧ B.mul (dense M) = Mat.identity (n + 1) := by
  refine ⟨dense M⁻¹, by rw [C03_inverse, if_neg hd], ?_, ?_⟩
  · rw [C01_mat_mul, C01_identity, Matrix.mul_nonsing_inv _ (isUnit_iff_ne_zero.2 hd)]
  · rw [C01_mat_mul, C01_identity, Matrix.nonsing_inv_mul _ (isUnit_iff_ne_zero.2 hd)]

/-- `Inverse()` succeeds exactly on non-empty square matrices with non-zero determinant. -/
theorem C03_inverse_fails [Field K] [DecidableEq K] (A : Mat K) (hA : A.WF) :
    A.inverse = none ↔ ∀ d, A.determinant = some d → d = 0 := by
  by_cases h : A.row = A.col ∧ A.row ≠ 0
  · obtain ⟨h1, h2⟩ := h
    obtain ⟨M, hM⟩ := exists_dense A hA
    obtain ⟨n, hr⟩ := Nat.exists_eq_succ_of_ne_zero h2
    generalize A.row = r at *
    generalize A.col = c at *
    subst h1 hr hM
    have h3 := C02_determinant (n := n) M
    have h4 := C03_inverse (n := n) M
    rw [h3, h4]
    by_cases hd : M.det = 0 <;> simp [hd]
  · have hdn := (C02_determinant_fails A hA).2 h
    rw [hdn]
    simp only [reduceCtorEq, false_imp_iff, implies_true, iff_true]
    unfold Mat.inverse
    by_cases h1 : A.row = A.col
    · have h0 : A.row = 0 := by
        by_contra h0; exact h ⟨h1, h0⟩
      rw [if_pos h1, if_neg (by omega), hdn]
      cases fillM A.row A.col _ <;> rfl
    · rw [if_neg h1]

example : ((⟨2, 2, [2, 1, 1, 1]⟩ : Mat ℚ).inverse) = some ⟨2, 2, [1, -1, -1, 2]⟩ := by
  decide +kernel
example : (!![(2 : ℚ), 1; 1, 1]).det ≠ 0 := by norm_num [Matrix.det_fin_two]

end Pansfem
