/-
Products of the strain-displacement matrices of the nonlinear elements, written with small matrices.
-/
import Verif.Model.Nonlinear
import Verif.Lemmas.Elastic
import Mathlib.Data.Fintype.BigOperators
import Mathlib.LinearAlgebra.Matrix.Trace

noncomputable section

namespace Pansfem

open Matrix

variable {K : Type} [Field K] {n d : ℕ}

/-- Nodal vectors as a vector of local unknowns. -/
def flat (W : Matrix (Fin n) (Fin d) K) : Fin n × Fin d → K := fun p => W p.1 p.2

/-- The nodal vectors of a vector of local unknowns. -/
def nodes (w : Fin n × Fin d → K) : Matrix (Fin n) (Fin d) K := Matrix.of fun i a => w (i, a)

@[simp] theorem flat_nodes (w : Fin n × Fin d → K) : flat (nodes w) = w := rfl
@[simp] theorem nodes_flat (W : Matrix (Fin n) (Fin d) K) : nodes (flat W) = W := rfl
theorem flat_add (V W : Matrix (Fin n) (Fin d) K) : flat (V + W) = flat V + flat W := rfl
theorem flat_smul (c : K) (W : Matrix (Fin n) (Fin d) K) : flat (c • W) = c • flat W := rfl
theorem flat_neg (W : Matrix (Fin n) (Fin d) K) : flat (-W) = -flat W := rfl
theorem flat_zero : flat (0 : Matrix (Fin n) (Fin d) K) = 0 := rfl

theorem nodes_add_smul (u w : Fin n × Fin d → K) (s : K) :
    nodes (u + s • w) = nodes u + s • nodes w := rfl

theorem dispGrad_add_smul (G : Matrix (Fin d) (Fin n) K) (U W : Matrix (Fin n) (Fin d) K) (s : K) :
    dispGrad G (U + s • W) = dispGrad G U + s • dispGrad G W := by
  simp [dispGrad, Matrix.mul_add]

/-- The geometric part applied to nodal vectors. -/
theorem geo_mulVec (G : Matrix (Fin d) (Fin n) K) (S : Matrix (Fin d) (Fin d) K)
    (W : Matrix (Fin n) (Fin d) K) :
    ((geoB G)ᵀ * geoS S * geoB G) *ᵥ flat W = flat (Gᵀ * S * (dispGrad G W)ᵀ) := by
  have h1 : geoB G *ᵥ flat W = flat (G * W) := by
    ext ⟨k, a⟩
    simp [geoB, flat, mulVec, dotProduct, Fintype.sum_prod_type, Matrix.mul_apply]
  have h2 : ∀ M : Matrix (Fin d) (Fin d) K, geoS S *ᵥ flat M = flat (S * M) := by
    intro M
    ext ⟨k, a⟩
    simp [geoS, flat, mulVec, dotProduct, Fintype.sum_prod_type, Matrix.mul_apply, Matrix.one_apply]
  have h3 : ∀ M : Matrix (Fin d) (Fin d) K, (geoB G)ᵀ *ᵥ flat M = flat (Gᵀ * M) := by
    intro M
    ext ⟨k, a⟩
    simp [geoB, flat, mulVec, dotProduct, Fintype.sum_prod_type, Matrix.mul_apply]
  rw [← mulVec_mulVec, ← mulVec_mulVec, h1, h2, h3, dispGrad, transpose_transpose, Matrix.mul_assoc]

section Plane

theorem planeBL_transpose (F : Matrix (Fin 2) (Fin 2) K) (G : Matrix (Fin 2) (Fin n) K)
    (s : Fin 3 → K) : (planeBL F G)ᵀ *ᵥ s = flat (Gᵀ * stress2 s * Fᵀ) := by
  ext ⟨i, a⟩
  fin_cases a <;>
    (simp [planeBL, flat, mulVec, dotProduct, Fin.sum_univ_succ, Matrix.mul_apply, stress2]; ring)

theorem planeBL_mulVec (F : Matrix (Fin 2) (Fin 2) K) (G : Matrix (Fin 2) (Fin n) K)
    (W : Matrix (Fin n) (Fin 2) K) : planeBL F G *ᵥ flat W = voigt2 (Fᵀ * dispGrad G W) := by
  ext r
  fin_cases r <;>
    (simp [planeBL, flat, mulVec, dotProduct, Fintype.sum_prod_type, Fin.sum_univ_two,
      Matrix.mul_apply, voigt2, dispGrad, Finset.mul_sum, ← Finset.sum_add_distrib]
     exact Finset.sum_congr rfl fun i _ => by ring)

theorem planeBL_one (G : Matrix (Fin 2) (Fin n) K) : planeBL 1 G = planeB G := by
  ext r ⟨i, a⟩
  fin_cases r <;> fin_cases a <;> simp [planeBL, planeB]

theorem voigt2_add (A B : Matrix (Fin 2) (Fin 2) K) : voigt2 (A + B) = voigt2 A + voigt2 B := by
  ext r; fin_cases r <;> simp [voigt2]; ring

theorem voigt2_smul (c : K) (A : Matrix (Fin 2) (Fin 2) K) : voigt2 (c • A) = c • voigt2 A := by
  ext r; fin_cases r <;> simp [voigt2]; ring

theorem voigt2_transpose (A : Matrix (Fin 2) (Fin 2) K) : voigt2 Aᵀ = voigt2 A := by
  ext r; fin_cases r <;> simp [voigt2, add_comm]

theorem stress2_add (a b : Fin 3 → K) : stress2 (a + b) = stress2 a + stress2 b := by
  ext i j; fin_cases i <;> fin_cases j <;> rfl

theorem stress2_smul (c : K) (a : Fin 3 → K) : stress2 (c • a) = c • stress2 a := by
  ext i j; fin_cases i <;> fin_cases j <;> rfl

theorem stress2_transpose (a : Fin 3 → K) : (stress2 a)ᵀ = stress2 a := by
  ext i j; fin_cases i <;> fin_cases j <;> rfl

/-- The work of a stress on a strain. -/
theorem dot_voigt2 (a : Fin 3 → K) (A : Matrix (Fin 2) (Fin 2) K) :
    a ⬝ᵥ voigt2 A = trace (stress2 a * A) := by
  simp [voigt2, stress2, dotProduct, Fin.sum_univ_succ, Matrix.trace, Matrix.vecMul]; ring

end Plane

section Solid

theorem solidBL_transpose (F : Matrix (Fin 3) (Fin 3) K) (G : Matrix (Fin 3) (Fin n) K)
    (s : Fin 6 → K) : (solidBL F G)ᵀ *ᵥ s = flat (Gᵀ * stress3 s * Fᵀ) := by
  ext ⟨i, a⟩
  fin_cases a <;>
    (simp [solidBL, flat, mulVec, dotProduct, Fin.sum_univ_succ, Matrix.mul_apply, stress3]; ring)

theorem solidBL_mulVec (F : Matrix (Fin 3) (Fin 3) K) (G : Matrix (Fin 3) (Fin n) K)
    (W : Matrix (Fin n) (Fin 3) K) : solidBL F G *ᵥ flat W = voigt3 (Fᵀ * dispGrad G W) := by
  ext r
  fin_cases r <;>
    (simp [solidBL, flat, mulVec, dotProduct, Fintype.sum_prod_type, Fin.sum_univ_three,
      Matrix.mul_apply, voigt3, dispGrad, Finset.mul_sum, ← Finset.sum_add_distrib]
     exact Finset.sum_congr rfl fun i _ => by ring)

theorem solidBL_one (G : Matrix (Fin 3) (Fin n) K) : solidBL 1 G = solidB G := by
  ext r ⟨i, a⟩
  fin_cases r <;> fin_cases a <;> simp [solidBL, solidB]

theorem voigt3_add (A B : Matrix (Fin 3) (Fin 3) K) : voigt3 (A + B) = voigt3 A + voigt3 B := by
  ext r; fin_cases r <;> simp [voigt3] <;> ring

theorem voigt3_smul (c : K) (A : Matrix (Fin 3) (Fin 3) K) : voigt3 (c • A) = c • voigt3 A := by
  ext r; fin_cases r <;> simp [voigt3] <;> ring

theorem voigt3_transpose (A : Matrix (Fin 3) (Fin 3) K) : voigt3 Aᵀ = voigt3 A := by
  ext r; fin_cases r <;> simp [voigt3, add_comm]

theorem stress3_add (a b : Fin 6 → K) : stress3 (a + b) = stress3 a + stress3 b := by
  ext i j; fin_cases i <;> fin_cases j <;> rfl

theorem stress3_smul (c : K) (a : Fin 6 → K) : stress3 (c • a) = c • stress3 a := by
  ext i j; fin_cases i <;> fin_cases j <;> rfl

theorem stress3_transpose (a : Fin 6 → K) : (stress3 a)ᵀ = stress3 a := by
  ext i j; fin_cases i <;> fin_cases j <;> rfl

theorem dot_voigt3 (a : Fin 6 → K) (A : Matrix (Fin 3) (Fin 3) K) :
    a ⬝ᵥ voigt3 A = trace (stress3 a * A) := by
  simp [voigt3, stress3, dotProduct, Fin.sum_univ_succ, Matrix.trace, Matrix.vecMul]; ring

/-- The order of the shear components of `SolidUpdatedLagrange`. -/
def swapShear : Equiv.Perm (Fin 6) := Equiv.swap 4 5

theorem solidBU_eq (G : Matrix (Fin 3) (Fin n) K) :
    solidBU G = (solidB G).submatrix swapShear id := by
  ext r ⟨i, a⟩
  have h0 : swapShear 0 = 0 := by decide
  have h1 : swapShear 1 = 1 := by decide
  have h2 : swapShear 2 = 2 := by decide
  have h3 : swapShear 3 = 3 := by decide
  have h4 : swapShear 4 = 5 := by decide
  have h5 : swapShear 5 = 4 := by decide
  fin_cases r <;> fin_cases a <;> simp [solidBU, solidB, h0, h1, h2, h3, h4, h5]

end Solid

/-! ### The strain along a line of displacements -/

/-- The strain is a polynomial of degree two in the displacement gradient. -/
theorem green_expand (hK : (2 : K) ≠ 0) {κ : Type} (v : Matrix (Fin d) (Fin d) K → κ → K)
    (hadd : ∀ A B, v (A + B) = v A + v B) (hsmul : ∀ (c : K) A, v (c • A) = c • v A)
    (ht : ∀ A, v Aᵀ = v A) (Z W : Matrix (Fin d) (Fin d) K) (s : K) :
    v (green (Z + s • W)) = v (green Z) + s • v ((1 + Z)ᵀ * W) + s ^ 2 • v ((1 / 2 : K) • (Wᵀ * W)) := by
  have e : green (Z + s • W) = green Z + s • ((1 / 2 : K) • ((1 + Z)ᵀ * W + ((1 + Z)ᵀ * W)ᵀ))
      + s ^ 2 • ((1 / 2 : K) • (Wᵀ * W)) := by
    simp only [green, transpose_add, transpose_smul, transpose_mul, transpose_transpose,
      transpose_one, Matrix.add_mul, Matrix.mul_add, Matrix.smul_mul, Matrix.mul_smul, smul_add,
      Matrix.one_mul, smul_smul]
    rw [pow_two, show s * (1 / 2 : K) = 1 / 2 * s by ring,
      show s * s * (1 / 2 : K) = 1 / 2 * (s * s) by ring]
    abel
  have h2 : v ((1 / 2 : K) • ((1 + Z)ᵀ * W + ((1 + Z)ᵀ * W)ᵀ)) = v ((1 + Z)ᵀ * W) := by
    rw [hsmul, hadd, ht, ← two_smul K, smul_smul, one_div, inv_mul_cancel₀ hK, one_smul]
  rw [e, hadd, hadd, hsmul s, hsmul (s ^ 2), h2]

/-- The force at a point along a line of displacements: its linear part is given by the two parts of the
tangent. -/
theorem tl_expand (hK : (2 : K) ≠ 0) {κ : Type} [Fintype κ] (v : Matrix (Fin d) (Fin d) K → κ → K)
    (σ : (κ → K) → Matrix (Fin d) (Fin d) K)
    (hadd : ∀ A B, v (A + B) = v A + v B) (hsmul : ∀ (c : K) A, v (c • A) = c • v A)
    (ht : ∀ A, v Aᵀ = v A) (sadd : ∀ a b, σ (a + b) = σ a + σ b)
    (ssmul : ∀ (c : K) a, σ (c • a) = c • σ a) (D : Matrix κ κ K) (G : Matrix (Fin d) (Fin n) K)
    (Z W : Matrix (Fin d) (Fin d) K) :
    ∃ Q R : Fin n × Fin d → K, ∀ s : K,
      flat (Gᵀ * σ (D *ᵥ v (green (Z + s • W))) * (1 + (Z + s • W))ᵀ)
        = flat (Gᵀ * σ (D *ᵥ v (green Z)) * (1 + Z)ᵀ)
          + s • (flat (Gᵀ * σ (D *ᵥ v ((1 + Z)ᵀ * W)) * (1 + Z)ᵀ)
            + flat (Gᵀ * σ (D *ᵥ v (green Z)) * Wᵀ))
          + s ^ 2 • (Q + s • R) := by
  refine ⟨flat (Gᵀ * σ (D *ᵥ v ((1 + Z)ᵀ * W)) * Wᵀ
      + Gᵀ * σ (D *ᵥ v ((1 / 2 : K) • (Wᵀ * W))) * (1 + Z)ᵀ),
    flat (Gᵀ * σ (D *ᵥ v ((1 / 2 : K) • (Wᵀ * W))) * Wᵀ), fun s => ?_⟩
  rw [green_expand hK v hadd hsmul ht, ← add_assoc 1 Z (s • W)]
  generalize v (green Z) = a
  generalize v ((1 + Z)ᵀ * W) = b
  generalize v ((1 / 2 : K) • (Wᵀ * W)) = c
  simp only [mulVec_add, mulVec_smul, sadd, ssmul, transpose_add (1 + Z) (s • W),
    transpose_smul s W]
  generalize (1 + Z)ᵀ = Ft
  simp only [Matrix.mul_add, Matrix.add_mul, Matrix.smul_mul, Matrix.mul_smul, flat_add, flat_smul]
  simp only [smul_add, smul_smul]
  rw [show s ^ 2 * s = s ^ 3 by ring, show s * s ^ 2 = s ^ 3 by ring, show s * s = s ^ 2 by ring]
  abel

end Pansfem
