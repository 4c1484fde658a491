/-
The Updated Lagrange elements: closed forms and the pull-back to the undeformed element.
-/
import Verif.Lemmas.Nonlinear
import Verif.Lemmas.MatrixDeriv

noncomputable section

namespace Pansfem

open Matrix

variable {n d : ℕ}

/-- The deformation gradient from the positions of the nodes. -/
def defGrad (sf : SF ℝ d n) (X x : Matrix (Fin n) (Fin d) ℝ) (r : Fin d → ℝ) :
    Matrix (Fin d) (Fin d) ℝ := (gradAt sf X r * x)ᵀ

theorem deformation_eq_some {sf : SF ℝ d n} {X x : Matrix (Fin n) (Fin d) ℝ} {r : Fin d → ℝ}
    {F : Matrix (Fin d) (Fin d) ℝ} :
    deformation sf X x r = some F ↔ (sf.dNdr r * X).det ≠ 0 ∧ 0 < (defGrad sf X x r).det ∧
      F = defGrad sf X x r := by
  simp only [deformation, Option.bind_eq_bind, Option.bind_eq_some_iff, inv?_eq_some, jac]
  constructor
  · rintro ⟨B, ⟨h, rfl⟩, hF⟩
    split at hF
    · rename_i hp
      exact ⟨h, hp, (Option.some.inj hF).symm⟩
    · exact absurd hF (by simp)
  · rintro ⟨h, hp, rfl⟩
    exact ⟨_, ⟨h, rfl⟩, if_pos hp⟩

theorem defGrad_add {sf : SF ℝ d n} {X : Matrix (Fin n) (Fin d) ℝ} {r : Fin d → ℝ}
    (h : (sf.dNdr r * X).det ≠ 0) (U : Matrix (Fin n) (Fin d) ℝ) :
    defGrad sf X (X + U) r = 1 + dispGrad (gradAt sf X r) U := by
  rw [defGrad, Matrix.mul_add, gradAt_mul h, transpose_add, transpose_one, dispGrad]

theorem lame_eq_some {E V mu0 lambda0 : ℝ} : lame E V = some (mu0, lambda0) ↔
    (1 + V ≠ 0 ∧ 1 - 2 * V ≠ 0) ∧ mu0 = 1 / 2 * E / (1 + V) ∧ lambda0 = 2 * mu0 * V / (1 - 2 * V) := by
  simp only [lame, Option.bind_eq_bind, Option.bind_eq_some_iff, div?_eq_some, Option.pure_def,
    Option.some.injEq, Prod.mk.injEq]
  constructor
  · rintro ⟨a, ⟨h1, rfl⟩, b, ⟨h2, rfl⟩, rfl, rfl⟩
    exact ⟨⟨h1, h2⟩, rfl, rfl⟩
  · rintro ⟨⟨h1, h2⟩, rfl, rfl⟩
    exact ⟨_, ⟨h1, rfl⟩, _, ⟨h2, rfl⟩, rfl, rfl⟩

theorem cauchy_transpose (mu0 lambda0 : ℝ) (F : Matrix (Fin d) (Fin d) ℝ) :
    (cauchy mu0 lambda0 F)ᵀ = cauchy mu0 lambda0 F := by
  simp [cauchy]

theorem stress2_cauchy {S : Matrix (Fin 2) (Fin 2) ℝ} (h : Sᵀ = S) :
    stress2 ![S 0 0, S 1 1, S 0 1] = S := by
  have h01 := congrFun (congrFun h 1) 0
  rw [transpose_apply] at h01
  ext i j; fin_cases i <;> fin_cases j <;> simp [stress2, h01]

/-- The stress with the shear components in the order of `SolidUpdatedLagrange`. -/
def stressU3 (s : Fin 6 → ℝ) : Matrix (Fin 3) (Fin 3) ℝ :=
  Matrix.of ![![s 0, s 3, s 4], ![s 3, s 1, s 5], ![s 4, s 5, s 2]]

def voigtU3 (L : Matrix (Fin 3) (Fin 3) ℝ) : Fin 6 → ℝ :=
  ![L 0 0, L 1 1, L 2 2, L 0 1 + L 1 0, L 0 2 + L 2 0, L 1 2 + L 2 1]

theorem stressU3_cauchy {S : Matrix (Fin 3) (Fin 3) ℝ} (h : Sᵀ = S) :
    stressU3 ![S 0 0, S 1 1, S 2 2, S 0 1, S 0 2, S 1 2] = S := by
  have h01 := congrFun (congrFun h 1) 0
  have h02 := congrFun (congrFun h 2) 0
  have h12 := congrFun (congrFun h 2) 1
  rw [transpose_apply] at h01 h02 h12
  ext i j; fin_cases i <;> fin_cases j <;> simp [stressU3, h01, h02, h12]

theorem solidBU_transpose (G : Matrix (Fin 3) (Fin n) ℝ) (s : Fin 6 → ℝ) :
    (solidBU G)ᵀ *ᵥ s = flat (Gᵀ * stressU3 s) := by
  ext ⟨i, a⟩
  fin_cases a <;>
    (simp [solidBU, flat, mulVec, dotProduct, Fin.sum_univ_succ, Matrix.mul_apply, stressU3]; try ring)

theorem solidBU_mulVec (G : Matrix (Fin 3) (Fin n) ℝ) (W : Matrix (Fin n) (Fin 3) ℝ) :
    solidBU G *ᵥ flat W = voigtU3 (dispGrad G W) := by
  ext r
  fin_cases r <;>
    simp [solidBU, flat, mulVec, dotProduct, Fintype.sum_prod_type, Fin.sum_univ_three,
      Matrix.mul_apply, voigtU3, dispGrad, ← Finset.sum_add_distrib]

theorem planeB_transpose (G : Matrix (Fin 2) (Fin n) ℝ) (s : Fin 3 → ℝ) :
    (planeB G)ᵀ *ᵥ s = flat (Gᵀ * stress2 s) := by
  rw [← planeBL_one, planeBL_transpose, transpose_one, Matrix.mul_one]

theorem planeB_mulVec_flat (G : Matrix (Fin 2) (Fin n) ℝ) (W : Matrix (Fin n) (Fin 2) ℝ) :
    planeB G *ᵥ flat W = voigt2 (dispGrad G W) := by
  rw [← planeBL_one, planeBL_mulVec, transpose_one, Matrix.one_mul]

/-- The isotropic stress of a velocity gradient. -/
def isoStress (lambda mu : ℝ) (L : Matrix (Fin d) (Fin d) ℝ) : Matrix (Fin d) (Fin d) ℝ :=
  (lambda * trace L) • 1 + mu • (L + Lᵀ)

theorem stress2_spatialC2 (lambda mu : ℝ) (L : Matrix (Fin 2) (Fin 2) ℝ) :
    stress2 (spatialC2 lambda mu *ᵥ voigt2 L) = isoStress lambda mu L := by
  ext i j
  fin_cases i <;> fin_cases j <;>
    simp [stress2, spatialC2, voigt2, isoStress, Matrix.trace, Fin.sum_univ_succ, mulVec, dotProduct] <;>
    ring

theorem stressU3_spatialC3 (lambda mu : ℝ) (L : Matrix (Fin 3) (Fin 3) ℝ) :
    stressU3 (spatialC3 lambda mu *ᵥ voigtU3 L) = isoStress lambda mu L := by
  ext i j
  fin_cases i <;> fin_cases j <;>
    simp [stressU3, spatialC3, voigtU3, isoStress, Matrix.trace, Fin.sum_univ_succ, mulVec,
      dotProduct] <;>
    ring

/-- The tangent at a point applied to an increment, plane element. -/
theorem ulTangent2_mulVec (G : Matrix (Fin 2) (Fin n) ℝ) (lambda mu : ℝ) (S : Matrix (Fin 2) (Fin 2) ℝ)
    (W : Matrix (Fin n) (Fin 2) ℝ) :
    ((planeB G)ᵀ * spatialC2 lambda mu * planeB G + (geoB G)ᵀ * geoS S * geoB G) *ᵥ flat W
      = flat (Gᵀ * (isoStress lambda mu (dispGrad G W) + S * (dispGrad G W)ᵀ)) := by
  rw [add_mulVec, ← mulVec_mulVec, ← mulVec_mulVec, planeB_mulVec_flat, planeB_transpose,
    stress2_spatialC2, geo_mulVec, Matrix.mul_add, flat_add, Matrix.mul_assoc]

theorem ulTangent3_mulVec (G : Matrix (Fin 3) (Fin n) ℝ) (lambda mu : ℝ) (S : Matrix (Fin 3) (Fin 3) ℝ)
    (W : Matrix (Fin n) (Fin 3) ℝ) :
    ((solidBU G)ᵀ * spatialC3 lambda mu * solidBU G + (geoB G)ᵀ * geoS S * geoB G) *ᵥ flat W
      = flat (Gᵀ * (isoStress lambda mu (dispGrad G W) + S * (dispGrad G W)ᵀ)) := by
  rw [add_mulVec, ← mulVec_mulVec, ← mulVec_mulVec, solidBU_mulVec, solidBU_transpose,
    stressU3_spatialC3, geo_mulVec, Matrix.mul_add, flat_add, Matrix.mul_assoc]

/-! ### Pull-back -/

section PullBack
variable {sf : SF ℝ d n} {X x : Matrix (Fin n) (Fin d) ℝ} {r : Fin d → ℝ}

theorem jac_deformed (h : (sf.dNdr r * X).det ≠ 0) :
    sf.dNdr r * x = (sf.dNdr r * X) * (defGrad sf X x r)ᵀ := by
  rw [defGrad, transpose_transpose, gradAt, ← Matrix.mul_assoc, ← Matrix.mul_assoc,
    Matrix.mul_nonsing_inv _ (Ne.isUnit h), Matrix.one_mul]

theorem det_deformed (h : (sf.dNdr r * X).det ≠ 0) :
    (sf.dNdr r * x).det = (sf.dNdr r * X).det * (defGrad sf X x r).det := by
  rw [jac_deformed h, det_mul, det_transpose]

theorem gradAt_deformed (h : (sf.dNdr r * X).det ≠ 0) :
    gradAt sf x r = ((defGrad sf X x r)⁻¹)ᵀ * gradAt sf X r := by
  rw [gradAt, jac_deformed h, Matrix.mul_inv_rev, Matrix.mul_assoc, transpose_nonsing_inv]
  rfl

theorem dispGrad_deformed (h : (sf.dNdr r * X).det ≠ 0) (W : Matrix (Fin n) (Fin d) ℝ) :
    dispGrad (gradAt sf x r) W = dispGrad (gradAt sf X r) W * (defGrad sf X x r)⁻¹ := by
  rw [dispGrad, gradAt_deformed h, Matrix.mul_assoc, transpose_mul, transpose_transpose, dispGrad]

end PullBack

/-! ### The stress of the undeformed element -/

/-- The stress of a compressible neo-Hookean solid referred to the undeformed element, transposed. -/
def neoHooke (mu0 lambda0 : ℝ) (F : Matrix (Fin d) (Fin d) ℝ) : Matrix (Fin d) (Fin d) ℝ :=
  mu0 • (Fᵀ - F⁻¹) + (lambda0 * Real.log F.det) • F⁻¹

/-- Its derivative in the direction `V`. -/
def neoHookeDeriv (mu0 lambda0 : ℝ) (F V : Matrix (Fin d) (Fin d) ℝ) : Matrix (Fin d) (Fin d) ℝ :=
  mu0 • Vᵀ + (mu0 - lambda0 * Real.log F.det) • (F⁻¹ * V * F⁻¹) + (lambda0 * trace (F⁻¹ * V)) • F⁻¹

theorem cauchy_pullback (mu0 lambda0 : ℝ) {F : Matrix (Fin d) (Fin d) ℝ} (h : F.det ≠ 0) :
    F.det • (F⁻¹ * cauchy mu0 lambda0 F) = neoHooke mu0 lambda0 F := by
  rw [cauchy, neoHooke, Matrix.mul_add, Matrix.mul_smul, Matrix.mul_smul, Matrix.mul_one, Matrix.mul_sub,
    ← Matrix.mul_assoc, Matrix.nonsing_inv_mul _ (Ne.isUnit h), Matrix.one_mul, Matrix.mul_one, smul_add,
    smul_smul, smul_smul, mul_div_cancel₀ _ h, mul_div_cancel₀ _ h]

/-- The tangent at a point is the derivative of the stress. -/
theorem tangent_pullback (mu0 lambda0 : ℝ) {F : Matrix (Fin d) (Fin d) ℝ} (h : F.det ≠ 0)
    (V : Matrix (Fin d) (Fin d) ℝ) :
    F.det • (F⁻¹ * (isoStress (spatialLambda lambda0 F) (spatialMu mu0 lambda0 F) (V * F⁻¹)
      + cauchy mu0 lambda0 F * (V * F⁻¹)ᵀ)) = neoHookeDeriv mu0 lambda0 F V := by
  have h1 : F⁻¹ * cauchy mu0 lambda0 F = F.det⁻¹ • neoHooke mu0 lambda0 F := by
    rw [← cauchy_pullback mu0 lambda0 h, smul_smul, inv_mul_cancel₀ h, one_smul]
  have h2 : Fᵀ * F⁻¹ᵀ * Vᵀ = Vᵀ := by
    rw [← transpose_mul, Matrix.nonsing_inv_mul _ (Ne.isUnit h), transpose_one,
      Matrix.one_mul]
  rw [Matrix.mul_add, ← Matrix.mul_assoc F⁻¹ (cauchy _ _ _), h1, isoStress, spatialLambda, spatialMu,
    neoHooke, neoHookeDeriv, transpose_mul, trace_mul_comm V]
  simp only [Matrix.mul_add, Matrix.add_mul, Matrix.smul_mul, Matrix.mul_smul, Matrix.sub_mul,
    Matrix.mul_one, smul_add, smul_sub, smul_smul, ← Matrix.mul_assoc, h2]
  have a1 : F.det * (lambda0 / F.det * trace (F⁻¹ * V)) = lambda0 * trace (F⁻¹ * V) := by
    field_simp
  have a2 : F.det * ((mu0 - lambda0 * Real.log F.det) / F.det) = mu0 - lambda0 * Real.log F.det := by
    field_simp
  have a3 : F.det * (F.det⁻¹ * mu0) = mu0 := by field_simp
  have a4 : F.det * (F.det⁻¹ * (lambda0 * Real.log F.det)) = lambda0 * Real.log F.det := by field_simp
  rw [a1, a2, a3, a4, sub_smul, sub_smul]
  abel

theorem hasDerivAt_neoHooke (mu0 lambda0 : ℝ) (F V : Matrix (Fin d) (Fin d) ℝ) (h : F.det ≠ 0)
    (k a : Fin d) :
    HasDerivAt (fun s : ℝ => neoHooke mu0 lambda0 (F + s • V) k a) (neoHookeDeriv mu0 lambda0 F V k a) 0 := by
  have h1 := hasDerivAt_inv_apply F V h k a
  have h2 := hasDerivAt_log_det F V h
  have h3 : HasDerivAt (fun s : ℝ => (F + s • V)ᵀ k a) (Vᵀ k a) 0 := by
    have := ((hasDerivAt_id (0 : ℝ)).mul_const (V a k)).const_add (F a k)
    rw [one_mul] at this
    exact this
  have h4 := ((h3.sub h1).const_mul mu0).add ((h2.const_mul lambda0).mul h1)
  have h0 : F + (0 : ℝ) • V = F := by simp
  rw [h0] at h4
  refine (h4.congr_deriv ?_).congr_of_eventuallyEq (Filter.Eventually.of_forall fun s => ?_)
  · simp only [neoHookeDeriv, Matrix.add_apply, Matrix.smul_apply, Matrix.neg_apply, smul_eq_mul]
    ring
  · simp [neoHooke, Matrix.add_apply, Matrix.smul_apply]

end Pansfem
