/-
C37: the nonlinear elements at zero displacement and under translations.
C72: the nonlinear elements under rotations.
C73: the pressure that follows the boundary.

C37 fails in the plane for a thickness other than one: `PlaneStrainStiffnessTotalLagrange` and
`PlaneStrainStiffnessUpdatedLagrange` take a thickness and do not use it.
-/
import Verif.Props.C71_UpdatedLagrange
import Verif.Props.C33_RigidMotions

noncomputable section

namespace Pansfem

open Matrix

variable {n d : ℕ}

/-! ### Zero displacement -/

section Zero
variable {K : Type} [Field K]

theorem dispGrad_zero (G : Matrix (Fin d) (Fin n) K) : dispGrad G 0 = 0 := by simp [dispGrad]

theorem green_zero : green (0 : Matrix (Fin d) (Fin d) K) = 0 := by simp [green]

theorem voigt2_zero : voigt2 (0 : Matrix (Fin 2) (Fin 2) K) = 0 := by
  ext r; fin_cases r <;> simp [voigt2]

theorem voigt3_zero : voigt3 (0 : Matrix (Fin 3) (Fin 3) K) = 0 := by
  ext r; fin_cases r <;> simp [voigt3]

theorem stress2_zero : stress2 (0 : Fin 3 → K) = 0 := by
  ext i j; fin_cases i <;> fin_cases j <;> rfl

theorem stress3_zero : stress3 (0 : Fin 6 → K) = 0 := by
  ext i j; fin_cases i <;> fin_cases j <;> rfl

theorem geoS_zero : geoS (0 : Matrix (Fin d) (Fin d) K) = 0 := by
  ext i j; simp [geoS]

variable [DecidableEq K]

/-- C37, plane Total Lagrange: the tangent times the thickness is the linear stiffness, the residual is
zero.  Missing: the thickness, which the nonlinear routine ignores. -/
theorem C37_planeStrainTL_partial {sf : SF K 2 n} {ic : IC K 2} {X : Matrix (Fin n) (Fin 2) K} {E V t : K}
    {Ke Fe} (h : planeTL sf ic X 0 E V t = some (Ke, Fe)) :
    planeStrainStiffness sf ic X E V t = some (t • Ke) ∧ Fe = 0 := by
  obtain ⟨D, hD, hreg, rfl, rfl⟩ := planeTL_eq_some.1 h
  constructor
  · rw [planeStrainStiffness_eq_some]
    refine ⟨D, hD, (planeStiffness_eq_some _ _ _).2 ⟨hreg, ?_⟩⟩
    rw [Finset.smul_sum]
    refine Finset.sum_congr rfl fun g _ => ?_
    simp only [dispGrad_zero, green_zero, voigt2_zero, mulVec_zero, stress2_zero, geoS_zero, add_zero,
      planeBL_one, Matrix.mul_zero, Matrix.zero_mul]
    rw [smul_smul, mul_comm t]
  · simp only [tlForce2, dispGrad_zero, green_zero, voigt2_zero, mulVec_zero, stress2_zero,
      Matrix.mul_zero, Matrix.zero_mul, flat_zero, smul_zero, Finset.sum_const_zero, neg_zero]

/-- C37, solid Total Lagrange. -/
theorem C37_solidTL {sf : SF K 3 n} {ic : IC K 3} {X : Matrix (Fin n) (Fin 3) K} {E V : K}
    {Ke Fe} (h : solidTL sf ic X 0 E V = some (Ke, Fe)) :
    solidStiffness sf ic X E V = some Ke ∧ Fe = 0 := by
  obtain ⟨D, hD, hreg, rfl, rfl⟩ := solidTL_eq_some.1 h
  constructor
  · rw [solidStiffness_eq_some]
    refine ⟨D, hD, hreg, ?_⟩
    refine Finset.sum_congr rfl fun g _ => ?_
    simp only [dispGrad_zero, green_zero, voigt3_zero, mulVec_zero, stress3_zero, geoS_zero, add_zero,
      solidBL_one, Matrix.mul_zero, Matrix.zero_mul]
  · simp only [tlForce3, dispGrad_zero, green_zero, voigt3_zero, mulVec_zero, stress3_zero,
      Matrix.mul_zero, Matrix.zero_mul, flat_zero, smul_zero, Finset.sum_const_zero, neg_zero]

end Zero

theorem defGrad_self {sf : SF ℝ d n} {X : Matrix (Fin n) (Fin d) ℝ} {r : Fin d → ℝ}
    (h : (sf.dNdr r * X).det ≠ 0) : defGrad sf X X r = 1 := by
  rw [defGrad, gradAt_mul h, transpose_one]

theorem neoHooke_one (mu0 lambda0 : ℝ) : neoHooke mu0 lambda0 (1 : Matrix (Fin d) (Fin d) ℝ) = 0 := by
  simp [neoHooke]

theorem cauchy_one (mu0 lambda0 : ℝ) : cauchy mu0 lambda0 (1 : Matrix (Fin d) (Fin d) ℝ) = 0 := by
  simp [cauchy]

theorem spatialC2_lame {E V mu0 lambda0 : ℝ} (h : lame E V = some (mu0, lambda0)) :
    planeStrainD E V = some (spatialC2 lambda0 mu0) := by
  obtain ⟨⟨h1, h2⟩, rfl, rfl⟩ := lame_eq_some.1 h
  rw [planeStrainD_eq_some]
  refine ⟨mul_ne_zero h2 h1, ?_⟩
  ext i j
  fin_cases i <;> fin_cases j <;> simp [spatialC2, planeStrainD0] <;> field_simp <;> ring

theorem spatialC3_lame {E V mu0 lambda0 : ℝ} (h : lame E V = some (mu0, lambda0)) :
    solidC E V = some (spatialC3 lambda0 mu0) := by
  obtain ⟨⟨h1, h2⟩, rfl, rfl⟩ := lame_eq_some.1 h
  rw [solidC_eq_some]
  refine ⟨mul_ne_zero h1 h2, ?_⟩
  ext i j
  fin_cases i <;> fin_cases j <;> simp [spatialC3, solidC0] <;> field_simp <;> ring

/-- C37, plane Updated Lagrange.  Missing: the thickness, which the nonlinear routine ignores. -/
theorem C37_planeStrainUL_partial {sf : SF ℝ 2 n} {ic : IC ℝ 2} {X : Matrix (Fin n) (Fin 2) ℝ}
    {E V t : ℝ} {Ke Fe} (h : planeUL sf ic X 0 E V t = some (Ke, Fe)) :
    planeStrainStiffness sf ic X E V t = some (t • Ke) ∧ Fe = 0 := by
  obtain ⟨mu0, lambda0, hl, hreg, -, rfl, rfl⟩ := planeUL_eq_some.1 h
  rw [add_zero]
  constructor
  · rw [planeStrainStiffness_eq_some]
    refine ⟨_, spatialC2_lame hl, (planeStiffness_eq_some _ _ _).2 ⟨hreg, ?_⟩⟩
    rw [Finset.smul_sum]
    refine Finset.sum_congr rfl fun g _ => ?_
    rw [defGrad_self (hreg g), ulPoint2, cauchy_one, geoS_zero, Matrix.mul_zero, Matrix.zero_mul, add_zero,
      spatialLambda, spatialMu, det_one, Real.log_one, mul_zero, sub_zero, div_one, div_one, smul_smul, mul_comm t]
  · simp only [fun g => defGrad_self (hreg g), neoHooke_one, Matrix.mul_zero, flat_zero, smul_zero,
      Finset.sum_const_zero, neg_zero]

/-- Exchanging the two shear components of an isotropic material. -/
theorem swapShear_spatialC3 (lambda mu : ℝ) :
    (spatialC3 lambda mu).submatrix swapShear swapShear = spatialC3 lambda mu := by
  have h0 : swapShear 0 = 0 := by decide
  have h1 : swapShear 1 = 1 := by decide
  have h2 : swapShear 2 = 2 := by decide
  have h3 : swapShear 3 = 3 := by decide
  have h4 : swapShear 4 = 5 := by decide
  have h5 : swapShear 5 = 4 := by decide
  ext i j
  fin_cases i <;> fin_cases j <;> simp [spatialC3, h0, h1, h2, h3, h4, h5]

theorem solidBU_gram (lambda mu : ℝ) (G : Matrix (Fin 3) (Fin n) ℝ) :
    (solidBU G)ᵀ * spatialC3 lambda mu * solidBU G = (solidB G)ᵀ * spatialC3 lambda mu * solidB G := by
  rw [solidBU_eq]
  conv_lhs => rw [← swapShear_spatialC3]
  rw [transpose_submatrix, submatrix_mul_equiv, submatrix_mul_equiv, submatrix_id_id]

/-- C37, solid Updated Lagrange: its other order of the shear components makes no difference. -/
theorem C37_solidUL {sf : SF ℝ 3 n} {ic : IC ℝ 3} {X : Matrix (Fin n) (Fin 3) ℝ}
    {E V : ℝ} {Ke Fe} (h : solidUL sf ic X 0 E V = some (Ke, Fe)) :
    solidStiffness sf ic X E V = some Ke ∧ Fe = 0 := by
  obtain ⟨mu0, lambda0, hl, hreg, -, rfl, rfl⟩ := solidUL_eq_some.1 h
  rw [add_zero]
  constructor
  · rw [solidStiffness_eq_some]
    refine ⟨_, spatialC3_lame hl, hreg, ?_⟩
    refine Finset.sum_congr rfl fun g _ => ?_
    rw [defGrad_self (hreg g), ulPoint3, cauchy_one, geoS_zero, Matrix.mul_zero, Matrix.zero_mul, add_zero,
      spatialLambda, spatialMu, det_one, Real.log_one, mul_zero, sub_zero, div_one, div_one, solidBU_gram]
  · simp only [fun g => defGrad_self (hreg g), neoHooke_one, Matrix.mul_zero, flat_zero, smul_zero,
      Finset.sum_const_zero, neg_zero]

/-- The claim of C37 for the plane Total Lagrange element. -/
def C37_claim {K : Type} [Field K] [DecidableEq K] (sf : SF K 2 n) (ic : IC K 2)
    (X : Matrix (Fin n) (Fin 2) K) (E V t : K) : Prop :=
  ∀ Ke Fe, planeTL sf ic X 0 E V t = some (Ke, Fe) → planeStrainStiffness sf ic X E V t = some Ke

/-- C37 is false for the plane element: a triangle of thickness two. -/
theorem C37_planeStrainTL_false : ¬ C37_claim (SF.triangle3 : SF ℝ 2 3) exRuleR exTriR 1 0 2 := by
  intro h
  obtain ⟨D, hD⟩ : ∃ D, planeStrainD (1 : ℝ) 0 = some D := ⟨_, planeStrainD_eq_some.2 ⟨by norm_num, rfl⟩⟩
  have h1 := planeTL_eq_some (sf := (SF.triangle3 : SF ℝ 2 3)) (ic := exRuleR) (X := exTriR) (U := 0)
    (E := 1) (V := 0) (t := 2) |>.2 ⟨D, hD, exTriR_regular, rfl, rfl⟩
  have h2 := (C37_planeStrainTL_partial h1).1
  have h3 := Option.some.inj ((h _ _ h1).symm.trans h2)
  have e : ∀ A : Matrix (Fin 3 × Fin 2) (Fin 3 × Fin 2) ℝ, A = (2 : ℝ) • A → A = 0 := by
    intro A hA
    rw [two_smul] at hA
    exact left_eq_add.1 hA
  have h5 := e _ h3
  rw [h5] at h1
  have h6 := (C37_planeStrainTL_partial h1).1
  rw [smul_zero] at h6
  obtain ⟨D', hD', h7⟩ := planeStrainStiffness_eq_some.1 h6
  obtain ⟨-, h7⟩ := (planeStiffness_eq_some _ _ _).1 h7
  obtain ⟨-, rfl⟩ := planeStrainD_eq_some.1 hD'
  have h8 := congrFun (congrFun h7 (0, 0)) (0, 0)
  have hN : ∀ f : Fin exRuleR.N → ℝ, ∑ g, f g = f ⟨0, Nat.one_pos⟩ := fun f => Fin.sum_univ_one f
  rw [Matrix.zero_apply, Matrix.sum_apply, hN] at h8
  simp [exTriR_grad, planeB, planeStrainD0, Matrix.mul_apply, Fin.sum_univ_succ, measure2, exTriR_det,
    exRuleR] at h8

/-! ### Translations -/

/-- The same translation of every node. -/
def translation {K : Type} (n : ℕ) (c : Fin d → K) : Matrix (Fin n) (Fin d) K := Matrix.of fun _ => c

section Translation
variable {K : Type} [Field K]

theorem dNdr_translation {sf : SF K d n} (h : Complete sf) (r : Fin d → K) (c : Fin d → K) :
    sf.dNdr r * translation n c = 0 := by
  ext k a
  simp only [Matrix.mul_apply, translation, Matrix.of_apply, ← Finset.sum_mul, h r k, zero_mul,
    Matrix.zero_apply]

theorem jac_translation {sf : SF K d n} (h : Complete sf) (x : Matrix (Fin n) (Fin d) K) (c : Fin d → K)
    (r : Fin d → K) : jac sf (x + translation n c) r = jac sf x r := by
  rw [jac, Matrix.mul_add, dNdr_translation h, add_zero, jac]

theorem dispGrad_translation {sf : SF K d n} (h : Complete sf) (X U : Matrix (Fin n) (Fin d) K)
    (r c : Fin d → K) :
    dispGrad (gradAt sf X r) (U + translation n c) = dispGrad (gradAt sf X r) U := by
  rw [dispGrad, Matrix.mul_add, gradAt, Matrix.mul_assoc _ _ (translation n c), dNdr_translation h,
    Matrix.mul_zero, add_zero, dispGrad]

variable [DecidableEq K]

theorem C37_planeStrainTL_translation {sf : SF K 2 n} (hc : Complete sf) {ic : IC K 2}
    {X U : Matrix (Fin n) (Fin 2) K} {E V t : K} (c : Fin 2 → K) {p}
    (h : planeTL sf ic X U E V t = some p) : planeTL sf ic X (U + translation n c) E V t = some p := by
  obtain ⟨D, hD, hreg, e1, e2⟩ := planeTL_eq_some.1 (show _ = some (p.1, p.2) from h)
  refine planeTL_eq_some.2 ⟨D, hD, hreg, ?_, ?_⟩
  · simpa only [dispGrad_translation hc] using e1
  · simpa only [tlForce2, dispGrad_translation hc] using e2

theorem C37_solidTL_translation {sf : SF K 3 n} (hc : Complete sf) {ic : IC K 3}
    {X U : Matrix (Fin n) (Fin 3) K} {E V : K} (c : Fin 3 → K) {p}
    (h : solidTL sf ic X U E V = some p) : solidTL sf ic X (U + translation n c) E V = some p := by
  obtain ⟨D, hD, hreg, e1, e2⟩ := solidTL_eq_some.1 (show _ = some (p.1, p.2) from h)
  refine solidTL_eq_some.2 ⟨D, hD, hreg, ?_, ?_⟩
  · simpa only [dispGrad_translation hc] using e1
  · simpa only [tlForce3, dispGrad_translation hc] using e2

end Translation

theorem deformation_translation {sf : SF ℝ d n} (h : Complete sf) (X x : Matrix (Fin n) (Fin d) ℝ)
    (r c : Fin d → ℝ) : deformation sf X (x + translation n c) r = deformation sf X x r := by
  have : ∀ A : Matrix (Fin d) (Fin d) ℝ, A * sf.dNdr r * (x + translation n c) = A * sf.dNdr r * x := by
    intro A
    rw [Matrix.mul_add, Matrix.mul_assoc A _ (translation n c), dNdr_translation h, Matrix.mul_zero, add_zero]
  simp only [deformation, this]

theorem C37_planeStrainUL_translation {sf : SF ℝ 2 n} (hc : Complete sf) (ic : IC ℝ 2)
    (X U : Matrix (Fin n) (Fin 2) ℝ) (E V t : ℝ) (c : Fin 2 → ℝ) :
    planeUL sf ic X (U + translation n c) E V t = planeUL sf ic X U E V t := by
  simp only [planeUL, loop2, grad?, ← add_assoc, jac_translation hc, deformation_translation hc]

theorem C37_solidUL_translation {sf : SF ℝ 3 n} (hc : Complete sf) (ic : IC ℝ 3)
    (X U : Matrix (Fin n) (Fin 3) ℝ) (E V : ℝ) (c : Fin 3 → ℝ) :
    solidUL sf ic X (U + translation n c) E V = solidUL sf ic X U E V := by
  simp only [solidUL, loop3, grad?, ← add_assoc, jac_translation hc, deformation_translation hc]

/-! ### Rotations -/

section Rotation
variable {K : Type} [Field K]

theorem green_eq (Z : Matrix (Fin d) (Fin d) K) :
    green Z = (1 / 2 : K) • ((1 + Z)ᵀ * (1 + Z) - 1) := by
  rw [green, transpose_add, transpose_one, Matrix.add_mul, Matrix.mul_add, Matrix.mul_add, Matrix.one_mul,
    Matrix.mul_one, Matrix.one_mul]
  congr 1
  abel

/-- The displacement gradient after rotating the deformed element about the origin. -/
theorem rotated_gradient {sf : SF K d n} {X U U' : Matrix (Fin n) (Fin d) K} {r : Fin d → K}
    (h : (sf.dNdr r * X).det ≠ 0) {Q : Matrix (Fin d) (Fin d) K} (hU : X + U' = (X + U) * Qᵀ) :
    1 + dispGrad (gradAt sf X r) U' = Q * (1 + dispGrad (gradAt sf X r) U) := by
  have e : ∀ W, 1 + dispGrad (gradAt sf X r) W = (gradAt sf X r * (X + W))ᵀ := by
    intro W
    rw [Matrix.mul_add, gradAt_mul h, transpose_add, transpose_one, dispGrad]
  rw [e, e, hU, ← Matrix.mul_assoc, transpose_mul, transpose_transpose]

theorem rotated_green {Z Z' Q : Matrix (Fin d) (Fin d) K} (hQ : Qᵀ * Q = 1)
    (h : 1 + Z' = Q * (1 + Z)) : green Z' = green Z := by
  rw [green_eq, green_eq, h, transpose_mul, Matrix.mul_assoc, ← Matrix.mul_assoc Qᵀ, hQ, Matrix.one_mul]

theorem dispGrad_mul (G : Matrix (Fin d) (Fin n) K) (W : Matrix (Fin n) (Fin d) K)
    (Q : Matrix (Fin d) (Fin d) K) : dispGrad G (W * Qᵀ) = Q * dispGrad G W := by
  rw [dispGrad, ← Matrix.mul_assoc, transpose_mul, transpose_transpose, dispGrad]

/-- Rotation of nodal vectors. -/
def rotate (Q : Matrix (Fin d) (Fin d) K) (f : Fin n × Fin d → K) : Fin n × Fin d → K :=
  flat (nodes f * Qᵀ)

theorem rotate_flat (Q : Matrix (Fin d) (Fin d) K) (W : Matrix (Fin n) (Fin d) K) :
    rotate Q (flat W) = flat (W * Qᵀ) := rfl

theorem rotate_add (Q : Matrix (Fin d) (Fin d) K) (f g : Fin n × Fin d → K) :
    rotate Q (f + g) = rotate Q f + rotate Q g := by
  rw [rotate, show nodes (f + g) = nodes f + nodes g from rfl, Matrix.add_mul, flat_add]; rfl

theorem rotate_smul (Q : Matrix (Fin d) (Fin d) K) (c : K) (f : Fin n × Fin d → K) :
    rotate Q (c • f) = c • rotate Q f := by
  rw [rotate, show nodes (c • f) = c • nodes f from rfl, Matrix.smul_mul, flat_smul]; rfl

theorem rotate_neg (Q : Matrix (Fin d) (Fin d) K) (f : Fin n × Fin d → K) :
    rotate Q (-f) = -rotate Q f := by
  rw [← neg_one_smul K f, rotate_smul, neg_one_smul]

theorem rotate_zero (Q : Matrix (Fin d) (Fin d) K) : rotate Q (0 : Fin n × Fin d → K) = 0 := by
  have := rotate_smul Q (0 : K) (0 : Fin n × Fin d → K)
  rwa [zero_smul, zero_smul] at this

theorem rotate_sum {N : ℕ} (Q : Matrix (Fin d) (Fin d) K) (f : Fin N → Fin n × Fin d → K) :
    rotate Q (∑ g, f g) = ∑ g, rotate Q (f g) := by
  induction N with
  | zero => simp [rotate_zero]
  | succ N ih => rw [Fin.sum_univ_succ, rotate_add, ih, Fin.sum_univ_succ]

variable [DecidableEq K]

/-- C72: rotating the deformed element rotates the residual, and the tangent with it. -/
theorem C72_planeStrainTL {sf : SF K 2 n} {ic : IC K 2} {X U U' : Matrix (Fin n) (Fin 2) K} {E V t : K} {Ke Fe}
    (h : planeTL sf ic X U E V t = some (Ke, Fe)) {Q : Matrix (Fin 2) (Fin 2) K} (hQ : Qᵀ * Q = 1)
    (hU : X + U' = (X + U) * Qᵀ) :
    ∃ Ke', planeTL sf ic X U' E V t = some (Ke', rotate Q Fe) ∧
      ∀ w, Ke' *ᵥ rotate Q w = rotate Q (Ke *ᵥ w) := by
  obtain ⟨D, hD, hreg, rfl, rfl⟩ := planeTL_eq_some.1 h
  have hF := fun g => rotated_gradient (r := ic.points g) (hreg g) hU
  have hE := fun g => rotated_green hQ (hF g)
  refine ⟨_, planeTL_eq_some.2 ⟨D, hD, hreg, rfl, ?_⟩, fun w => ?_⟩
  · rw [tlForce2, rotate_neg, rotate_sum, tlForce2]
    refine congrArg _ (Finset.sum_congr rfl fun g _ => ?_)
    rw [rotate_smul, rotate_flat, hE, hF, transpose_mul, ← Matrix.mul_assoc]
  · rw [mulVec_sum, mulVec_sum, rotate_sum]
    refine Finset.sum_congr rfl fun g _ => ?_
    have e1 := tlTangent2_mulVec D (gradAt sf X (ic.points g)) U' (nodes w * Qᵀ)
    have e2 := tlTangent2_mulVec D (gradAt sf X (ic.points g)) U (nodes w)
    rw [smul_mulVec, smul_mulVec, rotate_smul, rotate, e1, ← flat_nodes w, e2, rotate_add, rotate_flat,
      rotate_flat, hE, hF, dispGrad_mul, flat_nodes]
    have e3 : ∀ A B : Matrix (Fin 2) (Fin 2) K, (Q * A)ᵀ * (Q * B) = Aᵀ * B := by
      intro A B
      rw [transpose_mul, Matrix.mul_assoc, ← Matrix.mul_assoc Qᵀ, hQ, Matrix.one_mul]
    rw [e3, transpose_mul, transpose_mul, ← Matrix.mul_assoc, ← Matrix.mul_assoc]

/-- C72: rotating the deformed element rotates the residual, and the tangent with it. -/
theorem C72_solidTL {sf : SF K 3 n} {ic : IC K 3} {X U U' : Matrix (Fin n) (Fin 3) K} {E V : K} {Ke Fe}
    (h : solidTL sf ic X U E V = some (Ke, Fe)) {Q : Matrix (Fin 3) (Fin 3) K} (hQ : Qᵀ * Q = 1)
    (hU : X + U' = (X + U) * Qᵀ) :
    ∃ Ke', solidTL sf ic X U' E V = some (Ke', rotate Q Fe) ∧
      ∀ w, Ke' *ᵥ rotate Q w = rotate Q (Ke *ᵥ w) := by
  obtain ⟨D, hD, hreg, rfl, rfl⟩ := solidTL_eq_some.1 h
  have hF := fun g => rotated_gradient (r := ic.points g) (hreg g) hU
  have hE := fun g => rotated_green hQ (hF g)
  refine ⟨_, solidTL_eq_some.2 ⟨D, hD, hreg, rfl, ?_⟩, fun w => ?_⟩
  · rw [tlForce3, rotate_neg, rotate_sum, tlForce3]
    refine congrArg _ (Finset.sum_congr rfl fun g _ => ?_)
    rw [rotate_smul, rotate_flat, hE, hF, transpose_mul, ← Matrix.mul_assoc]
  · rw [mulVec_sum, mulVec_sum, rotate_sum]
    refine Finset.sum_congr rfl fun g _ => ?_
    have e1 := tlTangent3_mulVec D (gradAt sf X (ic.points g)) U' (nodes w * Qᵀ)
    have e2 := tlTangent3_mulVec D (gradAt sf X (ic.points g)) U (nodes w)
    rw [smul_mulVec, smul_mulVec, rotate_smul, rotate, e1, ← flat_nodes w, e2, rotate_add, rotate_flat,
      rotate_flat, hE, hF, dispGrad_mul, flat_nodes]
    have e3 : ∀ A B : Matrix (Fin 3) (Fin 3) K, (Q * A)ᵀ * (Q * B) = Aᵀ * B := by
      intro A B
      rw [transpose_mul, Matrix.mul_assoc, ← Matrix.mul_assoc Qᵀ, hQ, Matrix.one_mul]
    rw [e3, transpose_mul, transpose_mul, ← Matrix.mul_assoc, ← Matrix.mul_assoc]

end Rotation

theorem neoHooke_rotated (mu0 lambda0 : ℝ) {Q : Matrix (Fin d) (Fin d) ℝ} (hQ : Qᵀ * Q = 1)
    (hdet : Q.det = 1) (F : Matrix (Fin d) (Fin d) ℝ) :
    neoHooke mu0 lambda0 (Q * F) = neoHooke mu0 lambda0 F * Qᵀ := by
  have hinv : Q⁻¹ = Qᵀ := Matrix.inv_eq_left_inv hQ
  rw [neoHooke, neoHooke, transpose_mul, Matrix.mul_inv_rev, hinv, det_mul, hdet, one_mul, Matrix.add_mul,
    Matrix.smul_mul, Matrix.smul_mul, Matrix.sub_mul]

theorem neoHookeDeriv_rotated (mu0 lambda0 : ℝ) {Q : Matrix (Fin d) (Fin d) ℝ} (hQ : Qᵀ * Q = 1)
    (hdet : Q.det = 1) (F V : Matrix (Fin d) (Fin d) ℝ) :
    neoHookeDeriv mu0 lambda0 (Q * F) (Q * V) = neoHookeDeriv mu0 lambda0 F V * Qᵀ := by
  have hinv : Q⁻¹ = Qᵀ := Matrix.inv_eq_left_inv hQ
  have e : F⁻¹ * Qᵀ * (Q * V) = F⁻¹ * V := by
    rw [Matrix.mul_assoc, ← Matrix.mul_assoc Qᵀ, hQ, Matrix.one_mul]
  rw [neoHookeDeriv, neoHookeDeriv, transpose_mul, Matrix.mul_inv_rev, hinv, det_mul, hdet, one_mul, e,
    Matrix.add_mul, Matrix.add_mul, Matrix.smul_mul, Matrix.smul_mul, Matrix.smul_mul,
    Matrix.mul_assoc (F⁻¹ * V)]

/-- C72, Updated Lagrange: the same for proper rotations. -/
theorem C72_planeStrainUL {sf : SF ℝ 2 n} {ic : IC ℝ 2} {X U U' : Matrix (Fin n) (Fin 2) ℝ} {E V t : ℝ} {Ke Fe}
    (h : planeUL sf ic X U E V t = some (Ke, Fe)) {Q : Matrix (Fin 2) (Fin 2) ℝ} (hQ : Qᵀ * Q = 1)
    (hdet : Q.det = 1) (hU : X + U' = (X + U) * Qᵀ) :
    ∃ Ke', planeUL sf ic X U' E V t = some (Ke', rotate Q Fe) ∧
      ∀ w, Ke' *ᵥ rotate Q w = rotate Q (Ke *ᵥ w) := by
  obtain ⟨mu0, lambda0, hl, hreg, hp, rfl, rfl⟩ := planeUL_eq_some.1 h
  have hF : ∀ g, defGrad sf X (X + U') (ic.points g) = Q * defGrad sf X (X + U) (ic.points g) := by
    intro g
    rw [defGrad, hU, ← Matrix.mul_assoc, transpose_mul, transpose_transpose]; rfl
  have hp' : ∀ g, 0 < (defGrad sf X (X + U') (ic.points g)).det := by
    intro g
    rw [hF, det_mul, hdet, one_mul]
    exact hp g
  refine ⟨_, planeUL_eq_some.2 ⟨mu0, lambda0, hl, hreg, hp', rfl, ?_⟩, fun w => ?_⟩
  · rw [rotate_neg, rotate_sum]
    refine congrArg _ (Finset.sum_congr rfl fun g _ => ?_)
    rw [rotate_smul, rotate_flat, hF, neoHooke_rotated mu0 lambda0 hQ hdet, Matrix.mul_assoc]
  · rw [mulVec_sum, mulVec_sum, rotate_sum]
    refine Finset.sum_congr rfl fun g _ => ?_
    have e1 := ulPoint2_mulVec (x := X + U') (hreg g) (hp' g).ne' mu0 lambda0 (nodes w * Qᵀ)
    have e2 := ulPoint2_mulVec (x := X + U) (hreg g) (hp g).ne' mu0 lambda0 (nodes w)
    rw [flat_nodes] at e2
    rw [rotate, e1, e2, rotate_smul, rotate_flat, hF, dispGrad_mul,
      neoHookeDeriv_rotated mu0 lambda0 hQ hdet, Matrix.mul_assoc]

/-- C72, Updated Lagrange: the same for proper rotations. -/
theorem C72_solidUL {sf : SF ℝ 3 n} {ic : IC ℝ 3} {X U U' : Matrix (Fin n) (Fin 3) ℝ} {E V : ℝ} {Ke Fe}
    (h : solidUL sf ic X U E V = some (Ke, Fe)) {Q : Matrix (Fin 3) (Fin 3) ℝ} (hQ : Qᵀ * Q = 1)
    (hdet : Q.det = 1) (hU : X + U' = (X + U) * Qᵀ) :
    ∃ Ke', solidUL sf ic X U' E V = some (Ke', rotate Q Fe) ∧
      ∀ w, Ke' *ᵥ rotate Q w = rotate Q (Ke *ᵥ w) := by
  obtain ⟨mu0, lambda0, hl, hreg, hp, rfl, rfl⟩ := solidUL_eq_some.1 h
  have hF : ∀ g, defGrad sf X (X + U') (ic.points g) = Q * defGrad sf X (X + U) (ic.points g) := by
    intro g
    rw [defGrad, hU, ← Matrix.mul_assoc, transpose_mul, transpose_transpose]; rfl
  have hp' : ∀ g, 0 < (defGrad sf X (X + U') (ic.points g)).det := by
    intro g
    rw [hF, det_mul, hdet, one_mul]
    exact hp g
  refine ⟨_, solidUL_eq_some.2 ⟨mu0, lambda0, hl, hreg, hp', rfl, ?_⟩, fun w => ?_⟩
  · rw [rotate_neg, rotate_sum]
    refine congrArg _ (Finset.sum_congr rfl fun g _ => ?_)
    rw [rotate_smul, rotate_flat, hF, neoHooke_rotated mu0 lambda0 hQ hdet, Matrix.mul_assoc]
  · rw [mulVec_sum, mulVec_sum, rotate_sum]
    refine Finset.sum_congr rfl fun g _ => ?_
    have e1 := ulPoint3_mulVec (x := X + U') (hreg g) (hp' g).ne' mu0 lambda0 (nodes w * Qᵀ)
    have e2 := ulPoint3_mulVec (x := X + U) (hreg g) (hp g).ne' mu0 lambda0 (nodes w)
    rw [flat_nodes] at e2
    rw [rotate, e1, e2, rotate_smul, rotate_flat, hF, dispGrad_mul,
      neoHookeDeriv_rotated mu0 lambda0 hQ hdet, Matrix.mul_assoc]

/-! ### Pressure that follows the boundary -/

section Pressure
variable {K : Type} [Field K]

theorem pressureUL_eq_some {sf : SF K 1 n} {ic : IC K 1} {X U : Matrix (Fin n) (Fin 2) K} {P t : K}
    {Ke Fe} : pressureUL sf ic X U P t = some (Ke, Fe) ↔
      Ke = -∑ g, (1 / 2 * P * t * ic.weights g 0) • pressureM (sf.N (ic.points g)) (sf.dNdr (ic.points g)) ∧
      Fe = ∑ g, (P * t * ic.weights g 0) • pressureV (sf.N (ic.points g))
        (sf.dNdr (ic.points g) * (X + U)) := by
  rw [pressureUL, gauss_some, Option.some.injEq, Prod.ext_iff, Prod.fst_sum, Prod.snd_sum]
  simp only [Finset.sum_neg_distrib, eq_comm]

/-- C73: the tangent is symmetric. -/
theorem C73_symm {sf : SF K 1 n} {ic : IC K 1} {X U : Matrix (Fin n) (Fin 2) K} {P t : K} {Ke Fe}
    (h : pressureUL sf ic X U P t = some (Ke, Fe)) : Ke.IsSymm := by
  obtain ⟨rfl, -⟩ := pressureUL_eq_some.1 h
  refine Matrix.IsSymm.neg (isSymm_smul_sum fun g => ?_)
  ext ⟨i, a⟩ ⟨j, b⟩
  fin_cases a <;> fin_cases b <;> simp [pressureM] <;> ring

theorem pressureV_add_smul (N : Fin n → K) (A B : Matrix (Fin 1) (Fin 2) K) (s : K) :
    pressureV N (A + s • B) = pressureV N A + s • pressureV N B := by
  ext ⟨i, a⟩
  fin_cases a <;> simp [pressureV] <;> ring

/-- The matrix taking nodal vectors to the load of the pressure at a point. -/
def pressureJ (N : Fin n → K) (dNdr : Matrix (Fin 1) (Fin n) K) :
    Matrix (Fin n × Fin 2) (Fin n × Fin 2) K :=
  Matrix.of fun r c => ![![0, -N r.1 * dNdr 0 c.1], ![N r.1 * dNdr 0 c.1, 0]] r.2 c.2

theorem pressureJ_mulVec (N : Fin n → K) (dNdr : Matrix (Fin 1) (Fin n) K) (W : Matrix (Fin n) (Fin 2) K) :
    pressureJ N dNdr *ᵥ flat W = pressureV N (dNdr * W) := by
  ext ⟨i, a⟩
  fin_cases a <;>
    simp [pressureJ, pressureV, flat, mulVec, dotProduct, Fintype.sum_prod_type, Matrix.mul_apply,
      Finset.mul_sum, mul_assoc]

/-- The tangent at a point is the symmetric part. -/
theorem pressureM_eq (N : Fin n → K) (dNdr : Matrix (Fin 1) (Fin n) K) :
    pressureM N dNdr = pressureJ N dNdr + (pressureJ N dNdr)ᵀ := by
  ext ⟨i, a⟩ ⟨j, b⟩
  fin_cases a <;> fin_cases b <;> simp [pressureM, pressureJ] <;> ring

end Pressure

/-- C73: the load is differentiable and the tangent is minus the symmetric part of its Jacobian: no
other symmetric matrix is closer to the exact tangent, which is not symmetric for a single edge. -/
theorem C73_jacobian {sf : SF ℝ 1 n} {ic : IC ℝ 1} {X : Matrix (Fin n) (Fin 2) ℝ} {P t : ℝ}
    {Fe : (Fin n × Fin 2 → ℝ) → Fin n × Fin 2 → ℝ}
    (hF : ∀ u, ∃ A, pressureUL sf ic X (nodes u) P t = some (A, Fe u)) {u Ke f}
    (h : pressureUL sf ic X (nodes u) P t = some (Ke, f)) :
    ∃ J, IsJacobian Fe u J ∧ Ke = -((1 / 2 : ℝ) • (J + Jᵀ)) := by
  obtain ⟨rfl, -⟩ := pressureUL_eq_some.1 h
  have hFe : ∀ v, Fe v = ∑ g, (P * t * ic.weights g 0) • pressureV (sf.N (ic.points g))
        (sf.dNdr (ic.points g) * (X + nodes v)) := by
    intro v
    obtain ⟨A, hA⟩ := hF v
    exact (pressureUL_eq_some.1 hA).2
  refine ⟨∑ g, (P * t * ic.weights g 0) • pressureJ (sf.N (ic.points g)) (sf.dNdr (ic.points g)),
    fun w => ?_, ?_⟩
  · refine hasDerivAt_of_expansion (a := Fe u) (r := fun _ => 0) continuousAt_const
      (Filter.Eventually.of_forall fun s => ?_)
    simp only [hFe, nodes_add_smul, ← add_assoc, Matrix.mul_add, Matrix.mul_smul, smul_zero, add_zero]
    simp only [← Matrix.mul_add, pressureV_add_smul, smul_add, Finset.sum_add_distrib, mulVec_sum,
      smul_mulVec, Finset.smul_sum]
    refine congrArg _ (Finset.sum_congr rfl fun g _ => ?_)
    rw [← pressureJ_mulVec, flat_nodes, smul_comm]
  · rw [transpose_sum, ← Finset.sum_add_distrib, Finset.smul_sum]
    refine congrArg _ (Finset.sum_congr rfl fun g _ => ?_)
    rw [pressureM_eq, transpose_smul, ← smul_add, smul_smul]
    congr 1
    ring

/-- C73: the total load is the pressure times the thickness times the integrated tangent of the deformed
edge, turned by a right angle. -/
theorem C73_total {K : Type} [Field K] {sf : SF K 1 n} {ic : IC K 1}
    (hN : ∀ r, ∑ i, sf.N r i = 1) {X U : Matrix (Fin n) (Fin 2) K} {P t : K}
    {Ke Fe} (h : pressureUL sf ic X U P t = some (Ke, Fe)) :
    ∑ i, Fe (i, 0) = -(P * t) * ∑ g, ic.weights g 0 * (sf.dNdr (ic.points g) * (X + U)) 0 1 ∧
    ∑ i, Fe (i, 1) = P * t * ∑ g, ic.weights g 0 * (sf.dNdr (ic.points g) * (X + U)) 0 0 := by
  obtain ⟨-, rfl⟩ := pressureUL_eq_some.1 h
  simp only [Finset.sum_apply, Pi.smul_apply, pressureV, smul_eq_mul, Matrix.cons_val_zero,
    Matrix.cons_val_one]
  constructor <;>
  · rw [Finset.sum_comm, Finset.mul_sum]
    refine Finset.sum_congr rfl fun g _ => ?_
    simp only [neg_mul, mul_neg, Finset.sum_neg_distrib, ← Finset.mul_sum, ← Finset.sum_mul, hN]
    ring

/-- C73, a straight edge: the total load is the pressure on the deformed edge, at right angles to it. -/
theorem C73_line2 {X U : Matrix (Fin 2) (Fin 2) ℝ} {P t : ℝ} {Ke Fe}
    (h : pressureUL (SF.line2 : SF ℝ 1 2) IC.gauss2Line X U P t = some (Ke, Fe)) :
    ∑ i, Fe (i, 0) = -(P * t) * ((X + U) 1 1 - (X + U) 0 1) ∧
    ∑ i, Fe (i, 1) = P * t * ((X + U) 1 0 - (X + U) 0 0) := by
  have hN : ∀ r, ∑ i, (SF.line2 : SF ℝ 1 2).N r i = 1 := by
    intro r
    simp [SF.line2, Fin.sum_univ_succ]
    ring
  obtain ⟨h1, h2⟩ := C73_total hN h
  have hS : ∀ f : Fin IC.gauss2Line.N → ℝ, ∑ g, f g = f ⟨0, Nat.two_pos⟩ + f ⟨1, Nat.one_lt_two⟩ :=
    fun f => Fin.sum_univ_two f
  rw [h1, h2, hS, hS]
  constructor <;>
  · congr 1
    simp [SF.line2, IC.gauss2Line, Matrix.mul_apply, Fin.sum_univ_succ]
    ring

/-! ### Cases -/

/-- The hypotheses of C37 at zero displacement and of its translations. -/
example : (∃ p, planeTL (SF.triangle3 : SF ℝ 2 3) exRuleR exTriR 0 5 (1 / 4) 2 = some p) ∧
    (∃ p, solidTL (SF.tetrahedron4 : SF ℝ 3 4) exRule3R exTetR 0 5 (1 / 4) = some p) ∧
    (∃ p, planeTL (SF.triangle3 : SF ℝ 2 3) exRuleR exTriR (exTriR + translation 3 ![3, 4]) 5 (1 / 4) 2
      = some p) := by
  refine ⟨exPlaneTL _ _ _, exSolidTL _ _, exPlaneTL _ _ _⟩

example : (∃ p, planeUL (SF.triangle3 : SF ℝ 2 3) exRuleR exTriR 0 5 (1 / 4) 2 = some p) ∧
    (∃ p, solidUL (SF.tetrahedron4 : SF ℝ 3 4) exRule3R exTetR 0 5 (1 / 4) = some p) := by
  obtain ⟨⟨a, b⟩, hl⟩ : ∃ p, lame 5 (1 / 4) = some p :=
    ⟨(_, _), lame_eq_some.2 ⟨by norm_num, rfl, rfl⟩⟩
  refine ⟨⟨(_, _), planeUL_eq_some.2 ⟨a, b, hl, exTriR_regular, fun g => ?_, rfl, rfl⟩⟩,
    ⟨(_, _), solidUL_eq_some.2 ⟨a, b, hl, exTetR_regular, fun g => ?_, rfl, rfl⟩⟩⟩
  · rw [add_zero, defGrad_self (exTriR_regular g), det_one]; exact one_pos
  · rw [add_zero, defGrad_self (exTetR_regular g), det_one]; exact one_pos

/-- A quarter turn of the triangle: the hypotheses of C72. -/
example : ∃ Q : Matrix (Fin 2) (Fin 2) ℝ, Qᵀ * Q = 1 ∧ Q.det = 1 ∧ Q ≠ 1 ∧
    exTriR + ((2 : ℝ) • (exTriR * Qᵀ) - exTriR) = (exTriR + exTriR) * Qᵀ := by
  refine ⟨!![0, -1; 1, 0], ?_, ?_, ?_, ?_⟩
  · ext i j; fin_cases i <;> fin_cases j <;> simp [Matrix.mul_apply, Fin.sum_univ_succ]
  · simp [det_fin_two]
  · intro h
    have := congrFun (congrFun h 0) 0
    simp at this
  · rw [add_sub_cancel, ← two_smul ℝ exTriR, Matrix.smul_mul]

/-- The hypotheses of C73. -/
example (u : Fin 2 × Fin 2 → ℝ) : ∃ p, pressureUL (SF.line2 : SF ℝ 1 2) IC.gauss2Line
    !![0, 0; 1, 2] (nodes u) 3 1 = some p :=
  ⟨(_, _), pressureUL_eq_some.2 ⟨rfl, rfl⟩⟩

end Pansfem
