/-
C79 Constant states: the virtual work of two affine fields is the exact one.
C80 The constitutive matrices are Hooke's law.
-/
import Verif.Props.C35_Splitting
import Verif.Props.C33_RigidMotions

namespace Pansfem

open Matrix

variable {K : Type} [Field K] {n : ℕ}

/-! ### Affine fields -/

/-- The nodal values of the field `a + H x`, `H j k` is the derivative of component `j` in
direction `k`. -/
def affineField {d : ℕ} (X : Matrix (Fin n) (Fin d) K) (a : Fin d → K)
    (H : Matrix (Fin d) (Fin d) K) : Fin n × Fin d → K :=
  fun p => a p.2 + ∑ k, H p.2 k * X p.1 k

/-- The symmetric part of a displacement gradient, with engineering shear strain. -/
def smallStrain2 (H : Matrix (Fin 2) (Fin 2) K) : Fin 3 → K := ![H 0 0, H 1 1, H 0 1 + H 1 0]

/-- The same for solids, in the order xx, yy, zz, xy, yz, zx. -/
def smallStrain3 (H : Matrix (Fin 3) (Fin 3) K) : Fin 6 → K :=
  ![H 0 0, H 1 1, H 2 2, H 0 1 + H 1 0, H 1 2 + H 2 1, H 0 2 + H 2 0]

theorem sum_gradAt_affine {d : ℕ} {sf : SF K d n} {X : Matrix (Fin n) (Fin d) K} {r : Fin d → K}
    (hc : Complete sf) (hr : (sf.dNdr r * X).det ≠ 0) (a : Fin d → K)
    (H : Matrix (Fin d) (Fin d) K) (k j : Fin d) :
    ∑ i, gradAt sf X r k i * affineField X a H (i, j) = H j k := by
  have h0 := sum_gradAt hc X r
  have h1 := sum_gradAt_mul hr
  simp only [affineField, mul_add, Finset.sum_add_distrib, ← Finset.sum_mul, h0, zero_mul, zero_add,
    Finset.mul_sum]
  rw [Finset.sum_comm]
  have : ∀ l, ∑ i, gradAt sf X r k i * (H j l * X i l) = H j l * if k = l then 1 else 0 := by
    intro l
    rw [← h1 k l, Finset.mul_sum]
    exact Finset.sum_congr rfl fun i _ => by ring
  simp [this]

theorem strain2_affine {sf : SF K 2 n} {X : Matrix (Fin n) (Fin 2) K} {r : Fin 2 → K}
    (hc : Complete sf) (hr : (sf.dNdr r * X).det ≠ 0) (a : Fin 2 → K)
    (H : Matrix (Fin 2) (Fin 2) K) :
    strain2 (gradAt sf X r) (affineField X a H) = smallStrain2 H := by
  simp only [strain2, smallStrain2, sum_gradAt_affine hc hr]

theorem strain3_affine {sf : SF K 3 n} {X : Matrix (Fin n) (Fin 3) K} {r : Fin 3 → K}
    (hc : Complete sf) (hr : (sf.dNdr r * X).det ≠ 0) (a : Fin 3 → K)
    (H : Matrix (Fin 3) (Fin 3) K) :
    strain3 (gradAt sf X r) (affineField X a H) = smallStrain3 H := by
  simp only [strain3, smallStrain3, sum_gradAt_affine hc hr]

/-! ### C80: Hooke's law -/

/-- Hooke's law for an isotropic solid with the Lamé constants `lam`, `mu`. -/
def hooke (lam mu : K) (e : Matrix (Fin 3) (Fin 3) K) : Matrix (Fin 3) (Fin 3) K :=
  (lam * e.trace) • (1 : Matrix (Fin 3) (Fin 3) K) + (2 * mu) • e

/-- Lamé's first constant from Young's modulus and Poisson's ratio. -/
def lameLambda (E V : K) : K := E * V / ((1 + V) * (1 - 2 * V))

/-- The shear modulus from Young's modulus and Poisson's ratio. -/
def shearModulus (E V : K) : K := E / (2 * (1 + V))

/-- The stress components in the order xx, yy, zz, xy, yz, zx. -/
def stress6 (s : Matrix (Fin 3) (Fin 3) K) : Fin 6 → K :=
  ![s 0 0, s 1 1, s 2 2, s 0 1, s 1 2, s 0 2]

/-- The strain tensor of a plane state with the strain `ezz` out of the plane. -/
def planeTensor (e : Fin 3 → K) (ezz : K) : Matrix (Fin 3) (Fin 3) K :=
  Matrix.of ![![e 0, e 2 / 2, 0], ![e 2 / 2, e 1, 0], ![0, 0, ezz]]

section Hooke
variable [CharZero K] [DecidableEq K] {E V : K}

/-- **C80** for the solid: `C` maps every symmetric strain tensor to the stress of Hooke's law. -/
theorem C80_solid {C : Matrix (Fin 6) (Fin 6) K} (h : solidC E V = some C)
    (e : Matrix (Fin 3) (Fin 3) K) (he : eᵀ = e) :
    C *ᵥ smallStrain3 e = stress6 (hooke (lameLambda E V) (shearModulus E V) e) := by
  obtain ⟨h0, rfl⟩ := solidC_eq_some.1 h
  have h1 : 1 + V ≠ 0 := left_ne_zero_of_mul h0
  have h2 : 1 - 2 * V ≠ 0 := right_ne_zero_of_mul h0
  have h2' : 1 - V * 2 ≠ 0 := by rwa [mul_comm] at h2
  have s01 : e 1 0 = e 0 1 := congrFun (congrFun he 0) 1
  have s12 : e 2 1 = e 1 2 := congrFun (congrFun he 1) 2
  have s02 : e 2 0 = e 0 2 := congrFun (congrFun he 0) 2
  ext q
  fin_cases q <;>
    simp [Matrix.mulVec, dotProduct, Fin.sum_univ_succ, solidC0, smallStrain3,
      stress6, hooke, lameLambda, shearModulus, Matrix.trace, s01, s12, s02] <;> field_simp <;> ring

/-- **C80** for plane strain: `D` gives the in-plane stress of Hooke's law without strain out of the
plane. -/
theorem C80_planeStrain {D : Matrix (Fin 3) (Fin 3) K} (h : planeStrainD E V = some D)
    (e : Fin 3 → K) :
    D *ᵥ e = ![hooke (lameLambda E V) (shearModulus E V) (planeTensor e 0) 0 0,
      hooke (lameLambda E V) (shearModulus E V) (planeTensor e 0) 1 1,
      hooke (lameLambda E V) (shearModulus E V) (planeTensor e 0) 0 1] := by
  obtain ⟨h0, rfl⟩ := planeStrainD_eq_some.1 h
  have h1 : 1 + V ≠ 0 := right_ne_zero_of_mul h0
  have h2 : 1 - 2 * V ≠ 0 := left_ne_zero_of_mul h0
  have h2' : 1 - V * 2 ≠ 0 := by rwa [mul_comm] at h2
  ext q
  fin_cases q <;>
    simp [Matrix.mulVec, dotProduct, Fin.sum_univ_succ, planeStrainD0,
      hooke, lameLambda, shearModulus, Matrix.trace, planeTensor] <;> field_simp <;> ring

/-- **C80** for plane stress: `D` gives the in-plane stress of Hooke's law with the strain out of the
plane for which the stress out of the plane vanishes. -/
theorem C80_planeStress {D : Matrix (Fin 3) (Fin 3) K} (h : planeStressD E V = some D)
    (h2 : 1 - 2 * V ≠ 0) (e : Fin 3 → K) (ezz : K)
    (hz : hooke (lameLambda E V) (shearModulus E V) (planeTensor e ezz) 2 2 = 0) :
    E = 0 ∨ D *ᵥ e = ![hooke (lameLambda E V) (shearModulus E V) (planeTensor e ezz) 0 0,
      hooke (lameLambda E V) (shearModulus E V) (planeTensor e ezz) 1 1,
      hooke (lameLambda E V) (shearModulus E V) (planeTensor e ezz) 0 1] := by
  obtain ⟨h0, rfl⟩ := planeStressD_eq_some.1 h
  have h1 : 1 + V ≠ 0 := right_ne_zero_of_mul h0
  have h3 : 1 - V ≠ 0 := left_ne_zero_of_mul h0
  have h2' : 1 - V * 2 ≠ 0 := by rwa [mul_comm] at h2
  rcases eq_or_ne E 0 with hE | hE
  · exact .inl hE
  have hez : ezz = -(V / (1 - V)) * (e 0 + e 1) := by
    simp [hooke, lameLambda, shearModulus, Matrix.trace, planeTensor, Fin.sum_univ_succ] at hz
    field_simp at hz
    have : E * ((1 - V) * ezz + V * (e 0 + e 1)) = 0 := by linear_combination hz
    have := (mul_eq_zero.1 this).resolve_left hE
    field_simp
    linear_combination this
  right
  subst hez
  ext q
  fin_cases q <;>
    simp [Matrix.mulVec, dotProduct, Fin.sum_univ_succ, planeStressD0,
      hooke, lameLambda, shearModulus, Matrix.trace, planeTensor] <;> field_simp <;> ring

omit [CharZero K] in
/-- **C80**, the tension test in plane stress: stretching by `e` with lateral contraction `V e` needs
the stress `E e`, and nothing else. -/
theorem C80_tension {D : Matrix (Fin 3) (Fin 3) K} (h : planeStressD E V = some D) (e : K) :
    D *ᵥ ![e, -V * e, 0] = ![E * e, 0, 0] := by
  obtain ⟨h0, rfl⟩ := planeStressD_eq_some.1 h
  have h1 : 1 + V ≠ 0 := right_ne_zero_of_mul h0
  have h3 : 1 - V ≠ 0 := left_ne_zero_of_mul h0
  ext q
  fin_cases q <;>
    simp [Matrix.mulVec, dotProduct, Fin.sum_univ_succ, planeStressD0] <;>
    field_simp <;> ring

/-- **C80**, the tension test of the solid. -/
theorem C80_tension_solid {C : Matrix (Fin 6) (Fin 6) K} (h : solidC E V = some C) (e : K) :
    C *ᵥ ![e, -V * e, -V * e, 0, 0, 0] = ![E * e, 0, 0, 0, 0, 0] := by
  obtain ⟨h0, rfl⟩ := solidC_eq_some.1 h
  have h1 : 1 + V ≠ 0 := left_ne_zero_of_mul h0
  have h2 : 1 - 2 * V ≠ 0 := right_ne_zero_of_mul h0
  have h2' : 1 - V * 2 ≠ 0 := by rwa [mul_comm] at h2
  ext q
  fin_cases q <;>
    simp [Matrix.mulVec, dotProduct, Fin.sum_univ_succ, solidC0] <;>
    field_simp <;> ring

/-- **C80** for the parts of selective reduced integration: `Dvol` gives the bulk modulus times the
volume change as pressure, `Ddev` twice the shear modulus times the deviator of the strain tensor. -/
theorem C80_split {Dv Dd : Matrix (Fin 3) (Fin 3) K} (hv : planeStrainDvol E V = some Dv)
    (hd : planeStrainDdev E V = some Dd) (e : Fin 3 → K) :
    Dv *ᵥ e = ![E / (3 * (1 - 2 * V)) * (e 0 + e 1), E / (3 * (1 - 2 * V)) * (e 0 + e 1), 0] ∧
    Dd *ᵥ e = ![2 * shearModulus E V * (e 0 - (e 0 + e 1) / 3),
      2 * shearModulus E V * (e 1 - (e 0 + e 1) / 3), 2 * shearModulus E V * (e 2 / 2)] := by
  obtain ⟨h0, rfl⟩ := planeStrainDvol_eq_some.1 hv
  obtain ⟨h6, rfl⟩ := planeStrainDdev_eq_some.1 hd
  have h1 : 1 + V ≠ 0 := right_ne_zero_of_mul h6
  have h2 : 1 - 2 * V ≠ 0 := right_ne_zero_of_mul h0
  have h2' : 1 - V * 2 ≠ 0 := by rwa [mul_comm] at h2
  constructor <;> ext q <;> fin_cases q <;>
    simp [Matrix.mulVec, dotProduct, Fin.sum_univ_succ, shearModulus] <;>
    field_simp <;> ring

end Hooke

/-! ### C79: constant states -/

section Patch
variable [DecidableEq K] {sf : SF K 2 n} {ic icV icD : IC K 2} {X : Matrix (Fin n) (Fin 2) K}
  {E V t : K}

/-- **C79** for `PlaneStiffness`, whatever the constitutive matrix. -/
theorem C79_planeStiffness (hc : Complete sf) {D : Matrix (Fin 3) (Fin 3) K}
    {Ke : Matrix (Fin n × Fin 2) (Fin n × Fin 2) K} (h : planeStiffness sf ic X D t = some Ke)
    (a b : Fin 2 → K) (H L : Matrix (Fin 2) (Fin 2) K) :
    affineField X a H ⬝ᵥ (Ke *ᵥ affineField X b L) =
      t * area sf ic X * (smallStrain2 H ⬝ᵥ (D *ᵥ smallStrain2 L)) := by
  obtain ⟨hr, rfl⟩ := (planeStiffness_eq_some sf ic X).1 h
  rw [dot_sum_congr_transform, area_eq, Finset.mul_sum, Finset.sum_mul]
  refine Finset.sum_congr rfl fun g _ => ?_
  rw [planeB_mulVec, planeB_mulVec, strain2_affine hc (hr g), strain2_affine hc (hr g)]
  ring

/-- **C79** for `PlaneStrainStiffness`: the work is thickness times area times strain times the
stress of Hooke's law. -/
theorem C79_planeStrain [CharZero K] (hc : Complete sf)
    {Ke : Matrix (Fin n × Fin 2) (Fin n × Fin 2) K}
    (h : planeStrainStiffness sf ic X E V t = some Ke) (a b : Fin 2 → K)
    (H L : Matrix (Fin 2) (Fin 2) K) :
    affineField X a H ⬝ᵥ (Ke *ᵥ affineField X b L) = t * area sf ic X *
      ∑ i, ∑ j, planeTensor (smallStrain2 H) 0 i j *
        hooke (lameLambda E V) (shearModulus E V) (planeTensor (smallStrain2 L) 0) i j := by
  obtain ⟨D, hD, h⟩ := planeStrainStiffness_eq_some.1 h
  rw [C79_planeStiffness hc h, C80_planeStrain hD]
  congr 1
  simp [dotProduct, Fin.sum_univ_succ, planeTensor, hooke, smallStrain2]
  ring

/-- **C79** for `PlaneStressStiffness`, for a state `L` with its strain out of the plane. -/
theorem C79_planeStress [CharZero K] (hc : Complete sf)
    {Ke : Matrix (Fin n × Fin 2) (Fin n × Fin 2) K} (hE : E ≠ 0) (h2 : 1 - 2 * V ≠ 0)
    (h : planeStressStiffness sf ic X E V t = some Ke) (a b : Fin 2 → K)
    (H L : Matrix (Fin 2) (Fin 2) K) (ezz : K)
    (hz : hooke (lameLambda E V) (shearModulus E V) (planeTensor (smallStrain2 L) ezz) 2 2 = 0) :
    affineField X a H ⬝ᵥ (Ke *ᵥ affineField X b L) = t * area sf ic X *
      ∑ i, ∑ j, planeTensor (smallStrain2 H) 0 i j *
        hooke (lameLambda E V) (shearModulus E V) (planeTensor (smallStrain2 L) ezz) i j := by
  obtain ⟨D, hD, h⟩ := planeStressStiffness_eq_some.1 h
  rw [C79_planeStiffness hc h, (C80_planeStress hD h2 _ _ hz).resolve_left hE]
  congr 1
  simp [dotProduct, Fin.sum_univ_succ, planeTensor, hooke, smallStrain2]
  ring

/-- **C79** for `PlaneStrainStiffnessSRI`, for rules that agree on the area. -/
theorem C79_SRI [CharZero K] (hc : Complete sf) (ha : area sf icV X = area sf icD X)
    {Ke : Matrix (Fin n × Fin 2) (Fin n × Fin 2) K}
    (h : planeStrainStiffnessSRI sf icV icD X E V t = some Ke) (a b : Fin 2 → K)
    (H L : Matrix (Fin 2) (Fin 2) K) :
    affineField X a H ⬝ᵥ (Ke *ᵥ affineField X b L) = t * area sf icD X *
      ∑ i, ∑ j, planeTensor (smallStrain2 H) 0 i j *
        hooke (lameLambda E V) (shearModulus E V) (planeTensor (smallStrain2 L) 0) i j := by
  obtain ⟨Dv, Dd, hv, hd, h1, h2, rfl⟩ := (planeStrainStiffnessSRI_eq_some sf icV icD X).1 h
  have hD : planeStrainD E V = some (Dv + Dd) := by
    have e1 := right_ne_zero_of_mul (planeStrainDvol_eq_some.1 hv).1
    have e2 := right_ne_zero_of_mul (planeStrainDdev_eq_some.1 hd).1
    have e3 := planeStrainD_eq_some.2 ⟨mul_ne_zero e1 e2, (rfl : _ = (E / ((1 - 2 * V) * (1 + V))) • planeStrainD0 V)⟩
    rw [e3, C35_Dvol_add_Ddev e3 hv hd]
  have key : ∀ {ic : IC K 2} (D : Matrix (Fin 3) (Fin 3) K), Regular sf ic X →
      affineField X a H ⬝ᵥ ((∑ g, (measure2 sf ic X g * t) •
        ((planeB (gradAt sf X (ic.points g)))ᵀ * D * planeB (gradAt sf X (ic.points g)))) *ᵥ
          affineField X b L) = t * area sf ic X * (smallStrain2 H ⬝ᵥ (D *ᵥ smallStrain2 L)) :=
    fun {ic} D hr => C79_planeStiffness hc ((planeStiffness_eq_some sf ic X).2 ⟨hr, rfl⟩) a b H L
  rw [Matrix.add_mulVec, dotProduct_add, key Dv h1, key Dd h2, ha, ← mul_add, ← dotProduct_add,
    ← Matrix.add_mulVec, C80_planeStrain hD]
  congr 1
  simp [dotProduct, Fin.sum_univ_succ, planeTensor, hooke, smallStrain2]
  ring

/-- **C79** for `PlaneStrainStiffnessBbar`, for rules that agree on the area. -/
theorem C79_Bbar [CharZero K] (hc : Complete sf) (ha : area sf icV X = area sf icD X)
    {Ke : Matrix (Fin n × Fin 2) (Fin n × Fin 2) K}
    (h : planeStrainStiffnessBbar sf icV icD X E V t = some Ke) (a b : Fin 2 → K)
    (H L : Matrix (Fin 2) (Fin 2) K) :
    affineField X a H ⬝ᵥ (Ke *ᵥ affineField X b L) = t * area sf icD X *
      ∑ i, ∑ j, planeTensor (smallStrain2 H) 0 i j *
        hooke (lameLambda E V) (shearModulus E V) (planeTensor (smallStrain2 L) 0) i j := by
  obtain ⟨D, hD, h⟩ := planeStrainStiffnessBbar_eq_some.1 h
  obtain ⟨h1, h2, rfl⟩ := (planeStiffnessBbar_eq_some sf icV icD X).1 h
  rw [Matrix.add_mulVec, dotProduct_add, dot_sum_congr_transform, dot_sum_congr_transform]
  simp only [planeBvol_mulVec, planeBdev_mulVec, strain2_affine hc (h1 _),
    strain2_affine hc (h2 _), C80_planeStrain hD, ← Finset.sum_mul]
  rw [← area_eq, ← area_eq, ha]
  simp [dotProduct, Fin.sum_univ_succ, planeTensor, hooke, smallStrain2, Matrix.trace]
  ring

/-- **C79** for `SolidLinearIsotropicElastic`. -/
theorem C79_solid [CharZero K] {sf : SF K 3 n} {ic : IC K 3} {X : Matrix (Fin n) (Fin 3) K}
    (hc : Complete sf) {Ke : Matrix (Fin n × Fin 3) (Fin n × Fin 3) K}
    (h : solidStiffness sf ic X E V = some Ke) (a b : Fin 3 → K)
    (H L : Matrix (Fin 3) (Fin 3) K) (hH : Hᵀ = H) (hL : Lᵀ = L) :
    affineField X a H ⬝ᵥ (Ke *ᵥ affineField X b L) = volume sf ic X *
      ∑ i, ∑ j, H i j * hooke (lameLambda E V) (shearModulus E V) L i j := by
  obtain ⟨C, hC, hr, rfl⟩ := solidStiffness_eq_some.1 h
  rw [dot_sum_congr_transform]
  simp only [solidB_mulVec, strain3_affine hc (hr _), C80_solid hC _ hL, ← Finset.sum_mul]
  rw [show volume sf ic X = ∑ g, measure3 sf ic X g from rfl]
  congr 1
  have s01 : H 1 0 = H 0 1 := congrFun (congrFun hH 0) 1
  have s12 : H 2 1 = H 1 2 := congrFun (congrFun hH 1) 2
  have s02 : H 2 0 = H 0 2 := congrFun (congrFun hH 0) 2
  have l01 : L 1 0 = L 0 1 := congrFun (congrFun hL 0) 1
  have l12 : L 2 1 = L 1 2 := congrFun (congrFun hL 1) 2
  have l02 : L 2 0 = L 0 2 := congrFun (congrFun hL 0) 2
  simp [dotProduct, Fin.sum_univ_succ, hooke, stress6, smallStrain3, s01, s12, s02, l01, l12, l02]
  ring

/-- The nodal values of the scalar field `c + p x`. -/
def affineScalar (X : Matrix (Fin n) (Fin 2) K) (c : K) (p : Fin 2 → K) : Fin n → K :=
  fun i => c + ∑ k, p k * X i k

theorem gradAt_affineScalar (hc : Complete sf) {r : Fin 2 → K} (hr : (sf.dNdr r * X).det ≠ 0)
    (c : K) (p : Fin 2 → K) : gradAt sf X r *ᵥ affineScalar X c p = p := by
  have h0 := sum_gradAt hc X r
  have h1 := sum_gradAt_mul hr
  ext k
  simp only [Matrix.mulVec, dotProduct, affineScalar, mul_add, Finset.sum_add_distrib,
    ← Finset.sum_mul, h0, zero_mul, zero_add, Finset.mul_sum]
  rw [Finset.sum_comm]
  have : ∀ l, ∑ i, gradAt sf X r k i * (p l * X i l) = p l * if k = l then 1 else 0 := by
    intro l
    rw [← h1 k l, Finset.mul_sum]
    exact Finset.sum_congr rfl fun i _ => by ring
  simp [this]

theorem dot_sum_gram (hc : Complete sf) (hr : Regular sf ic X) (s c c' : K) (p q : Fin 2 → K) :
    affineScalar X c p ⬝ᵥ ((∑ g, (measure2 sf ic X g * s) •
      ((gradAt sf X (ic.points g))ᵀ * gradAt sf X (ic.points g))) *ᵥ affineScalar X c' q) =
      s * area sf ic X * (p ⬝ᵥ q) := by
  rw [mulVec_sum, dotProduct_sum, area_eq, Finset.mul_sum, Finset.sum_mul]
  refine Finset.sum_congr rfl fun g _ => ?_
  rw [Matrix.smul_mulVec, dotProduct_smul, ← Matrix.mulVec_mulVec, Matrix.dotProduct_mulVec,
    Matrix.vecMul_transpose, gradAt_affineScalar hc (hr g), gradAt_affineScalar hc (hr g),
    smul_eq_mul]
  ring

/-- **C79** for `HeatTransfer`: conductivity, thickness and area times the product of the
gradients. -/
theorem C79_heatTransfer (hc : Complete sf) {alpha : K} {Ke : Matrix (Fin n) (Fin n) K}
    (h : heatTransfer sf ic X alpha t = some Ke) (c c' : K) (p q : Fin 2 → K) :
    affineScalar X c p ⬝ᵥ (Ke *ᵥ affineScalar X c' q) =
      alpha * t * area sf ic X * (p ⬝ᵥ q) := by
  obtain ⟨hr, rfl⟩ := heatTransfer_eq_some.1 h
  exact dot_sum_gram hc hr _ c c' p q

/-- **C79** for `ReactionDiffusionStiffness` and `Diffusion`. -/
theorem C79_diffusion (hc : Complete sf) {D : K} {Ke : Matrix (Fin n) (Fin n) K}
    (h : rdStiffness sf ic X D = some Ke) (c c' : K) (p q : Fin 2 → K) :
    affineScalar X c p ⬝ᵥ (Ke *ᵥ affineScalar X c' q) = D * area sf ic X * (p ⬝ᵥ q) := by
  obtain ⟨hr, rfl⟩ := rdStiffness_eq_some.1 h
  exact dot_sum_gram hc hr _ c c' p q

/-- The total of `ReactionDiffusionReaction`: a reaction that depends on the value of an affine
field's gradient only (and of a constant value) is multiplied by the area. -/
theorem C79_reaction (hc : Complete sf) (hp : PartitionOfUnity sf) (f : K → (Fin 2 → K) → K) (c : K)
    {Fe : Fin n → K} (h : rdReaction sf ic X (fun _ => c) f = some Fe) :
    ∑ i, Fe i = area sf ic X * f c 0 := by
  rw [rdReaction, loop2_some] at h
  obtain ⟨hr, rfl⟩ := h
  have e1 : ∀ r, sf.N r ⬝ᵥ (fun _ => c) = c := by
    intro r
    rw [dotProduct, ← Finset.sum_mul, hp r, one_mul]
  have e2 : ∀ r, gradAt sf X r *ᵥ (fun _ => c) = 0 := by
    intro r
    ext k
    simp only [Matrix.mulVec, dotProduct, ← Finset.sum_mul, sum_gradAt hc, zero_mul, Pi.zero_apply]
  simp only [e1, e2, Finset.sum_apply, Pi.smul_apply, smul_eq_mul]
  rw [Finset.sum_comm, area_eq, Finset.sum_mul]
  refine Finset.sum_congr rfl fun g _ => ?_
  rw [← Finset.mul_sum, ← Finset.mul_sum, hp, mul_one]

end Patch

/-- **C79** for `Truss2D`: the work of the displacement `u` on the forces of `v` is `E A / l` times
the product of the elongations. -/
theorem C79_truss {X : Matrix (Fin 2) (Fin 2) ℝ} {E A : ℝ} {Ke : Matrix (Fin 4) (Fin 4) ℝ}
    (h : truss2D X E A = some Ke) (u v : Fin 2 → Fin 2 → ℝ) {l : ℝ} (hl : 0 < l)
    (hl2 : l ^ 2 = (X 1 0 - X 0 0) ^ 2 + (X 1 1 - X 0 1) ^ 2) :
    ![u 0 0, u 0 1, u 1 0, u 1 1] ⬝ᵥ (Ke *ᵥ ![v 0 0, v 0 1, v 1 0, v 1 1]) =
      E * A / l * ((∑ k, (X 1 k - X 0 k) * (u 1 k - u 0 k)) / l) *
        ((∑ k, (X 1 k - X 0 k) * (v 1 k - v 0 k)) / l) := by
  have hs : Real.sqrt ((X 1 0 - X 0 0) ^ 2 + (X 1 1 - X 0 1) ^ 2) = l := by
    rw [← hl2, Real.sqrt_sq hl.le]
  simp only [truss2D, hs, Option.bind_eq_bind, Option.pure_def, Option.bind_eq_some_iff,
    Option.some.injEq, div?_eq_some] at h
  obtain ⟨c, ⟨-, hc⟩, s, ⟨-, hs⟩, k, ⟨-, hk⟩, rfl⟩ := h
  rw [Fin.sum_univ_two, Fin.sum_univ_two,
    show ((X 1 0 - X 0 0) * (u 1 0 - u 0 0) + (X 1 1 - X 0 1) * (u 1 1 - u 0 1)) / l =
      c * (u 1 0 - u 0 0) + s * (u 1 1 - u 0 1) by rw [hc, hs]; ring,
    show ((X 1 0 - X 0 0) * (v 1 0 - v 0 0) + (X 1 1 - X 0 1) * (v 1 1 - v 0 1)) / l =
      c * (v 1 0 - v 0 0) + s * (v 1 1 - v 0 1) by rw [hc, hs]; ring, ← hk]
  simp [Matrix.mulVec, dotProduct, Fin.sum_univ_succ]
  ring

/-- Stretching a truss of length 5 by 1 along its axis costs the energy `E A / 5`. -/
example {Ke : Matrix (Fin 4) (Fin 4) ℝ} (h : truss2D !![0, 0; 3, 4] 2 10 = some Ke) :
    ![0, 0, 3 / 5, 4 / 5] ⬝ᵥ (Ke *ᵥ ![0, 0, 3 / 5, 4 / 5]) = 4 := by
  have := C79_truss h (fun i k => ![![0, 0], ![3 / 5, 4 / 5]] i k)
    (fun i k => ![![0, 0], ![3 / 5, 4 / 5]] i k) (l := 5) (by norm_num) (by norm_num)
  simp only [Matrix.cons_val_zero, Matrix.cons_val_one, Fin.sum_univ_two] at this
  refine this.trans ?_
  norm_num

/-- `Truss2D` is defined for that truss. -/
example : ∃ Ke, truss2D !![0, 0; 3, 4] 2 10 = some Ke := by
  have : Real.sqrt ((3 : ℝ) ^ 2 + 4 ^ 2) = 5 := by
    rw [show (3 : ℝ) ^ 2 + 4 ^ 2 = 5 ^ 2 by norm_num, Real.sqrt_sq (by norm_num)]
  simp [truss2D, div?, this]

/-- The constitutive matrices exist for a quarter as Poisson's ratio. -/
example : (∃ D, planeStrainD (1 : ℚ) (1 / 4) = some D) ∧ (∃ D, planeStressD (1 : ℚ) (1 / 4) = some D) ∧
    (∃ C, solidC (1 : ℚ) (1 / 4) = some C) ∧ (∃ D, planeStrainDvol (1 : ℚ) (1 / 4) = some D) ∧
    ∃ D, planeStrainDdev (1 : ℚ) (1 / 4) = some D := by
  norm_num [planeStrainD, planeStressD, solidC, planeStrainDvol, planeStrainDdev, div?]

/-- Unit shear of the example triangle: work `mu` times thickness times area. -/
example : ∃ Ke, planeStrainStiffness (SF.triangle3 : SF ℚ 2 3) exRule exTri 1 (1 / 4) 1 = some Ke ∧
    affineField exTri 0 !![0, 1; 0, 0] ⬝ᵥ (Ke *ᵥ affineField exTri 0 !![0, 1; 0, 0]) =
      area SF.triangle3 exRule exTri * (2 / 5) := by
  obtain ⟨Ke, h⟩ := Option.isSome_iff_exists.1 (C32_planeStrain_defined (E := (1 : ℚ))
    (V := 1 / 4) (t := 1) |>.2 ⟨by norm_num, exTri_regular⟩)
  refine ⟨Ke, h, (C79_planeStrain complete_triangle3 h 0 0 _ _).trans ?_⟩
  rw [one_mul]
  congr 1
  simp [Fin.sum_univ_succ, planeTensor, smallStrain2, hooke, lameLambda, shearModulus, Matrix.trace]
  norm_num

end Pansfem
