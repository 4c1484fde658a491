/-
C35: selective reduced integration and the B-bar variant agree with the standard stiffness when both
parts use the same rule.  C36: totals of mass matrices and loads.
-/
import Verif.Props.C34_Energy

namespace Pansfem

open Matrix

variable {K : Type} [Field K] [CharZero K] {n : ℕ}

section C35
variable [DecidableEq K] {sf : SF K 2 n} {ic : IC K 2} {X : Matrix (Fin n) (Fin 2) K} {E V t : K}

/-- **C35**: `Dvol + Ddev = D`. -/
theorem C35_Dvol_add_Ddev {D Dv Dd : Matrix (Fin 3) (Fin 3) K} (h : planeStrainD E V = some D)
    (hv : planeStrainDvol E V = some Dv) (hd : planeStrainDdev E V = some Dd) : Dv + Dd = D := by
  obtain ⟨h0, rfl⟩ := planeStrainD_eq_some.1 h
  obtain ⟨hv, rfl⟩ := planeStrainDvol_eq_some.1 hv
  obtain ⟨hd, rfl⟩ := planeStrainDdev_eq_some.1 hd
  have a1 : 1 - 2 * V ≠ 0 := left_ne_zero_of_mul h0
  have a2 : 1 + V ≠ 0 := right_ne_zero_of_mul h0
  have e22 : E / (3 * (1 - 2 * V)) * 0 + E / (6 * (1 + V)) * 3 =
      E / ((1 - 2 * V) * (1 + V)) * (1 / 2 * (1 - 2 * V)) := by
    generalize 1 - 2 * V = a at a1
    field_simp
    ring
  ext i j
  fin_cases i <;> fin_cases j
  case «2».«2» => exact e22
  all_goals (simp [planeStrainD0] <;> field_simp <;> ring)

/-- The three matrices are defined for the same materials. -/
theorem planeStrainD_split_defined :
    ((planeStrainDvol E V).isSome ∧ (planeStrainDdev E V).isSome) ↔ (planeStrainD E V).isSome := by
  simp only [Option.isSome_iff_exists, planeStrainD_eq_some, planeStrainDvol_eq_some,
    planeStrainDdev_eq_some, exists_and_left, exists_eq, and_true]
  have h3 : (3 : K) ≠ 0 := by norm_num
  have h6 : (6 : K) ≠ 0 := by norm_num
  simp [h3, h6]

/-- **C35**: with one rule, `PlaneStrainStiffnessSRI` and `PlaneStrainStiffness` are the same
function (also where they are undefined). -/
theorem C35_SRI : planeStrainStiffnessSRI sf ic ic X E V t = planeStrainStiffness sf ic X E V t := by
  ext Ke
  rw [planeStrainStiffnessSRI_eq_some, planeStrainStiffness_eq_some]
  have sum : ∀ {D Dv Dd : Matrix (Fin 3) (Fin 3) K}, Dv + Dd = D →
      (∑ g, (measure2 sf ic X g * t) •
        ((planeB (gradAt sf X (ic.points g)))ᵀ * Dv * planeB (gradAt sf X (ic.points g)))) +
      (∑ g, (measure2 sf ic X g * t) •
        ((planeB (gradAt sf X (ic.points g)))ᵀ * Dd * planeB (gradAt sf X (ic.points g)))) =
      ∑ g, (measure2 sf ic X g * t) •
        ((planeB (gradAt sf X (ic.points g)))ᵀ * D * planeB (gradAt sf X (ic.points g))) := by
    rintro D Dv Dd rfl
    rw [← Finset.sum_add_distrib]
    refine Finset.sum_congr rfl fun g _ => ?_
    rw [← smul_add, Matrix.mul_add, Matrix.add_mul]
  constructor
  · rintro ⟨Dv, Dd, hv, hd, hr, -, rfl⟩
    obtain ⟨D, hD⟩ := Option.isSome_iff_exists.1
      (planeStrainD_split_defined.1 ⟨by rw [hv]; rfl, by rw [hd]; rfl⟩)
    exact ⟨D, hD, (planeStiffness_eq_some _ _ _).2 ⟨hr, sum (C35_Dvol_add_Ddev hD hv hd)⟩⟩
  · rintro ⟨D, hD, h⟩
    obtain ⟨hr, rfl⟩ := (planeStiffness_eq_some _ _ _).1 h
    have := planeStrainD_split_defined.2 (by rw [hD]; rfl : (planeStrainD E V).isSome)
    obtain ⟨Dv, hv⟩ := Option.isSome_iff_exists.1 this.1
    obtain ⟨Dd, hd⟩ := Option.isSome_iff_exists.1 this.2
    exact ⟨Dv, Dd, hv, hd, hr, hr, (sum (C35_Dvol_add_Ddev hD hv hd)).symm⟩

omit [DecidableEq K] in
theorem planeBvol_add_planeBdev (G : Matrix (Fin 2) (Fin n) K) : planeBvol G + planeBdev G = planeB G := by
  ext r ⟨i, j⟩
  fin_cases r <;> fin_cases j <;> simp [planeB, planeBvol, planeBdev] <;> ring

omit [DecidableEq K] in
/-- Volumetric and deviatoric parts do not interact for a constitutive matrix that treats both axes
alike. -/
theorem planeBvol_cross {D : Matrix (Fin 3) (Fin 3) K} (h1 : D 0 0 = D 1 1) (h2 : D 0 1 = D 1 0)
    (h3 : D 0 2 = 0) (h4 : D 1 2 = 0) (G : Matrix (Fin 2) (Fin n) K) :
    (planeBvol G)ᵀ * D * planeBdev G = 0 := by
  ext ⟨i, j⟩ ⟨k, l⟩
  fin_cases j <;> fin_cases l <;>
    simp [planeBvol, planeBdev, Matrix.mul_apply, Fin.sum_univ_succ, h1, h2, h3, h4] <;> ring

/-- **C35** for `PlaneStiffnessBbar`: with one rule it equals `PlaneStiffness` for every symmetric
constitutive matrix that treats both axes alike and does not couple stretching and shearing. -/
theorem C35_planeStiffnessBbar {D : Matrix (Fin 3) (Fin 3) K} (hs : Dᵀ = D) (h1 : D 0 0 = D 1 1)
    (h3 : D 0 2 = 0) (h4 : D 1 2 = 0) :
    planeStiffnessBbar sf ic ic X D t = planeStiffness sf ic X D t := by
  ext Ke
  rw [planeStiffnessBbar_eq_some, planeStiffness_eq_some]
  have h2 : D 0 1 = D 1 0 := congrFun (congrFun hs 1) 0
  have e : ∀ G : Matrix (Fin 2) (Fin n) K, (planeB G)ᵀ * D * planeB G =
      (planeBvol G)ᵀ * D * planeBvol G + (planeBdev G)ᵀ * D * planeBdev G := by
    intro G
    have c1 := planeBvol_cross h1 h2 h3 h4 G
    have c2 : (planeBdev G)ᵀ * D * planeBvol G = 0 := by
      have := congrArg Matrix.transpose c1
      rwa [Matrix.transpose_mul, Matrix.transpose_mul, Matrix.transpose_transpose, hs,
        ← Matrix.mul_assoc, Matrix.transpose_zero] at this
    rw [← planeBvol_add_planeBdev, Matrix.transpose_add, Matrix.add_mul, Matrix.add_mul,
      Matrix.mul_add, Matrix.mul_add, c1, c2, add_zero, zero_add]
  simp only [e, smul_add, Finset.sum_add_distrib, and_self_left]

/-- **C35** for `PlaneStrainStiffnessBbar`. -/
theorem C35_Bbar : planeStrainStiffnessBbar sf ic ic X E V t = planeStrainStiffness sf ic X E V t := by
  rw [planeStrainStiffnessBbar, planeStrainStiffness]
  cases h : planeStrainD E V with
  | none => rfl
  | some D =>
    have hD := (planeStrainD_eq_some.1 h).2
    refine C35_planeStiffnessBbar (isSymm_planeStrainD h) ?_ ?_ ?_ <;> rw [hD] <;>
      simp [planeStrainD0]

end C35

/-- The three routines on the example triangle: all are defined, so the equations of C35 are not
between undefined values. -/
example : (planeStrainStiffnessSRI (SF.triangle3 : SF ℚ 2 3) exRule exRule exTri 1 (1 / 4) 1).isSome ∧
    (planeStrainStiffnessBbar (SF.triangle3 : SF ℚ 2 3) exRule exRule exTri 1 (1 / 4) 1).isSome := by
  rw [C35_SRI, C35_Bbar]
  exact ⟨C32_planeStrain_defined.2 ⟨by norm_num, exTri_regular⟩,
    C32_planeStrain_defined.2 ⟨by norm_num, exTri_regular⟩⟩

/-! ### C36 -/

/-- The shape functions sum to one (proved for the nine families in `C27_sum_N`). -/
def PartitionOfUnity {K : Type} [Field K] {d n : ℕ} (sf : SF K d n) : Prop := ∀ r, ∑ i, sf.N r i = 1

section C36
omit [CharZero K]
variable {sf : SF K 2 n} {ic : IC K 2} {X : Matrix (Fin n) (Fin 2) K} {t : K}

theorem area_eq : area sf ic X = ∑ g, measure2 sf ic X g := rfl

/-- **C36**: the entries of the mass matrix between directions `a` and `b` sum to the mass if `a = b`
and to zero otherwise. -/
theorem C36_planeMass (hp : PartitionOfUnity sf) {rho : K}
    {Me : Matrix (Fin n × Fin 2) (Fin n × Fin 2) K} (h : planeMass sf ic X rho t = some Me)
    (a b : Fin 2) :
    ∑ i, ∑ j, Me (i, a) (j, b) = if a = b then rho * t * area sf ic X else 0 := by
  rw [planeMass_eq_some.1 h]
  have e : ∀ g, (∑ i, ∑ j, ((planeN (sf.N (ic.points g)))ᵀ * planeN (sf.N (ic.points g))) (i, a)
      (j, b)) = if a = b then 1 else 0 := by
    intro g
    have h1 := hp (ic.points g)
    set N := sf.N (ic.points g)
    have : ∀ i j, ((planeN N)ᵀ * planeN N) (i, a) (j, b) = if a = b then N i * N j else 0 := by
      intro i j
      fin_cases a <;> fin_cases b <;> simp [planeN, Matrix.mul_apply, Fin.sum_univ_succ]
    simp only [this]
    split_ifs
    · simp only [← Finset.mul_sum, h1, mul_one]
    · simp
  calc ∑ i, ∑ j, (∑ g, (measure2 sf ic X g * (rho * t)) •
        ((planeN (sf.N (ic.points g)))ᵀ * planeN (sf.N (ic.points g)))) (i, a) (j, b)
      = ∑ g, (measure2 sf ic X g * (rho * t)) *
          ∑ i, ∑ j, ((planeN (sf.N (ic.points g)))ᵀ * planeN (sf.N (ic.points g))) (i, a) (j, b) := by
        simp only [Matrix.sum_apply, Matrix.smul_apply, smul_eq_mul, Finset.mul_sum]
        refine (Finset.sum_congr rfl fun i _ => Finset.sum_comm).trans ?_
        rw [Finset.sum_comm]
    _ = _ := by
        simp only [e]
        split_ifs
        · rw [area_eq, Finset.mul_sum]
          exact Finset.sum_congr rfl fun g _ => by ring
        · simp

/-- **C36**: a constant body force is distributed without loss. -/
theorem C36_planeBodyForce (hp : PartitionOfUnity sf) (f : Fin 2 → K) {Fe : Fin n × Fin 2 → K}
    (h : planeBodyForce sf ic X (fun _ => f) t = some Fe) (a : Fin 2) :
    ∑ i, Fe (i, a) = f a * t * area sf ic X := by
  rw [planeBodyForce, loop2J_eq_some] at h
  subst h
  have e : ∀ g, ∑ i, ((planeN (sf.N (ic.points g)))ᵀ *ᵥ f) (i, a) = f a := by
    intro g
    have h1 := hp (ic.points g)
    set N := sf.N (ic.points g)
    have : ∀ i, ((planeN N)ᵀ *ᵥ f) (i, a) = N i * f a := fun i => by
      fin_cases a <;> simp [planeN, Matrix.mulVec, dotProduct, Fin.sum_univ_succ]
    simp only [this, ← Finset.sum_mul, h1, one_mul]
  simp only [Finset.sum_apply, Pi.smul_apply, smul_eq_mul]
  rw [Finset.sum_comm, area_eq, Finset.mul_sum]
  refine Finset.sum_congr rfl fun g _ => ?_
  rw [← Finset.mul_sum, ← Finset.mul_sum, e]
  ring

/-- **C36**: the entries of the heat capacity matrix sum to the heat capacity. -/
theorem C36_heatCapacity (hp : PartitionOfUnity sf) {rho c : K} {Me : Matrix (Fin n) (Fin n) K}
    (h : heatCapacity sf ic X rho c t = some Me) :
    ∑ i, ∑ j, Me i j = rho * c * t * area sf ic X := by
  rw [heatCapacity_eq_some.1 h]
  simp only [Matrix.sum_apply, Matrix.smul_apply, smul_eq_mul, vecMulVec_apply]
  rw [area_eq, Finset.mul_sum]
  refine (Finset.sum_congr rfl fun i _ => Finset.sum_comm).trans ?_
  rw [Finset.sum_comm]
  refine Finset.sum_congr rfl fun g _ => ?_
  simp only [← Finset.mul_sum, hp (ic.points g), mul_one]
  ring

variable [DecidableEq K]

/-- **C36**: the entries of the consistent mass matrix of the reaction-diffusion equation sum to the
area. -/
theorem C36_rdConsistentMass (hp : PartitionOfUnity sf) {Me : Matrix (Fin n) (Fin n) K}
    (h : rdConsistentMass sf ic X = some Me) : ∑ i, ∑ j, Me i j = area sf ic X := by
  rw [rdConsistentMass, loop2_some] at h
  rw [h.2]
  simp only [Matrix.sum_apply, Matrix.smul_apply, smul_eq_mul, vecMulVec_apply]
  rw [area_eq]
  refine (Finset.sum_congr rfl fun i _ => Finset.sum_comm).trans ?_
  rw [Finset.sum_comm]
  refine Finset.sum_congr rfl fun g _ => ?_
  simp only [← Finset.mul_sum, hp (ic.points g), mul_one]

/-- **C36**: so do the entries of the lumped mass matrix, which is diagonal. -/
theorem C36_rdLumpedMass {Me : Matrix (Fin n) (Fin n) K} (h : rdLumpedMass sf ic X = some Me) :
    (∑ i, ∑ j, Me i j = area sf ic X) ∧ ∀ i j, i ≠ j → Me i j = 0 := by
  simp only [rdLumpedMass, Option.bind_eq_bind, Option.pure_def, Option.bind_eq_some_iff,
    Option.some.injEq, div?_eq_some] at h
  obtain ⟨c, ⟨hn, rfl⟩, rfl⟩ := h
  refine ⟨?_, fun i j hij => by simp [hij]⟩
  simp only [Matrix.smul_apply, Matrix.one_apply, smul_eq_mul, mul_ite, mul_one, mul_zero,
    Finset.sum_ite_eq, Finset.mem_univ, if_true, Finset.sum_const, Finset.card_univ,
    Fintype.card_fin, nsmul_eq_mul]
  field_simp

end C36

/-- The length of a curved edge as the rule measures it. -/
noncomputable def edgeLength {d : ℕ} (sf : SF ℝ 1 n) (ic : IC ℝ 1) (X : Matrix (Fin n) (Fin d) ℝ) : ℝ :=
  ∑ g, lineElement sf X (ic.points g) * ic.weights g 0

/-- **C36**: a constant surface force is distributed without loss. -/
theorem C36_planeSurfaceForce {sf : SF ℝ 1 n} {ic : IC ℝ 1} {X : Matrix (Fin n) (Fin 2) ℝ} {t : ℝ}
    (hp : PartitionOfUnity sf) (f : Fin 2 → ℝ) {Fe : Fin n × Fin 2 → ℝ}
    (h : planeSurfaceForce sf ic X (fun _ => f) t = some Fe) (a : Fin 2) :
    ∑ i, Fe (i, a) = f a * t * edgeLength sf ic X := by
  rw [planeSurfaceForce, loop1_eq_some] at h
  subst h
  have e : ∀ g, ∑ i, ((planeN (sf.N (ic.points g)))ᵀ *ᵥ f) (i, a) = f a := by
    intro g
    have h1 := hp (ic.points g)
    set N := sf.N (ic.points g)
    have : ∀ i, ((planeN N)ᵀ *ᵥ f) (i, a) = N i * f a := fun i => by
      fin_cases a <;> simp [planeN, Matrix.mulVec, dotProduct, Fin.sum_univ_succ]
    simp only [this, ← Finset.sum_mul, h1, one_mul]
  simp only [Finset.sum_apply, Pi.smul_apply, smul_eq_mul]
  rw [Finset.sum_comm, edgeLength, Finset.mul_sum]
  refine Finset.sum_congr rfl fun g _ => ?_
  rw [← Finset.mul_sum, ← Finset.mul_sum, e]
  ring

/-- **C36**: a constant surface flux is distributed without loss. -/
theorem C36_heatSurfaceFlux {sf : SF ℝ 1 n} {ic : IC ℝ 1} {X : Matrix (Fin n) (Fin 2) ℝ} {t : ℝ}
    (hp : PartitionOfUnity sf) (q : ℝ) {Fe : Fin n → ℝ}
    (h : heatSurfaceFlux sf ic X (fun _ => q) t = some Fe) :
    ∑ i, Fe i = q * t * edgeLength sf ic X := by
  rw [heatSurfaceFlux, loop1_eq_some] at h
  subst h
  simp only [Finset.sum_apply, Pi.smul_apply, smul_eq_mul]
  rw [Finset.sum_comm, edgeLength, Finset.mul_sum]
  refine Finset.sum_congr rfl fun g _ => ?_
  rw [← Finset.mul_sum, ← Finset.mul_sum, hp]
  ring

/-! ### The measures are the geometric ones -/

/-- `edgeLength` of a two-node edge is the distance of its nodes, for every rule whose weights sum to
two. -/
theorem C36_edgeLength_line2 {ic : IC ℝ 1} (hw : ∑ g, ic.weights g 0 = 2)
    (X : Matrix (Fin 2) (Fin 2) ℝ) :
    edgeLength SF.line2 ic X = Real.sqrt ((X 1 0 - X 0 0) ^ 2 + (X 1 1 - X 0 1) ^ 2) := by
  have e : ∀ r, lineElement SF.line2 X r =
      1 / 2 * Real.sqrt ((X 1 0 - X 0 0) ^ 2 + (X 1 1 - X 0 1) ^ 2) := by
    intro r
    have h4 : ((SF.line2.dNdr r * X) * (SF.line2.dNdr r * X).transpose) 0 0 =
        (1 / 2 : ℝ) ^ 2 * ((X 1 0 - X 0 0) ^ 2 + (X 1 1 - X 0 1) ^ 2) := by
      rw [Matrix.mul_apply]
      simp only [Matrix.transpose_apply, Matrix.mul_apply, SF.line2, Fin.sum_univ_two, Matrix.of_apply,
        Matrix.cons_val_zero, Matrix.cons_val_one]
      ring
    rw [lineElement, h4, Real.sqrt_mul (by positivity), Real.sqrt_sq (by norm_num)]
  simp only [edgeLength, e, ← Finset.mul_sum, hw]
  ring

/-- `Area` of a triangle is the shoelace formula, for every rule whose products of weights sum to one
half. -/
theorem C36_area_triangle3 {ic : IC K 2} (hw : ∑ g, ic.weights g 0 * ic.weights g 1 = 1 / 2)
    (X : Matrix (Fin 3) (Fin 2) K) :
    area SF.triangle3 ic X = 1 / 2 *
      ((X 0 0 - X 2 0) * (X 1 1 - X 2 1) - (X 0 1 - X 2 1) * (X 1 0 - X 2 0)) := by
  have e : ∀ r, (SF.triangle3.dNdr r * X).det =
      (X 0 0 - X 2 0) * (X 1 1 - X 2 1) - (X 0 1 - X 2 1) * (X 1 0 - X 2 0) := by
    intro r
    simp [SF.triangle3, Matrix.det_fin_two, Matrix.vecMul, dotProduct, Fin.sum_univ_succ]
    ring
  simp only [area, jac, e, mul_assoc, ← Finset.mul_sum, hw]
  ring

theorem partition_line2 : PartitionOfUnity (SF.line2 : SF K 1 2) := C27_sum_N .line2
theorem partition_line3 : PartitionOfUnity (SF.line3 : SF K 1 3) := C27_sum_N .line3
theorem partition_triangle3 : PartitionOfUnity (SF.triangle3 : SF K 2 3) := C27_sum_N .triangle3
theorem partition_triangle6 : PartitionOfUnity (SF.triangle6 : SF K 2 6) := C27_sum_N .triangle6
theorem partition_square4 : PartitionOfUnity (SF.square4 : SF K 2 4) := C27_sum_N .square4
theorem partition_square8 : PartitionOfUnity (SF.square8 : SF K 2 8) := C27_sum_N .square8
theorem partition_tetrahedron4 : PartitionOfUnity (SF.tetrahedron4 : SF K 3 4) :=
  C27_sum_N .tetrahedron4
theorem partition_cubic8 : PartitionOfUnity (SF.cubic8 : SF K 3 8) := C27_sum_N .cubic8
theorem partition_cubic20 : PartitionOfUnity (SF.cubic20 : SF K 3 20) := C27_sum_N .cubic20

/-- A load of `(3, -1)` per unit length on an edge of length 5 and thickness 2. -/
example : ∃ Fe, planeSurfaceForce SF.line2 IC.gauss2Line !![0, 0; 3, 4] (fun _ => ![3, -1]) 2 = some Fe ∧
    ∑ i, Fe (i, 0) = 30 := by
  obtain ⟨Fe, h⟩ : ∃ Fe, planeSurfaceForce SF.line2 IC.gauss2Line !![0, 0; 3, 4] (fun _ => ![3, -1]) 2
      = some Fe := ⟨_, gauss_some _⟩
  refine ⟨Fe, h, ?_⟩
  rw [C36_planeSurfaceForce partition_line2 ![3, -1] h 0, C36_edgeLength_line2]
  · have : Real.sqrt ((3 : ℝ) ^ 2 + 4 ^ 2) = 5 := by
      rw [show (3 : ℝ) ^ 2 + 4 ^ 2 = 5 ^ 2 by norm_num, Real.sqrt_sq (by norm_num)]
    simp [this]
    norm_num
  · show (∑ g : Fin 2, (![![1], ![1]] : Fin 2 → Fin 1 → ℝ) g 0) = 2
    simp [Fin.sum_univ_two]
    norm_num

/-- The mass of the example triangle of area 1. -/
example : ∃ Me, planeMass (SF.triangle3 : SF ℚ 2 3) exRule exTri 3 2 = some Me ∧
    ∑ i, ∑ j, Me (i, 1) (j, 1) = 6 := by
  obtain ⟨Me, h⟩ : ∃ Me, planeMass (SF.triangle3 : SF ℚ 2 3) exRule exTri 3 2 = some Me :=
    ⟨_, planeMass_eq_some.2 rfl⟩
  refine ⟨Me, h, ?_⟩
  rw [C36_planeMass partition_triangle3 h, C36_area_triangle3]
  · simp [exTri]; norm_num
  · show (∑ g : Fin 1, _ : ℚ) = _
    simp [exRule]

end Pansfem
