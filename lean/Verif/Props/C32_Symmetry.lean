/-
C32: element matrices are symmetric, for every element shape, rule, geometry and material for which
the routine is defined.  (Beams, shells and fluids are in `C63_BeamShell.lean` and
`C64_Fluid.lean`.)
-/
import Verif.Lemmas.Elastic

namespace Pansfem

open Matrix

variable {K : Type} [Field K] {n : ℕ}

section C32
variable {sf : SF K 2 n} {ic icV icD : IC K 2} {X : Matrix (Fin n) (Fin 2) K} {E V t : K}

theorem isSymm_smul_sum {ι : Type} {N : ℕ} {c : Fin N → K} {A : Fin N → Matrix ι ι K}
    (h : ∀ g, (A g)ᵀ = A g) : (∑ g, c g • A g)ᵀ = ∑ g, c g • A g := by
  rw [Matrix.transpose_sum]
  exact Finset.sum_congr rfl fun g _ => by rw [Matrix.transpose_smul, h g]

theorem transpose_gram {ι κ : Type} [Fintype κ] (B : Matrix κ ι K) : (Bᵀ * B)ᵀ = Bᵀ * B := by
  rw [Matrix.transpose_mul, Matrix.transpose_transpose]

section
variable [DecidableEq K]

/-- **C32**: a plane element with a symmetric constitutive matrix has a symmetric stiffness. -/
theorem C32_planeStiffness {D : Matrix (Fin 3) (Fin 3) K} (hD : D.IsSymm)
    {Ke : Matrix (Fin n × Fin 2) (Fin n × Fin 2) K} (h : planeStiffness sf ic X D t = some Ke) :
    Keᵀ = Ke := by
  rw [((planeStiffness_eq_some sf ic X).1 h).2]
  exact isSymm_smul_sum fun g => isSymm_congr_transform hD _

/-- **C32** for `PlaneStrainStiffness`. -/
theorem C32_planeStrain {Ke : Matrix (Fin n × Fin 2) (Fin n × Fin 2) K}
    (h : planeStrainStiffness sf ic X E V t = some Ke) : Keᵀ = Ke := by
  obtain ⟨D, hD, h⟩ := planeStrainStiffness_eq_some.1 h
  exact C32_planeStiffness (isSymm_planeStrainD hD) h

/-- **C32** for `PlaneStressStiffness`. -/
theorem C32_planeStress {Ke : Matrix (Fin n × Fin 2) (Fin n × Fin 2) K}
    (h : planeStressStiffness sf ic X E V t = some Ke) : Keᵀ = Ke := by
  obtain ⟨D, hD, h⟩ := planeStressStiffness_eq_some.1 h
  exact C32_planeStiffness (isSymm_planeStressD hD) h

/-- **C32** for `PlaneStrainStiffnessSRI`. -/
theorem C32_SRI {Ke : Matrix (Fin n × Fin 2) (Fin n × Fin 2) K}
    (h : planeStrainStiffnessSRI sf icV icD X E V t = some Ke) : Keᵀ = Ke := by
  obtain ⟨Dv, Dd, hv, hd, -, -, rfl⟩ := (planeStrainStiffnessSRI_eq_some sf icV icD X).1 h
  rw [Matrix.transpose_add,
    isSymm_smul_sum fun g => isSymm_congr_transform (isSymm_planeStrainDvol hv) _,
    isSymm_smul_sum fun g => isSymm_congr_transform (isSymm_planeStrainDdev hd) _]

/-- **C32** for `PlaneStiffnessBbar` with a symmetric constitutive matrix. -/
theorem C32_planeStiffnessBbar {D : Matrix (Fin 3) (Fin 3) K} (hD : D.IsSymm)
    {Ke : Matrix (Fin n × Fin 2) (Fin n × Fin 2) K}
    (h : planeStiffnessBbar sf icV icD X D t = some Ke) : Keᵀ = Ke := by
  rw [((planeStiffnessBbar_eq_some sf icV icD X).1 h).2.2, Matrix.transpose_add,
    isSymm_smul_sum fun g => isSymm_congr_transform hD _,
    isSymm_smul_sum fun g => isSymm_congr_transform hD _]

/-- **C32** for `PlaneStrainStiffnessBbar`. -/
theorem C32_Bbar {Ke : Matrix (Fin n × Fin 2) (Fin n × Fin 2) K}
    (h : planeStrainStiffnessBbar sf icV icD X E V t = some Ke) : Keᵀ = Ke := by
  obtain ⟨D, hD, h⟩ := planeStrainStiffnessBbar_eq_some.1 h
  exact C32_planeStiffnessBbar (isSymm_planeStrainD hD) h

/-- **C32** for `PlaneStiffnessWilsonTaylor` with a symmetric constitutive matrix. -/
theorem C32_planeStiffnessWilsonTaylor {D : Matrix (Fin 3) (Fin 3) K} (hD : D.IsSymm)
    {Ke : Matrix (Fin n × Fin 2) (Fin n × Fin 2) K}
    (h : planeStiffnessWilsonTaylor sf ic X D t = some Ke) : Keᵀ = Ke := by
  obtain ⟨-, Kaa, Kad, Kdd, -, hdd, haa, -, rfl⟩ := planeStiffnessWilsonTaylor_eq_some.1 h
  have h1 : Kddᵀ = Kdd := by rw [hdd]; exact isSymm_smul_sum fun g => isSymm_congr_transform hD _
  have h2 : Kaaᵀ = Kaa := by rw [haa]; exact isSymm_smul_sum fun g => isSymm_congr_transform hD _
  rw [Matrix.transpose_sub, h1, Matrix.transpose_mul, Matrix.transpose_mul, Matrix.transpose_transpose,
    Matrix.transpose_nonsing_inv, h2, Matrix.mul_assoc]

/-- **C32** for `PlaneStrainStiffnessWilsonTaylor`. -/
theorem C32_WilsonTaylor {Ke : Matrix (Fin n × Fin 2) (Fin n × Fin 2) K}
    (h : planeStrainStiffnessWilsonTaylor sf ic X E V t = some Ke) : Keᵀ = Ke := by
  obtain ⟨D, hD, h⟩ := planeStrainStiffnessWilsonTaylor_eq_some.1 h
  exact C32_planeStiffnessWilsonTaylor (isSymm_planeStrainD hD) h

/-- **C32** for `SolidLinearIsotropicElastic`. -/
theorem C32_solid {sf : SF K 3 n} {ic : IC K 3} {X : Matrix (Fin n) (Fin 3) K}
    {Ke : Matrix (Fin n × Fin 3) (Fin n × Fin 3) K}
    (h : solidStiffness sf ic X E V = some Ke) : Keᵀ = Ke := by
  obtain ⟨C, hC, -, rfl⟩ := solidStiffness_eq_some.1 h
  exact isSymm_smul_sum fun g => isSymm_congr_transform (isSymm_solidC hC) _

/-- **C32** for `HeatTransfer`. -/
theorem C32_heatTransfer {alpha : K} {Ke : Matrix (Fin n) (Fin n) K}
    (h : heatTransfer sf ic X alpha t = some Ke) : Keᵀ = Ke := by
  rw [(heatTransfer_eq_some.1 h).2]
  exact isSymm_smul_sum fun g => transpose_gram _

/-- **C32** for `ReactionDiffusionStiffness` and `Diffusion`. -/
theorem C32_diffusion {D : K} {Ke : Matrix (Fin n) (Fin n) K}
    (h : rdStiffness sf ic X D = some Ke) : Keᵀ = Ke := by
  rw [(rdStiffness_eq_some.1 h).2]
  exact isSymm_smul_sum fun g => transpose_gram _

/-- **C32** for `ReactionDiffusionConsistentMass`. -/
theorem C32_rdConsistentMass {Me : Matrix (Fin n) (Fin n) K}
    (h : rdConsistentMass sf ic X = some Me) : Meᵀ = Me := by
  rw [rdConsistentMass, loop2_some] at h
  rw [h.2]
  exact isSymm_smul_sum fun g => by rw [Matrix.transpose_vecMulVec]

end

/-- **C32** for `PlaneStrainMass` and `PlaneStressMass`. -/
theorem C32_planeMass {rho : K} {Me : Matrix (Fin n × Fin 2) (Fin n × Fin 2) K}
    (h : planeMass sf ic X rho t = some Me) : Meᵀ = Me := by
  rw [planeMass_eq_some.1 h]
  exact isSymm_smul_sum fun g => transpose_gram _

/-- **C32** for `HeatCapacity`. -/
theorem C32_heatCapacity {rho c : K} {Me : Matrix (Fin n) (Fin n) K}
    (h : heatCapacity sf ic X rho c t = some Me) : Meᵀ = Me := by
  rw [heatCapacity_eq_some.1 h]
  exact isSymm_smul_sum fun g => by rw [Matrix.transpose_vecMulVec]

end C32

/-- **C32** for `Truss2D`. -/
theorem C32_truss {X : Matrix (Fin 2) (Fin 2) ℝ} {E A : ℝ} {Ke : Matrix (Fin 4) (Fin 4) ℝ}
    (h : truss2D X E A = some Ke) : Keᵀ = Ke := by
  simp only [truss2D, Option.bind_eq_bind, Option.pure_def, Option.bind_eq_some_iff,
    Option.some.injEq] at h
  obtain ⟨c, -, s, -, k, -, rfl⟩ := h
  ext i j; fin_cases i <;> fin_cases j <;> rfl

/-! ### The matrix returned to the caller -/

omit [Field K] in
theorem flatM_at? {k : ℕ} (A : Matrix (Fin n × Fin k) (Fin n × Fin k) K) (p q : Fin (n * k)) :
    (flatM A).at? p q = some (A (finProdFinEquiv.symm p) (finProdFinEquiv.symm q)) := by
  have hp := p.2
  have hq := q.2
  have e : (((p : ℕ) : ℤ) * ((n * k : ℕ) : ℤ) + ((q : ℕ) : ℤ)).toNat =
      (finProdFinEquiv (p, q) : Fin ((n * k) * (n * k))).1 := by
    rw [finProdFinEquiv_apply_val]
    norm_cast
    rw [Int.toNat_natCast]
    show (p : ℕ) * (n * k) + q = q + n * k * p
    ring
  rw [Mat.at?, if_pos (by simp only [flatM]; omega)]
  simp only [flatM]
  rw [e, List.getElem?_ofFn, dif_pos (Fin.is_lt _)]
  simp only [Fin.eta, Equiv.symm_apply_apply]

omit [Field K] in
theorem flatM_at?_oob {k : ℕ} (A : Matrix (Fin n × Fin k) (Fin n × Fin k) K) (i j : ℤ)
    (h : ¬ (0 ≤ i ∧ i < (n * k : ℕ) ∧ 0 ≤ j ∧ j < (n * k : ℕ))) : (flatM A).at? i j = none := by
  rw [Mat.at?, if_neg]
  exact h

omit [Field K] in
/-- **C32** at the interface: if the numerical part of a routine is symmetric then the `Matrix` it
hands back satisfies `Ke(i, j) = Ke(j, i)` for every pair of subscripts. -/
theorem C32_returned {d k : ℕ} {core : Matrix (Fin n) (Fin d) K →
      Option (Matrix (Fin n × Fin k) (Fin n × Fin k) K)}
    (hcore : ∀ X A, core X = some A → Aᵀ = A) {element doulist : List ℕ} {x : List (Vec K)}
    {Ke : Mat K} {nte : List (List (ℕ × ℕ))}
    (h : elemM k core element doulist x = some (Ke, nte)) (i j : ℤ) :
    Ke.at? i j = Ke.at? j i := by
  simp only [elemM, Option.bind_eq_bind, Option.pure_def, Option.bind_eq_some_iff,
    Option.some.injEq, Prod.mk.injEq] at h
  obtain ⟨_, -, X, -, A, hA, rfl, -⟩ := h
  have hs := hcore X A hA
  by_cases hb : 0 ≤ i ∧ i < (n * k : ℕ) ∧ 0 ≤ j ∧ j < (n * k : ℕ)
  · obtain ⟨h1, h2, h3, h4⟩ := hb
    obtain ⟨p, rfl⟩ := Int.eq_ofNat_of_zero_le h1
    obtain ⟨q, rfl⟩ := Int.eq_ofNat_of_zero_le h3
    have a1 := flatM_at? A ⟨p, by exact_mod_cast h2⟩ ⟨q, by exact_mod_cast h4⟩
    have a2 := flatM_at? A ⟨q, by exact_mod_cast h4⟩ ⟨p, by exact_mod_cast h2⟩
    refine a1.trans (Eq.trans ?_ a2.symm)
    exact congrArg some (congrFun (congrFun hs _) _).symm
  · rw [flatM_at?_oob A i j hb, flatM_at?_oob A j i (by tauto)]

/-- `C32_returned` for `PlaneStrainStiffness` called on nodes and elements. -/
theorem C32_planeStrain_returned [DecidableEq K] {sf : SF K 2 n} {ic : IC K 2} {E V t : K}
    {element doulist : List ℕ} {x : List (Vec K)} {Ke : Mat K} {nte : List (List (ℕ × ℕ))}
    (h : elemM 2 (fun X => planeStrainStiffness sf ic X E V t) element doulist x = some (Ke, nte))
    (i j : ℤ) : Ke.at? i j = Ke.at? j i :=
  C32_returned (fun _ _ => C32_planeStrain) h i j

/-! ### When the routines are defined -/

/-- `PlaneStrainStiffness` divides by zero exactly for an incompressible (or `ν = -1`) material or a
degenerate element. -/
theorem C32_planeStrain_defined [DecidableEq K] {sf : SF K 2 n} {ic : IC K 2}
    {X : Matrix (Fin n) (Fin 2) K} {E V t : K} :
    (planeStrainStiffness sf ic X E V t).isSome ↔
      ((1 - 2 * V) * (1 + V) ≠ 0 ∧ Regular sf ic X) := by
  rw [Option.isSome_iff_exists]
  simp only [planeStrainStiffness_eq_some, planeStrainD_eq_some, planeStiffness_eq_some]
  constructor
  · rintro ⟨_, _, ⟨h, -⟩, h', -⟩; exact ⟨h, h'⟩
  · rintro ⟨h, h'⟩; exact ⟨_, _, ⟨h, rfl⟩, h', rfl⟩

/-- The same for `PlaneStressStiffness`. -/
theorem C32_planeStress_defined [DecidableEq K] {sf : SF K 2 n} {ic : IC K 2}
    {X : Matrix (Fin n) (Fin 2) K} {E V t : K} :
    (planeStressStiffness sf ic X E V t).isSome ↔
      ((1 - V) * (1 + V) ≠ 0 ∧ Regular sf ic X) := by
  rw [Option.isSome_iff_exists]
  simp only [planeStressStiffness_eq_some, planeStressD_eq_some, planeStiffness_eq_some]
  constructor
  · rintro ⟨_, _, ⟨h, -⟩, h', -⟩; exact ⟨h, h'⟩
  · rintro ⟨h, h'⟩; exact ⟨_, _, ⟨h, rfl⟩, h', rfl⟩

/-- The same for `SolidLinearIsotropicElastic`. -/
theorem C32_solid_defined [DecidableEq K] {sf : SF K 3 n} {ic : IC K 3}
    {X : Matrix (Fin n) (Fin 3) K} {E V : K} :
    (solidStiffness sf ic X E V).isSome ↔ ((1 + V) * (1 - 2 * V) ≠ 0 ∧ Regular sf ic X) := by
  rw [Option.isSome_iff_exists]
  simp only [solidStiffness_eq_some, solidC_eq_some]
  constructor
  · rintro ⟨_, _, ⟨h, -⟩, h', -⟩; exact ⟨h, h'⟩
  · rintro ⟨h, h'⟩; exact ⟨_, _, ⟨h, rfl⟩, h', rfl⟩

/-! ### A concrete element -/

/-- A right triangle. -/
def exTri : Matrix (Fin 3) (Fin 2) ℚ := !![2, 0; 0, 1; 0, 0]

/-- The one-point rule of a triangle over the rationals. -/
def exRule : IC ℚ 2 := ⟨1, ![![1 / 3, 1 / 3]], ![![1, 1 / 2]]⟩

theorem exTri_det (r : Fin 2 → ℚ) : ((SF.triangle3 : SF ℚ 2 3).dNdr r * exTri).det = 2 := by
  simp [SF.triangle3, exTri, Matrix.det_fin_two]

theorem exTri_regular : Regular (SF.triangle3 : SF ℚ 2 3) exRule exTri := fun g => by
  rw [exTri_det]; norm_num

theorem exTri_grad (r : Fin 2 → ℚ) :
    gradAt (SF.triangle3 : SF ℚ 2 3) exTri r = !![1 / 2, 0, -1 / 2; 0, 1, -1] := by
  have h : ((SF.triangle3 : SF ℚ 2 3).dNdr r * exTri) = !![2, 0; 0, 1] := by
    ext i j; fin_cases i <;> fin_cases j <;>
      simp [SF.triangle3, exTri, Matrix.mul_apply, Fin.sum_univ_succ]
  rw [gradAt, h, Matrix.inv_def, Matrix.adjugate_fin_two, Matrix.det_fin_two_of]
  ext i j; fin_cases i <;> fin_cases j <;>
    simp [SF.triangle3, Matrix.mul_apply, Fin.sum_univ_succ] <;> norm_num

/-- The plane strain stiffness of the triangle exists; it is symmetric with a non-zero entry off the
diagonal. -/
example : ∃ Ke, planeStrainStiffness (SF.triangle3 : SF ℚ 2 3) exRule exTri 1 (1 / 4) 1 = some Ke ∧
    Keᵀ = Ke ∧ Ke (0, 0) (2, 0) = -3 / 10 := by
  obtain ⟨Ke, h⟩ := Option.isSome_iff_exists.1 (C32_planeStrain_defined (E := (1 : ℚ))
    (V := 1 / 4) (t := 1) |>.2 ⟨by norm_num, exTri_regular⟩)
  refine ⟨Ke, h, C32_planeStrain h, ?_⟩
  obtain ⟨D, hD, h⟩ := planeStrainStiffness_eq_some.1 h
  rw [(planeStrainD_eq_some.1 hD).2] at h
  rw [((planeStiffness_eq_some _ _ _).1 h).2]
  show (∑ g : Fin 1, _ : Matrix _ _ ℚ) (0, 0) (2, 0) = _
  rw [Fin.sum_univ_one]
  simp [exTri_grad, measure2, exTri_det, exRule, planeB, planeStrainD0, Matrix.mul_apply,
    Fin.sum_univ_succ]
  norm_num

end Pansfem
