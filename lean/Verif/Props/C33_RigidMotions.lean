/-
C33: rigid motions produce no nodal forces, for every element shape whose shape functions sum to one
(all nine families, `complete_*` below), every rule, geometry and constitutive matrix.
-/
import Verif.Props.C32_Symmetry
import Verif.Props.C27_Shape

namespace Pansfem

open Matrix

variable {K : Type} [Field K] {n : ℕ}

/-- A plane rigid motion to first order: translation `a` and rotation `w` of the nodes `X`. -/
def rigid2 (X : Matrix (Fin n) (Fin 2) K) (a : Fin 2 → K) (w : K) : Fin n × Fin 2 → K :=
  fun p => a p.2 + w * ![-X p.1 1, X p.1 0] p.2

/-- A rigid motion in space to first order: translation `a` and rotation vector `w`, that is
`a + w × X`. -/
def rigid3 (X : Matrix (Fin n) (Fin 3) K) (a w : Fin 3 → K) : Fin n × Fin 3 → K :=
  fun p => a p.2 + ![w 1 * X p.1 2 - w 2 * X p.1 1, w 2 * X p.1 0 - w 0 * X p.1 2,
    w 0 * X p.1 1 - w 1 * X p.1 0] p.2

section
variable {sf : SF K 2 n} {ic icV icD : IC K 2} {X : Matrix (Fin n) (Fin 2) K} {E V t : K}

theorem strain2_rigid (hc : Complete sf) {r : Fin 2 → K} (hr : (sf.dNdr r * X).det ≠ 0)
    (a : Fin 2 → K) (w : K) : strain2 (gradAt sf X r) (rigid2 X a w) = 0 := by
  have h0 := fun k => sum_gradAt hc X r k
  have h1 := fun k l => sum_gradAt_mul hr k l
  have key : ∀ k, (∑ i, gradAt sf X r k i * rigid2 X a w (i, 0)) = - w * (if k = 1 then 1 else 0) ∧
      (∑ i, gradAt sf X r k i * rigid2 X a w (i, 1)) = w * (if k = 0 then 1 else 0) := by
    intro k
    constructor
    · have : ∀ i, gradAt sf X r k i * rigid2 X a w (i, 0) =
          gradAt sf X r k i * a 0 + -w * (gradAt sf X r k i * X i 1) := fun i => by
        simp only [rigid2, Matrix.cons_val_zero]; ring
      simp only [this, Finset.sum_add_distrib, ← Finset.sum_mul, ← Finset.mul_sum, h0, h1]
      ring
    · have : ∀ i, gradAt sf X r k i * rigid2 X a w (i, 1) =
          gradAt sf X r k i * a 1 + w * (gradAt sf X r k i * X i 0) := fun i => by
        simp only [rigid2, Matrix.cons_val_one, Matrix.cons_val_zero]; ring
      simp only [this, Finset.sum_add_distrib, ← Finset.sum_mul, ← Finset.mul_sum, h0, h1]
      ring
  ext q
  fin_cases q
  · simp [strain2, (key 0).1]
  · simp [strain2, (key 1).2]
  · simp [strain2, (key 1).1, (key 0).2]

theorem strain3_rigid {sf : SF K 3 n} {X : Matrix (Fin n) (Fin 3) K} (hc : Complete sf)
    {r : Fin 3 → K} (hr : (sf.dNdr r * X).det ≠ 0) (a w : Fin 3 → K) :
    strain3 (gradAt sf X r) (rigid3 X a w) = 0 := by
  have h0 := fun k => sum_gradAt hc X r k
  have h1 := fun k l => sum_gradAt_mul hr k l
  have e0 : ∀ k, (∑ i, gradAt sf X r k i * rigid3 X a w (i, 0)) =
      w 1 * (if k = 2 then 1 else 0) - w 2 * (if k = 1 then 1 else 0) := by
    intro k
    have : ∀ i, gradAt sf X r k i * rigid3 X a w (i, 0) = gradAt sf X r k i * a 0 +
        (w 1 * (gradAt sf X r k i * X i 2) - w 2 * (gradAt sf X r k i * X i 1)) := fun i => by
      simp only [rigid3, Matrix.cons_val_zero]; ring
    simp only [this, Finset.sum_add_distrib, Finset.sum_sub_distrib, ← Finset.sum_mul,
      ← Finset.mul_sum, h0, h1]
    ring
  have e1 : ∀ k, (∑ i, gradAt sf X r k i * rigid3 X a w (i, 1)) =
      w 2 * (if k = 0 then 1 else 0) - w 0 * (if k = 2 then 1 else 0) := by
    intro k
    have : ∀ i, gradAt sf X r k i * rigid3 X a w (i, 1) = gradAt sf X r k i * a 1 +
        (w 2 * (gradAt sf X r k i * X i 0) - w 0 * (gradAt sf X r k i * X i 2)) := fun i => by
      simp only [rigid3, Matrix.cons_val_one, Matrix.cons_val_zero]; ring
    simp only [this, Finset.sum_add_distrib, Finset.sum_sub_distrib, ← Finset.sum_mul,
      ← Finset.mul_sum, h0, h1]
    ring
  have e2 : ∀ k, (∑ i, gradAt sf X r k i * rigid3 X a w (i, 2)) =
      w 0 * (if k = 1 then 1 else 0) - w 1 * (if k = 0 then 1 else 0) := by
    intro k
    have : ∀ i, gradAt sf X r k i * rigid3 X a w (i, 2) = gradAt sf X r k i * a 2 +
        (w 0 * (gradAt sf X r k i * X i 1) - w 1 * (gradAt sf X r k i * X i 0)) := fun i => by
      simp [rigid3]; ring
    simp only [this, Finset.sum_add_distrib, Finset.sum_sub_distrib, ← Finset.sum_mul,
      ← Finset.mul_sum, h0, h1]
    ring
  ext q
  fin_cases q <;> simp [strain3, e0, e1, e2]

variable [DecidableEq K]

/-- **C33** for `PlaneStiffness`, whatever the constitutive matrix. -/
theorem C33_planeStiffness (hc : Complete sf) {D : Matrix (Fin 3) (Fin 3) K}
    {Ke : Matrix (Fin n × Fin 2) (Fin n × Fin 2) K} (h : planeStiffness sf ic X D t = some Ke)
    (a : Fin 2 → K) (w : K) : Ke *ᵥ rigid2 X a w = 0 := by
  obtain ⟨hr, rfl⟩ := (planeStiffness_eq_some sf ic X).1 h
  exact sum_congr_transform_kill fun g => by rw [planeB_mulVec, strain2_rigid hc (hr g)]

/-- **C33** for `PlaneStrainStiffness`. -/
theorem C33_planeStrain (hc : Complete sf) {Ke : Matrix (Fin n × Fin 2) (Fin n × Fin 2) K}
    (h : planeStrainStiffness sf ic X E V t = some Ke) (a : Fin 2 → K) (w : K) :
    Ke *ᵥ rigid2 X a w = 0 := by
  obtain ⟨D, hD, h⟩ := planeStrainStiffness_eq_some.1 h
  exact C33_planeStiffness hc h a w

/-- **C33** for `PlaneStressStiffness`. -/
theorem C33_planeStress (hc : Complete sf) {Ke : Matrix (Fin n × Fin 2) (Fin n × Fin 2) K}
    (h : planeStressStiffness sf ic X E V t = some Ke) (a : Fin 2 → K) (w : K) :
    Ke *ᵥ rigid2 X a w = 0 := by
  obtain ⟨D, hD, h⟩ := planeStressStiffness_eq_some.1 h
  exact C33_planeStiffness hc h a w

/-- **C33** for `PlaneStrainStiffnessSRI`. -/
theorem C33_SRI (hc : Complete sf) {Ke : Matrix (Fin n × Fin 2) (Fin n × Fin 2) K}
    (h : planeStrainStiffnessSRI sf icV icD X E V t = some Ke) (a : Fin 2 → K) (w : K) :
    Ke *ᵥ rigid2 X a w = 0 := by
  obtain ⟨Dv, Dd, -, -, h1, h2, rfl⟩ := (planeStrainStiffnessSRI_eq_some sf icV icD X).1 h
  rw [Matrix.add_mulVec,
    sum_congr_transform_kill fun g => by rw [planeB_mulVec, strain2_rigid hc (h1 g)],
    sum_congr_transform_kill fun g => by rw [planeB_mulVec, strain2_rigid hc (h2 g)], add_zero]

/-- **C33** for `PlaneStiffnessBbar`. -/
theorem C33_planeStiffnessBbar (hc : Complete sf) {D : Matrix (Fin 3) (Fin 3) K}
    {Ke : Matrix (Fin n × Fin 2) (Fin n × Fin 2) K}
    (h : planeStiffnessBbar sf icV icD X D t = some Ke) (a : Fin 2 → K) (w : K) :
    Ke *ᵥ rigid2 X a w = 0 := by
  obtain ⟨h1, h2, rfl⟩ := (planeStiffnessBbar_eq_some sf icV icD X).1 h
  rw [Matrix.add_mulVec, sum_congr_transform_kill fun g => ?_, sum_congr_transform_kill fun g => ?_,
    add_zero]
  · rw [planeBdev_mulVec, strain2_rigid hc (h2 g)]
    ext q; fin_cases q <;> simp
  · rw [planeBvol_mulVec, strain2_rigid hc (h1 g)]
    ext q; fin_cases q <;> simp

/-- **C33** for `PlaneStrainStiffnessBbar`. -/
theorem C33_Bbar (hc : Complete sf) {Ke : Matrix (Fin n × Fin 2) (Fin n × Fin 2) K}
    (h : planeStrainStiffnessBbar sf icV icD X E V t = some Ke) (a : Fin 2 → K) (w : K) :
    Ke *ᵥ rigid2 X a w = 0 := by
  obtain ⟨D, hD, h⟩ := planeStrainStiffnessBbar_eq_some.1 h
  exact C33_planeStiffnessBbar hc h a w

/-- **C33** for `PlaneStiffnessWilsonTaylor`. -/
theorem C33_planeStiffnessWilsonTaylor (hc : Complete sf) {D : Matrix (Fin 3) (Fin 3) K}
    {Ke : Matrix (Fin n × Fin 2) (Fin n × Fin 2) K}
    (h : planeStiffnessWilsonTaylor sf ic X D t = some Ke) (a : Fin 2 → K) (w : K) :
    Ke *ᵥ rigid2 X a w = 0 := by
  obtain ⟨hr, Kaa, Kad, Kdd, -, rfl, -, had, rfl⟩ := planeStiffnessWilsonTaylor_eq_some.1 h
  have hk : Kad *ᵥ rigid2 X a w = 0 := by
    rw [had, mulVec_sum]
    refine Finset.sum_eq_zero fun g _ => ?_
    rw [Matrix.smul_mulVec, ← Matrix.mulVec_mulVec, planeB_mulVec, strain2_rigid hc (hr g),
      Matrix.mulVec_zero, smul_zero]
  rw [Matrix.sub_mulVec, ← Matrix.mulVec_mulVec, hk, Matrix.mulVec_zero, sub_zero]
  exact sum_congr_transform_kill fun g => by rw [planeB_mulVec, strain2_rigid hc (hr g)]

/-- **C33** for `PlaneStrainStiffnessWilsonTaylor`. -/
theorem C33_WilsonTaylor (hc : Complete sf) {Ke : Matrix (Fin n × Fin 2) (Fin n × Fin 2) K}
    (h : planeStrainStiffnessWilsonTaylor sf ic X E V t = some Ke) (a : Fin 2 → K) (w : K) :
    Ke *ᵥ rigid2 X a w = 0 := by
  obtain ⟨D, hD, h⟩ := planeStrainStiffnessWilsonTaylor_eq_some.1 h
  exact C33_planeStiffnessWilsonTaylor hc h a w

/-- **C33** for `SolidLinearIsotropicElastic`: three translations and three rotations. -/
theorem C33_solid {sf : SF K 3 n} {ic : IC K 3} {X : Matrix (Fin n) (Fin 3) K} (hc : Complete sf)
    {Ke : Matrix (Fin n × Fin 3) (Fin n × Fin 3) K} (h : solidStiffness sf ic X E V = some Ke)
    (a w : Fin 3 → K) : Ke *ᵥ rigid3 X a w = 0 := by
  obtain ⟨C, hC, hr, rfl⟩ := solidStiffness_eq_some.1 h
  exact sum_congr_transform_kill fun g => by rw [solidB_mulVec, strain3_rigid hc (hr g)]

/-- **C33** for `HeatTransfer`: a constant temperature produces no flux. -/
theorem C33_heatTransfer (hc : Complete sf) {alpha : K} {Ke : Matrix (Fin n) (Fin n) K}
    (h : heatTransfer sf ic X alpha t = some Ke) (c : K) : Ke *ᵥ (fun _ => c) = 0 := by
  obtain ⟨hr, rfl⟩ := heatTransfer_eq_some.1 h
  rw [mulVec_sum]
  refine Finset.sum_eq_zero fun g _ => ?_
  have : gradAt sf X (ic.points g) *ᵥ (fun _ => c) = 0 := by
    ext k
    simp only [Matrix.mulVec, dotProduct, ← Finset.sum_mul, sum_gradAt hc, zero_mul, Pi.zero_apply]
  rw [Matrix.smul_mulVec, ← Matrix.mulVec_mulVec, this, Matrix.mulVec_zero, smul_zero]

/-- **C33** for `ReactionDiffusionStiffness` and `Diffusion`. -/
theorem C33_diffusion (hc : Complete sf) {D : K} {Ke : Matrix (Fin n) (Fin n) K}
    (h : rdStiffness sf ic X D = some Ke) (c : K) : Ke *ᵥ (fun _ => c) = 0 := by
  obtain ⟨hr, rfl⟩ := rdStiffness_eq_some.1 h
  rw [mulVec_sum]
  refine Finset.sum_eq_zero fun g _ => ?_
  have : gradAt sf X (ic.points g) *ᵥ (fun _ => c) = 0 := by
    ext k
    simp only [Matrix.mulVec, dotProduct, ← Finset.sum_mul, sum_gradAt hc, zero_mul, Pi.zero_apply]
  rw [Matrix.smul_mulVec, ← Matrix.mulVec_mulVec, this, Matrix.mulVec_zero, smul_zero]

end

/-- **C33** for `Truss2D`: translations and the rotation. -/
theorem C33_truss {X : Matrix (Fin 2) (Fin 2) ℝ} {E A : ℝ} {Ke : Matrix (Fin 4) (Fin 4) ℝ}
    (h : truss2D X E A = some Ke) (a : Fin 2 → ℝ) (w : ℝ) :
    Ke *ᵥ ![rigid2 X a w (0, 0), rigid2 X a w (0, 1), rigid2 X a w (1, 0), rigid2 X a w (1, 1)] =
      0 := by
  simp only [truss2D, Option.bind_eq_bind, Option.pure_def, Option.bind_eq_some_iff,
    Option.some.injEq, div?_eq_some] at h
  obtain ⟨c, ⟨hl, hc⟩, s, ⟨-, hs⟩, k, -, rfl⟩ := h
  have key : c * (X 1 1 - X 0 1) = s * (X 1 0 - X 0 0) := by
    rw [hc, hs]; ring
  ext i
  fin_cases i <;> simp [rigid2, Matrix.mulVec, dotProduct, Fin.sum_univ_succ]
  · linear_combination (k * c * w) * key
  · linear_combination (k * s * w) * key
  · linear_combination (-k * c * w) * key
  · linear_combination (-k * s * w) * key

/-! ### Equilibrium of the nodal forces -/

/-- **C33**, the dual statement: the forces `Ke u` of any displacement are in equilibrium, they do no
work on rigid motions. -/
theorem C33_equilibrium {ι : Type} [Fintype ι] {Ke : Matrix ι ι K} (hs : Keᵀ = Ke) {r : ι → K}
    (hr : Ke *ᵥ r = 0) (u : ι → K) : r ⬝ᵥ (Ke *ᵥ u) = 0 := by
  rw [Matrix.dotProduct_mulVec, ← Matrix.mulVec_transpose, hs, hr, zero_dotProduct]

/-- In particular the nodal forces of `PlaneStrainStiffness` sum to zero in every direction. -/
theorem C33_planeStrain_balance [DecidableEq K] {sf : SF K 2 n} {ic : IC K 2}
    {X : Matrix (Fin n) (Fin 2) K} {E V t : K} (hc : Complete sf)
    {Ke : Matrix (Fin n × Fin 2) (Fin n × Fin 2) K}
    (h : planeStrainStiffness sf ic X E V t = some Ke) (u : Fin n × Fin 2 → K) (k : Fin 2) :
    ∑ i, (Ke *ᵥ u) (i, k) = 0 := by
  have := C33_equilibrium (C32_planeStrain h) (C33_planeStrain hc h (Pi.single k 1) 0) u
  rw [dotProduct, Fintype.sum_prod_type] at this
  simpa [rigid2, Pi.single_apply] using this

/-! ### The families -/

theorem complete_triangle3 [CharZero K] : Complete (SF.triangle3 : SF K 2 3) := C27_sum_dNdr .triangle3
theorem complete_triangle6 [CharZero K] : Complete (SF.triangle6 : SF K 2 6) := C27_sum_dNdr .triangle6
theorem complete_square4 [CharZero K] : Complete (SF.square4 : SF K 2 4) := C27_sum_dNdr .square4
theorem complete_square8 [CharZero K] : Complete (SF.square8 : SF K 2 8) := C27_sum_dNdr .square8
theorem complete_tetrahedron4 [CharZero K] : Complete (SF.tetrahedron4 : SF K 3 4) :=
  C27_sum_dNdr .tetrahedron4
theorem complete_cubic8 [CharZero K] : Complete (SF.cubic8 : SF K 3 8) := C27_sum_dNdr .cubic8
theorem complete_cubic20 [CharZero K] : Complete (SF.cubic20 : SF K 3 20) := C27_sum_dNdr .cubic20

/-- A rigid rotation of the example triangle is a non-zero displacement without forces. -/
example : ∃ Ke, planeStrainStiffness (SF.triangle3 : SF ℚ 2 3) exRule exTri 1 (1 / 4) 1 = some Ke ∧
    Ke *ᵥ rigid2 exTri ![1, 2] 3 = 0 ∧ rigid2 exTri ![1, 2] 3 (0, 1) = 8 := by
  obtain ⟨Ke, h⟩ := Option.isSome_iff_exists.1 (C32_planeStrain_defined (E := (1 : ℚ))
    (V := 1 / 4) (t := 1) |>.2 ⟨by norm_num, exTri_regular⟩)
  refine ⟨Ke, h, C33_planeStrain complete_triangle3 h _ _, ?_⟩
  simp [rigid2, exTri]
  norm_num

/-- The hypotheses of `C33_solid` for a unit tetrahedron. -/
example : (SF.tetrahedron4 : SF ℚ 3 4).dNdr ![1 / 4, 1 / 4, 1 / 4] *
      (!![1, 0, 0; 0, 1, 0; 0, 0, 1; 0, 0, 0] : Matrix (Fin 4) (Fin 3) ℚ) = 1 := by
  ext i j; fin_cases i <;> fin_cases j <;>
    simp [SF.tetrahedron4, Matrix.mul_apply, Fin.sum_univ_succ]

/-- A truss of length 5 exists. -/
example : ∃ Ke, truss2D !![0, 0; 3, 4] 2 10 = some Ke := by
  have : Real.sqrt ((3 : ℝ) ^ 2 + 4 ^ 2) = 5 := by
    rw [show (3 : ℝ) ^ 2 + 4 ^ 2 = 5 ^ 2 by norm_num, Real.sqrt_sq (by norm_num)]
  simp [truss2D, div?, this]

end Pansfem
