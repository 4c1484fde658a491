/-
Closed forms of the linear element routines: when they are defined, and the sum they return.
-/
import Verif.Lemmas.Element
import Mathlib.Algebra.CharZero.Defs
import Mathlib.Data.Real.Basic
import Mathlib.Tactic.FinCases
import Mathlib.Tactic.FieldSimp
import Mathlib.Tactic.NormNum
import Mathlib.Tactic.Positivity

namespace Pansfem

open Matrix

variable {K : Type} [Field K] {n : ℕ}

/-! ### Constitutive matrices -/

theorem isSymm_planeStrainD0 (V : K) : (planeStrainD0 V).IsSymm := by
  ext i j; fin_cases i <;> fin_cases j <;> rfl

theorem isSymm_planeStressD0 (V : K) : (planeStressD0 V).IsSymm := by
  ext i j; fin_cases i <;> fin_cases j <;> rfl

theorem isSymm_solidC0 (V : K) : (solidC0 V).IsSymm := by
  ext i j; fin_cases i <;> fin_cases j <;> rfl

variable [DecidableEq K]

theorem planeStrainD_eq_some {E V : K} {D : Matrix (Fin 3) (Fin 3) K} :
    planeStrainD E V = some D ↔
      (1 - 2 * V) * (1 + V) ≠ 0 ∧ D = (E / ((1 - 2 * V) * (1 + V))) • planeStrainD0 V := by
  by_cases h : (1 - 2 * V) * (1 + V) = 0 <;> simp [planeStrainD, div?, h, eq_comm]

theorem planeStressD_eq_some {E V : K} {D : Matrix (Fin 3) (Fin 3) K} :
    planeStressD E V = some D ↔
      (1 - V) * (1 + V) ≠ 0 ∧ D = (E / ((1 - V) * (1 + V))) • planeStressD0 V := by
  by_cases h : (1 - V) * (1 + V) = 0 <;> simp [planeStressD, div?, h, eq_comm]

theorem planeStrainDvol_eq_some {E V : K} {D : Matrix (Fin 3) (Fin 3) K} :
    planeStrainDvol E V = some D ↔ 3 * (1 - 2 * V) ≠ 0 ∧
      D = (E / (3 * (1 - 2 * V))) • Matrix.of ![![1, 1, 0], ![1, 1, 0], ![0, 0, 0]] := by
  by_cases h : 3 * (1 - 2 * V) = 0 <;> simp [planeStrainDvol, div?, h, eq_comm]

theorem planeStrainDdev_eq_some {E V : K} {D : Matrix (Fin 3) (Fin 3) K} :
    planeStrainDdev E V = some D ↔ 6 * (1 + V) ≠ 0 ∧
      D = (E / (6 * (1 + V))) • Matrix.of ![![4, -2, 0], ![-2, 4, 0], ![0, 0, 3]] := by
  by_cases h : 6 * (1 + V) = 0 <;> simp [planeStrainDdev, div?, h, eq_comm]

theorem solidC_eq_some {E V : K} {D : Matrix (Fin 6) (Fin 6) K} :
    solidC E V = some D ↔
      (1 + V) * (1 - 2 * V) ≠ 0 ∧ D = (E / ((1 + V) * (1 - 2 * V))) • solidC0 V := by
  by_cases h : (1 + V) * (1 - 2 * V) = 0 <;> simp [solidC, div?, h, eq_comm]

theorem isSymm_planeStrainD {E V : K} {D : Matrix (Fin 3) (Fin 3) K}
    (h : planeStrainD E V = some D) : D.IsSymm := by
  rw [(planeStrainD_eq_some.1 h).2]
  exact (isSymm_planeStrainD0 V).smul _

theorem isSymm_planeStressD {E V : K} {D : Matrix (Fin 3) (Fin 3) K}
    (h : planeStressD E V = some D) : D.IsSymm := by
  rw [(planeStressD_eq_some.1 h).2]
  exact (isSymm_planeStressD0 V).smul _

theorem isSymm_planeStrainDvol {E V : K} {D : Matrix (Fin 3) (Fin 3) K}
    (h : planeStrainDvol E V = some D) : D.IsSymm := by
  rw [(planeStrainDvol_eq_some.1 h).2]
  refine Matrix.IsSymm.smul ?_ _
  ext i j; fin_cases i <;> fin_cases j <;> rfl

theorem isSymm_planeStrainDdev {E V : K} {D : Matrix (Fin 3) (Fin 3) K}
    (h : planeStrainDdev E V = some D) : D.IsSymm := by
  rw [(planeStrainDdev_eq_some.1 h).2]
  refine Matrix.IsSymm.smul ?_ _
  ext i j; fin_cases i <;> fin_cases j <;> rfl

theorem isSymm_solidC {E V : K} {D : Matrix (Fin 6) (Fin 6) K}
    (h : solidC E V = some D) : D.IsSymm := by
  rw [(solidC_eq_some.1 h).2]
  exact (isSymm_solidC0 V).smul _

/-! ### Closed forms -/

section
variable (sf : SF K 2 n) (ic icV icD : IC K 2) (X : Matrix (Fin n) (Fin 2) K)

theorem planeStiffness_eq_some {D : Matrix (Fin 3) (Fin 3) K} {t : K}
    {Ke : Matrix (Fin n × Fin 2) (Fin n × Fin 2) K} :
    planeStiffness sf ic X D t = some Ke ↔ Regular sf ic X ∧
      Ke = ∑ g, (measure2 sf ic X g * t) •
        ((planeB (gradAt sf X (ic.points g)))ᵀ * D * planeB (gradAt sf X (ic.points g))) := by
  rw [planeStiffness, loop2_some]
  simp only [smul_smul]

theorem planeStiffnessBbar_eq_some {D : Matrix (Fin 3) (Fin 3) K} {t : K}
    {Ke : Matrix (Fin n × Fin 2) (Fin n × Fin 2) K} :
    planeStiffnessBbar sf icV icD X D t = some Ke ↔ Regular sf icV X ∧ Regular sf icD X ∧
      Ke = (∑ g, (measure2 sf icV X g * t) •
          ((planeBvol (gradAt sf X (icV.points g)))ᵀ * D * planeBvol (gradAt sf X (icV.points g)))) +
        ∑ g, (measure2 sf icD X g * t) •
          ((planeBdev (gradAt sf X (icD.points g)))ᵀ * D * planeBdev (gradAt sf X (icD.points g))) := by
  simp only [planeStiffnessBbar, Option.bind_eq_bind, Option.pure_def, Option.bind_eq_some_iff,
    loop2_some, Option.some.injEq, smul_smul]
  constructor
  · rintro ⟨_, ⟨h1, rfl⟩, _, ⟨h2, rfl⟩, rfl⟩; exact ⟨h1, h2, rfl⟩
  · rintro ⟨h1, h2, rfl⟩; exact ⟨_, ⟨h1, rfl⟩, _, ⟨h2, rfl⟩, rfl⟩

theorem planeStrainStiffnessSRI_eq_some {E V t : K}
    {Ke : Matrix (Fin n × Fin 2) (Fin n × Fin 2) K} :
    planeStrainStiffnessSRI sf icV icD X E V t = some Ke ↔ ∃ Dvol Ddev,
      planeStrainDvol E V = some Dvol ∧ planeStrainDdev E V = some Ddev ∧
      Regular sf icV X ∧ Regular sf icD X ∧
      Ke = (∑ g, (measure2 sf icV X g * t) •
          ((planeB (gradAt sf X (icV.points g)))ᵀ * Dvol * planeB (gradAt sf X (icV.points g)))) +
        ∑ g, (measure2 sf icD X g * t) •
          ((planeB (gradAt sf X (icD.points g)))ᵀ * Ddev * planeB (gradAt sf X (icD.points g))) := by
  simp only [planeStrainStiffnessSRI, Option.bind_eq_bind, Option.pure_def, Option.bind_eq_some_iff,
    loop2_some, Option.some.injEq, smul_smul]
  constructor
  · rintro ⟨Dv, hv, _, ⟨h1, rfl⟩, Dd, hd, _, ⟨h2, rfl⟩, rfl⟩
    exact ⟨Dv, Dd, hv, hd, h1, h2, rfl⟩
  · rintro ⟨Dv, Dd, hv, hd, h1, h2, rfl⟩
    exact ⟨Dv, hv, _, ⟨h1, rfl⟩, Dd, hd, _, ⟨h2, rfl⟩, rfl⟩

end

theorem planeStrainStiffness_eq_some {sf : SF K 2 n} {ic : IC K 2} {X : Matrix (Fin n) (Fin 2) K}
    {E V t : K} {Ke : Matrix (Fin n × Fin 2) (Fin n × Fin 2) K} :
    planeStrainStiffness sf ic X E V t = some Ke ↔
      ∃ D, planeStrainD E V = some D ∧ planeStiffness sf ic X D t = some Ke := by
  simp only [planeStrainStiffness, Option.bind_eq_bind, Option.bind_eq_some_iff]

theorem planeStressStiffness_eq_some {sf : SF K 2 n} {ic : IC K 2} {X : Matrix (Fin n) (Fin 2) K}
    {E V t : K} {Ke : Matrix (Fin n × Fin 2) (Fin n × Fin 2) K} :
    planeStressStiffness sf ic X E V t = some Ke ↔
      ∃ D, planeStressD E V = some D ∧ planeStiffness sf ic X D t = some Ke := by
  simp only [planeStressStiffness, Option.bind_eq_bind, Option.bind_eq_some_iff]

theorem planeStrainStiffnessBbar_eq_some {sf : SF K 2 n} {icV icD : IC K 2}
    {X : Matrix (Fin n) (Fin 2) K} {E V t : K} {Ke : Matrix (Fin n × Fin 2) (Fin n × Fin 2) K} :
    planeStrainStiffnessBbar sf icV icD X E V t = some Ke ↔
      ∃ D, planeStrainD E V = some D ∧ planeStiffnessBbar sf icV icD X D t = some Ke := by
  simp only [planeStrainStiffnessBbar, Option.bind_eq_bind, Option.bind_eq_some_iff]

theorem solidStiffness_eq_some {sf : SF K 3 n} {ic : IC K 3} {X : Matrix (Fin n) (Fin 3) K}
    {E V : K} {Ke : Matrix (Fin n × Fin 3) (Fin n × Fin 3) K} :
    solidStiffness sf ic X E V = some Ke ↔ ∃ C, solidC E V = some C ∧ Regular sf ic X ∧
      Ke = ∑ g, measure3 sf ic X g •
        ((solidB (gradAt sf X (ic.points g)))ᵀ * C * solidB (gradAt sf X (ic.points g))) := by
  simp only [solidStiffness, Option.bind_eq_bind, Option.bind_eq_some_iff, loop3_some]

theorem planeStiffnessWilsonTaylor_eq_some {sf : SF K 2 n} {ic : IC K 2}
    {X : Matrix (Fin n) (Fin 2) K} {D : Matrix (Fin 3) (Fin 3) K} {t : K}
    {Ke : Matrix (Fin n × Fin 2) (Fin n × Fin 2) K} :
    planeStiffnessWilsonTaylor sf ic X D t = some Ke ↔ Regular sf ic X ∧ ∃ Kaa Kad Kdd,
      Kaa.det ≠ 0 ∧
      Kdd = (∑ g, (measure2 sf ic X g * t) •
        ((planeB (gradAt sf X (ic.points g)))ᵀ * D * planeB (gradAt sf X (ic.points g)))) ∧
      Kaa = (∑ g, (measure2 sf ic X g * t) •
        ((planeG (ic.points g) (sf.dNdr (ic.points g) * X)⁻¹)ᵀ * D *
          planeG (ic.points g) (sf.dNdr (ic.points g) * X)⁻¹)) ∧
      Kad = (∑ g, (measure2 sf ic X g * t) •
        ((planeG (ic.points g) (sf.dNdr (ic.points g) * X)⁻¹)ᵀ * D *
          planeB (gradAt sf X (ic.points g)))) ∧
      Ke = Kdd - Kadᵀ * Kaa⁻¹ * Kad := by
  simp only [planeStiffnessWilsonTaylor, Option.bind_eq_bind, Option.pure_def,
    Option.bind_eq_some_iff, loop2_some, Option.some.injEq, smul_smul]
  have key : ∀ {M : Type} [AddCommMonoid M] [Module K M] (h : Regular sf ic X)
      (F : (Fin 2 → K) → Matrix (Fin 2) (Fin n) K → Matrix (Fin 2) (Fin 2) K → M) (s : M),
      loop2 sf ic X (fun r dNdX => (inv? (jac sf X r)).bind fun A => some (F r dNdX A)) = some s ↔
        s = ∑ g, measure2 sf ic X g • F (ic.points g) (gradAt sf X (ic.points g))
          (sf.dNdr (ic.points g) * X)⁻¹ := by
    intro M _ _ h F s
    rw [loop2_eq_some]
    have hv : ∀ g, ((inv? (jac sf X (ic.points g))).bind fun A =>
        some (F (ic.points g) (gradAt sf X (ic.points g)) A)) =
        some (F (ic.points g) (gradAt sf X (ic.points g)) (sf.dNdr (ic.points g) * X)⁻¹) := by
      intro g
      rw [show inv? (jac sf X (ic.points g)) = some (sf.dNdr (ic.points g) * X)⁻¹ from
        inv?_eq_some.2 ⟨h g, rfl⟩]
      rfl
    constructor
    · rintro ⟨-, v, h1, rfl⟩
      exact Finset.sum_congr rfl fun g _ => by rw [Option.some.inj ((h1 g).symm.trans (hv g))]
    · rintro rfl
      exact ⟨h, _, hv, rfl⟩
  constructor
  · rintro ⟨_, ⟨hr, rfl⟩, Kaa, haa, Kad, had, B, hB, rfl⟩
    rw [key hr] at haa had
    obtain ⟨h0, rfl⟩ := inv?_eq_some.1 hB
    simp only [smul_smul] at haa had
    exact ⟨hr, Kaa, Kad, _, h0, rfl, haa, had, rfl⟩
  · rintro ⟨hr, Kaa, Kad, Kdd, h0, rfl, haa, had, rfl⟩
    refine ⟨_, ⟨hr, rfl⟩, Kaa, ?_, Kad, ?_, _, inv?_eq_some.2 ⟨h0, rfl⟩, rfl⟩
    · rw [key hr fun r _ A => t • ((planeG r A)ᵀ * D * planeG r A)]
      simpa only [smul_smul] using haa
    · rw [key hr fun r G A => t • ((planeG r A)ᵀ * D * planeB G)]
      simpa only [smul_smul] using had

theorem planeStrainStiffnessWilsonTaylor_eq_some {sf : SF K 2 n} {ic : IC K 2}
    {X : Matrix (Fin n) (Fin 2) K} {E V t : K} {Ke : Matrix (Fin n × Fin 2) (Fin n × Fin 2) K} :
    planeStrainStiffnessWilsonTaylor sf ic X E V t = some Ke ↔
      ∃ D, planeStrainD E V = some D ∧ planeStiffnessWilsonTaylor sf ic X D t = some Ke := by
  simp only [planeStrainStiffnessWilsonTaylor, Option.bind_eq_bind, Option.bind_eq_some_iff]

theorem heatTransfer_eq_some {sf : SF K 2 n} {ic : IC K 2} {X : Matrix (Fin n) (Fin 2) K}
    {alpha t : K} {Ke : Matrix (Fin n) (Fin n) K} :
    heatTransfer sf ic X alpha t = some Ke ↔ Regular sf ic X ∧
      Ke = ∑ g, (measure2 sf ic X g * (alpha * t)) •
        ((gradAt sf X (ic.points g))ᵀ * gradAt sf X (ic.points g)) := by
  rw [heatTransfer, loop2_some]
  simp only [smul_smul]

theorem rdStiffness_eq_some {sf : SF K 2 n} {ic : IC K 2} {X : Matrix (Fin n) (Fin 2) K}
    {D : K} {Ke : Matrix (Fin n) (Fin n) K} :
    rdStiffness sf ic X D = some Ke ↔ Regular sf ic X ∧
      Ke = ∑ g, (measure2 sf ic X g * D) •
        ((gradAt sf X (ic.points g))ᵀ * gradAt sf X (ic.points g)) := by
  rw [rdStiffness, loop2_some]
  simp only [smul_smul]

omit [DecidableEq K] in
theorem planeMass_eq_some {sf : SF K 2 n} {ic : IC K 2} {X : Matrix (Fin n) (Fin 2) K}
    {rho t : K} {Me : Matrix (Fin n × Fin 2) (Fin n × Fin 2) K} :
    planeMass sf ic X rho t = some Me ↔
      Me = ∑ g, (measure2 sf ic X g * (rho * t)) •
        ((planeN (sf.N (ic.points g)))ᵀ * planeN (sf.N (ic.points g))) := by
  rw [planeMass, loop2J_eq_some]
  simp only [smul_smul]

omit [DecidableEq K] in
theorem heatCapacity_eq_some {sf : SF K 2 n} {ic : IC K 2} {X : Matrix (Fin n) (Fin 2) K}
    {rho c t : K} {Me : Matrix (Fin n) (Fin n) K} :
    heatCapacity sf ic X rho c t = some Me ↔
      Me = ∑ g, (measure2 sf ic X g * (rho * c * t)) •
        vecMulVec (sf.N (ic.points g)) (sf.N (ic.points g)) := by
  rw [heatCapacity, loop2J_eq_some]
  simp only [smul_smul]

/-! ### Strains -/

section Strain
omit [DecidableEq K]

/-- The strain of the displacement `u` for the gradient `G`. -/
def strain2 (G : Matrix (Fin 2) (Fin n) K) (u : Fin n × Fin 2 → K) : Fin 3 → K :=
  ![∑ i, G 0 i * u (i, 0), ∑ i, G 1 i * u (i, 1),
    (∑ i, G 1 i * u (i, 0)) + ∑ i, G 0 i * u (i, 1)]

/-- The strain of the displacement `u` for the gradient `G`, in the order of `Solid.h`. -/
def strain3 (G : Matrix (Fin 3) (Fin n) K) (u : Fin n × Fin 3 → K) : Fin 6 → K :=
  ![∑ i, G 0 i * u (i, 0), ∑ i, G 1 i * u (i, 1), ∑ i, G 2 i * u (i, 2),
    (∑ i, G 1 i * u (i, 0)) + ∑ i, G 0 i * u (i, 1),
    (∑ i, G 2 i * u (i, 1)) + ∑ i, G 1 i * u (i, 2),
    (∑ i, G 2 i * u (i, 0)) + ∑ i, G 0 i * u (i, 2)]

theorem planeB_mulVec (G : Matrix (Fin 2) (Fin n) K) (u : Fin n × Fin 2 → K) :
    planeB G *ᵥ u = strain2 G u := by
  ext r
  fin_cases r <;>
    simp [planeB, strain2, Matrix.mulVec, dotProduct, Fintype.sum_prod_type, Fin.sum_univ_succ,
      Finset.sum_add_distrib]

theorem planeBvol_mulVec (G : Matrix (Fin 2) (Fin n) K) (u : Fin n × Fin 2 → K) :
    planeBvol G *ᵥ u = ![1 / 2 * (strain2 G u 0 + strain2 G u 1),
      1 / 2 * (strain2 G u 0 + strain2 G u 1), 0] := by
  ext r
  fin_cases r <;>
    simp [planeBvol, strain2, Matrix.mulVec, dotProduct, Fintype.sum_prod_type, Fin.sum_univ_succ,
      Finset.sum_add_distrib, Finset.mul_sum, mul_assoc, mul_add]

theorem planeBdev_mulVec (G : Matrix (Fin 2) (Fin n) K) (u : Fin n × Fin 2 → K) :
    planeBdev G *ᵥ u = ![1 / 2 * (strain2 G u 0 - strain2 G u 1),
      1 / 2 * (strain2 G u 1 - strain2 G u 0), strain2 G u 2] := by
  ext r
  fin_cases r
  · simp only [planeBdev, strain2, Matrix.mulVec, dotProduct, Fintype.sum_prod_type,
      Fin.sum_univ_two, Finset.sum_add_distrib, Matrix.of_apply, mul_assoc, neg_mul,
      Finset.sum_neg_distrib, ← Finset.mul_sum, Fin.zero_eta, Matrix.cons_val_zero,
      Matrix.cons_val_one]
    ring
  · simp only [planeBdev, strain2, Matrix.mulVec, dotProduct, Fintype.sum_prod_type,
      Fin.sum_univ_two, Finset.sum_add_distrib, Matrix.of_apply, mul_assoc, neg_mul,
      Finset.sum_neg_distrib, ← Finset.mul_sum, Fin.mk_one, Matrix.cons_val_zero,
      Matrix.cons_val_one]
    ring
  · simp [planeBdev, strain2, Matrix.mulVec, dotProduct, Fintype.sum_prod_type, Fin.sum_univ_succ,
      Finset.sum_add_distrib]

theorem planeN_mulVec (N : Fin n → K) (u : Fin n × Fin 2 → K) :
    planeN N *ᵥ u = ![∑ i, N i * u (i, 0), ∑ i, N i * u (i, 1)] := by
  ext r
  fin_cases r <;>
    simp [planeN, Matrix.mulVec, dotProduct, Fintype.sum_prod_type, Fin.sum_univ_succ]

theorem solidB_mulVec (G : Matrix (Fin 3) (Fin n) K) (u : Fin n × Fin 3 → K) :
    solidB G *ᵥ u = strain3 G u := by
  ext r
  fin_cases r <;>
    simp [solidB, strain3, Matrix.mulVec, dotProduct, Fintype.sum_prod_type, Fin.sum_univ_succ,
      Finset.sum_add_distrib]

variable {d : ℕ}

/-- The derivatives of the shape functions sum to zero (proved for the nine families in
`C27_sum_dNdr`). -/
def Complete (sf : SF K d n) : Prop := ∀ r k, ∑ i, sf.dNdr r k i = 0

theorem sum_gradAt {sf : SF K d n} (h : Complete sf) (X : Matrix (Fin n) (Fin d) K) (r : Fin d → K)
    (k : Fin d) : ∑ i, gradAt sf X r k i = 0 := by
  simp only [gradAt, Matrix.mul_apply]
  rw [Finset.sum_comm]
  refine Finset.sum_eq_zero fun l _ => ?_
  rw [← Finset.mul_sum, h r l, mul_zero]

theorem gradAt_mul {sf : SF K d n} {X : Matrix (Fin n) (Fin d) K} {r : Fin d → K}
    (h : (sf.dNdr r * X).det ≠ 0) : gradAt sf X r * X = 1 := by
  rw [gradAt, Matrix.mul_assoc]
  exact Matrix.nonsing_inv_mul _ (Ne.isUnit h)

theorem sum_gradAt_mul {sf : SF K d n} {X : Matrix (Fin n) (Fin d) K} {r : Fin d → K}
    (h : (sf.dNdr r * X).det ≠ 0) (k l : Fin d) :
    ∑ i, gradAt sf X r k i * X i l = if k = l then 1 else 0 := by
  have := congrFun (congrFun (gradAt_mul h) k) l
  rwa [Matrix.mul_apply, Matrix.one_apply] at this

end Strain

end Pansfem
