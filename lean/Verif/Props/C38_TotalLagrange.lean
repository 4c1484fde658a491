/-
C38: the tangent of the Total Lagrange elements is the Jacobian of the internal force (`-_Fe`), in the
plane and in space.  C70: the internal force is the gradient of the strain energy and the tangent is
symmetric.
-/
import Verif.Lemmas.Nonlinear
import Verif.Spec.Jacobian
import Verif.Lemmas.RealExamples
import Verif.Props.C32_Symmetry
import Mathlib.Analysis.Calculus.Deriv.Pow
import Mathlib.Analysis.Calculus.Deriv.Add
import Mathlib.Analysis.Calculus.Deriv.Mul
import Mathlib.Analysis.Calculus.Deriv.Prod

noncomputable section

namespace Pansfem

open Matrix

variable {n : ℕ}

/-! ### Closed forms -/

section Closed
variable {K : Type} [Field K]

/-- The residual `_Fe` of the plane element: minus the sum of `Gᵀ S Fᵀ`. -/
def tlForce2 (sf : SF K 2 n) (ic : IC K 2) (X : Matrix (Fin n) (Fin 2) K)
    (D : Matrix (Fin 3) (Fin 3) K) (U : Matrix (Fin n) (Fin 2) K) : Fin n × Fin 2 → K :=
  -∑ g, measure2 sf ic X g • flat ((gradAt sf X (ic.points g))ᵀ *
    stress2 (D *ᵥ voigt2 (green (dispGrad (gradAt sf X (ic.points g)) U))) *
    (1 + dispGrad (gradAt sf X (ic.points g)) U)ᵀ)

/-- The residual `_Fe` of the solid element: minus the sum of `Gᵀ S Fᵀ`. -/
def tlForce3 (sf : SF K 3 n) (ic : IC K 3) (X : Matrix (Fin n) (Fin 3) K)
    (D : Matrix (Fin 6) (Fin 6) K) (U : Matrix (Fin n) (Fin 3) K) : Fin n × Fin 3 → K :=
  -∑ g, measure3 sf ic X g • flat ((gradAt sf X (ic.points g))ᵀ *
    stress3 (D *ᵥ voigt3 (green (dispGrad (gradAt sf X (ic.points g)) U))) *
    (1 + dispGrad (gradAt sf X (ic.points g)) U)ᵀ)

variable [DecidableEq K]

theorem planeTL_eq_some {sf : SF K 2 n} {ic : IC K 2} {X U : Matrix (Fin n) (Fin 2) K} {E V t : K}
    {Ke : Matrix (Fin n × Fin 2) (Fin n × Fin 2) K} {Fe : Fin n × Fin 2 → K} :
    planeTL sf ic X U E V t = some (Ke, Fe) ↔ ∃ D, planeStrainD E V = some D ∧ Regular sf ic X ∧
      Ke = ∑ g, measure2 sf ic X g •
        ((planeBL (1 + dispGrad (gradAt sf X (ic.points g)) U) (gradAt sf X (ic.points g)))ᵀ * D *
            planeBL (1 + dispGrad (gradAt sf X (ic.points g)) U) (gradAt sf X (ic.points g))
          + (geoB (gradAt sf X (ic.points g)))ᵀ *
            geoS (stress2 (D *ᵥ voigt2 (green (dispGrad (gradAt sf X (ic.points g)) U)))) *
            geoB (gradAt sf X (ic.points g))) ∧
      Fe = tlForce2 sf ic X D U := by
  simp only [planeTL, tlForce2, Option.bind_eq_bind, Option.bind_eq_some_iff, loop2_some, Prod.ext_iff,
    Prod.fst_sum, Prod.snd_sum, Prod.smul_fst, Prod.smul_snd, planeBL_transpose, smul_neg,
    Finset.sum_neg_distrib]

theorem solidTL_eq_some {sf : SF K 3 n} {ic : IC K 3} {X U : Matrix (Fin n) (Fin 3) K} {E V : K}
    {Ke : Matrix (Fin n × Fin 3) (Fin n × Fin 3) K} {Fe : Fin n × Fin 3 → K} :
    solidTL sf ic X U E V = some (Ke, Fe) ↔ ∃ D, solidC E V = some D ∧ Regular sf ic X ∧
      Ke = ∑ g, measure3 sf ic X g •
        ((solidBL (1 + dispGrad (gradAt sf X (ic.points g)) U) (gradAt sf X (ic.points g)))ᵀ * D *
            solidBL (1 + dispGrad (gradAt sf X (ic.points g)) U) (gradAt sf X (ic.points g))
          + (geoB (gradAt sf X (ic.points g)))ᵀ *
            geoS (stress3 (D *ᵥ voigt3 (green (dispGrad (gradAt sf X (ic.points g)) U)))) *
            geoB (gradAt sf X (ic.points g))) ∧
      Fe = tlForce3 sf ic X D U := by
  simp only [solidTL, tlForce3, Option.bind_eq_bind, Option.bind_eq_some_iff, loop3_some, Prod.ext_iff,
    Prod.fst_sum, Prod.snd_sum, Prod.smul_fst, Prod.smul_snd, solidBL_transpose, smul_neg,
    Finset.sum_neg_distrib]

end Closed

/-! ### The tangent -/

/-- The tangent at a point applied to an increment. -/
theorem tlTangent2_mulVec {K : Type} [Field K] (D : Matrix (Fin 3) (Fin 3) K)
    (G : Matrix (Fin 2) (Fin n) K) (U W : Matrix (Fin n) (Fin 2) K) :
    ((planeBL (1 + dispGrad G U) G)ᵀ * D * planeBL (1 + dispGrad G U) G
      + (geoB G)ᵀ * geoS (stress2 (D *ᵥ voigt2 (green (dispGrad G U)))) * geoB G) *ᵥ flat W
      = flat (Gᵀ * stress2 (D *ᵥ voigt2 ((1 + dispGrad G U)ᵀ * dispGrad G W)) * (1 + dispGrad G U)ᵀ)
        + flat (Gᵀ * stress2 (D *ᵥ voigt2 (green (dispGrad G U))) * (dispGrad G W)ᵀ) := by
  rw [add_mulVec, ← mulVec_mulVec, ← mulVec_mulVec, planeBL_mulVec, planeBL_transpose, geo_mulVec]

/-- The tangent at a point applied to an increment. -/
theorem tlTangent3_mulVec {K : Type} [Field K] (D : Matrix (Fin 6) (Fin 6) K)
    (G : Matrix (Fin 3) (Fin n) K) (U W : Matrix (Fin n) (Fin 3) K) :
    ((solidBL (1 + dispGrad G U) G)ᵀ * D * solidBL (1 + dispGrad G U) G
      + (geoB G)ᵀ * geoS (stress3 (D *ᵥ voigt3 (green (dispGrad G U)))) * geoB G) *ᵥ flat W
      = flat (Gᵀ * stress3 (D *ᵥ voigt3 ((1 + dispGrad G U)ᵀ * dispGrad G W)) * (1 + dispGrad G U)ᵀ)
        + flat (Gᵀ * stress3 (D *ᵥ voigt3 (green (dispGrad G U))) * (dispGrad G W)ᵀ) := by
  rw [add_mulVec, ← mulVec_mulVec, ← mulVec_mulVec, solidBL_mulVec, solidBL_transpose, geo_mulVec]

theorem hasDerivAt_cubic {E : Type} [NormedAddCommGroup E] [NormedSpace ℝ E] {f : ℝ → E} {b : E}
    (a Q R : E) (h : ∀ s, f s = a + s • b + s ^ 2 • (Q + s • R)) : HasDerivAt f b 0 := by
  have h1 : HasDerivAt (fun s : ℝ => s • b) ((1 : ℝ) • b) 0 := (hasDerivAt_id (0 : ℝ)).smul_const b
  have h2 : HasDerivAt (fun s : ℝ => s ^ 2) (((2 : ℕ) * (0 : ℝ) ^ (2 - 1))) 0 := hasDerivAt_pow 2 (0 : ℝ)
  have h3 : HasDerivAt (fun s : ℝ => Q + s • R) ((1 : ℝ) • R) 0 :=
    ((hasDerivAt_id (0 : ℝ)).smul_const R).const_add Q
  have h4 := (h1.const_add a).add (h2.smul h3)
  rw [one_smul, show (((2 : ℕ) : ℝ) * (0 : ℝ) ^ (2 - 1)) = 0 by norm_num, zero_smul, add_zero,
    zero_pow two_ne_zero, zero_smul, add_zero] at h4
  rw [show f = _ from funext h]
  exact h4

/-- A force summed over integration points is a polynomial in `s` whose linear part is the sum. -/
theorem hasDerivAt_neg_sum {ι : Type} [Fintype ι] {N : ℕ} (c : Fin N → ℝ) (p : Fin N → ℝ → ι → ℝ)
    (b : Fin N → ι → ℝ)
    (h : ∀ g, ∃ a Q R : ι → ℝ, ∀ s, p g s = a + s • b g + s ^ 2 • (Q + s • R)) :
    HasDerivAt (fun s => -∑ g, c g • p g s) (-∑ g, c g • b g) 0 := by
  have : ∀ g ∈ Finset.univ, HasDerivAt (fun s => c g • p g s) (c g • b g) 0 := by
    intro g _
    obtain ⟨a, Q, R, hs⟩ := h g
    exact (hasDerivAt_cubic a Q R hs).const_smul (c g)
  exact (HasDerivAt.fun_sum this).neg

section Real
variable {d : ℕ}

/-- C38 for the plane element: `_Fe` of `PlaneStrainStiffnessTotalLagrange` is minus the internal force,
so the Jacobian of `_Fe` is minus the tangent. -/
theorem C38_planeStrain {sf : SF ℝ 2 n} {ic : IC ℝ 2} {X : Matrix (Fin n) (Fin 2) ℝ} {E V t : ℝ}
    {Fe : (Fin n × Fin 2 → ℝ) → Fin n × Fin 2 → ℝ}
    (hF : ∀ u, ∃ A, planeTL sf ic X (nodes u) E V t = some (A, Fe u))
    {u : Fin n × Fin 2 → ℝ} {Ke : Matrix (Fin n × Fin 2) (Fin n × Fin 2) ℝ}
    (h : planeTL sf ic X (nodes u) E V t = some (Ke, Fe u)) : IsJacobian Fe u (-Ke) := by
  intro w
  obtain ⟨D, hD, hreg, rfl, -⟩ := planeTL_eq_some.1 h
  have hFe : ∀ s : ℝ, Fe (u + s • w) = tlForce2 sf ic X D (nodes (u + s • w)) := by
    intro s
    obtain ⟨A, hA⟩ := hF (u + s • w)
    obtain ⟨D', hD', -, -, e⟩ := planeTL_eq_some.1 hA
    obtain rfl : D' = D := Option.some.inj (hD'.symm.trans hD)
    exact e
  simp only [hFe, tlForce2, neg_mulVec, mulVec_sum, smul_mulVec, nodes_add_smul, dispGrad_add_smul]
  refine hasDerivAt_neg_sum _ _ _ fun g => ?_
  set G := gradAt sf X (ic.points g)
  obtain ⟨Q, R, hs⟩ := tl_expand two_ne_zero voigt2 stress2 voigt2_add voigt2_smul voigt2_transpose
    stress2_add stress2_smul D G (dispGrad G (nodes u)) (dispGrad G (nodes w))
  have e := tlTangent2_mulVec D G (nodes u) (nodes w)
  rw [flat_nodes] at e
  rw [e]
  exact ⟨_, Q, R, hs⟩

/-- C38 for the solid element. -/
theorem C38_solid {sf : SF ℝ 3 n} {ic : IC ℝ 3} {X : Matrix (Fin n) (Fin 3) ℝ} {E V : ℝ}
    {Fe : (Fin n × Fin 3 → ℝ) → Fin n × Fin 3 → ℝ}
    (hF : ∀ u, ∃ A, solidTL sf ic X (nodes u) E V = some (A, Fe u))
    {u : Fin n × Fin 3 → ℝ} {Ke : Matrix (Fin n × Fin 3) (Fin n × Fin 3) ℝ}
    (h : solidTL sf ic X (nodes u) E V = some (Ke, Fe u)) : IsJacobian Fe u (-Ke) := by
  intro w
  obtain ⟨D, hD, hreg, rfl, -⟩ := solidTL_eq_some.1 h
  have hFe : ∀ s : ℝ, Fe (u + s • w) = tlForce3 sf ic X D (nodes (u + s • w)) := by
    intro s
    obtain ⟨A, hA⟩ := hF (u + s • w)
    obtain ⟨D', hD', -, -, e⟩ := solidTL_eq_some.1 hA
    obtain rfl : D' = D := Option.some.inj (hD'.symm.trans hD)
    exact e
  simp only [hFe, tlForce3, neg_mulVec, mulVec_sum, smul_mulVec, nodes_add_smul, dispGrad_add_smul]
  refine hasDerivAt_neg_sum _ _ _ fun g => ?_
  set G := gradAt sf X (ic.points g)
  obtain ⟨Q, R, hs⟩ := tl_expand two_ne_zero voigt3 stress3 voigt3_add voigt3_smul voigt3_transpose
    stress3_add stress3_smul D G (dispGrad G (nodes u)) (dispGrad G (nodes w))
  have e := tlTangent3_mulVec D G (nodes u) (nodes w)
  rw [flat_nodes] at e
  rw [e]
  exact ⟨_, Q, R, hs⟩

/-! ### Strain energy -/

theorem flat_dot (A B : Matrix (Fin n) (Fin d) ℝ) : flat A ⬝ᵥ flat B = trace (Aᵀ * B) := by
  simp only [flat, dotProduct, Fintype.sum_prod_type, Matrix.trace, Matrix.diag_apply, Matrix.mul_apply,
    Matrix.transpose_apply]
  exact Finset.sum_comm

/-- The work of `Gᵀ S Fᵀ` on nodal vectors. -/
theorem force_work (G : Matrix (Fin d) (Fin n) ℝ) (S F : Matrix (Fin d) (Fin d) ℝ) (hS : Sᵀ = S)
    (W : Matrix (Fin n) (Fin d) ℝ) :
    flat (Gᵀ * S * Fᵀ) ⬝ᵥ flat W = trace (S * (Fᵀ * dispGrad G W)) := by
  rw [flat_dot, ← trace_transpose]
  simp only [transpose_mul, transpose_transpose, dispGrad, ← Matrix.mul_assoc, hS]
  rw [Matrix.mul_assoc (Wᵀ * Gᵀ) S, Matrix.trace_mul_comm, ← Matrix.mul_assoc]

/-- Half the product of a vector depending on `s` with its stress. -/
theorem hasDerivAt_energy {κ : Type} [Fintype κ] {D : Matrix κ κ ℝ} (hD : D.IsSymm) {f : ℝ → κ → ℝ}
    {b : κ → ℝ} (a c : κ → ℝ) (h : ∀ s, f s = a + s • b + s ^ 2 • c) :
    HasDerivAt (fun s => 1 / 2 * (f s ⬝ᵥ D *ᵥ f s)) ((D *ᵥ a) ⬝ᵥ b) 0 := by
  have hsym : ∀ x y : κ → ℝ, x ⬝ᵥ D *ᵥ y = y ⬝ᵥ D *ᵥ x := by
    intro x y
    rw [dotProduct_mulVec, ← mulVec_transpose, hD.eq, dotProduct_comm]
  refine hasDerivAt_of_expansion (a := 1 / 2 * (a ⬝ᵥ D *ᵥ a))
    (r := fun s => 1 / 2 * (b ⬝ᵥ D *ᵥ b) + a ⬝ᵥ D *ᵥ c + s * (b ⬝ᵥ D *ᵥ c)
      + s ^ 2 * (1 / 2 * (c ⬝ᵥ D *ᵥ c))) ?_ (Filter.Eventually.of_forall fun s => ?_)
  · exact Continuous.continuousAt (by fun_prop)
  · rw [h]
    simp only [mulVec_add, mulVec_smul, dotProduct_add, add_dotProduct, smul_dotProduct,
      dotProduct_smul, smul_eq_mul]
    rw [hsym b a, hsym c a, hsym c b, dotProduct_comm (D *ᵥ a) b, hsym b a]
    ring

/-- The strain energy of the plane element: half the sum of strain times stress. -/
def tlEnergy2 (sf : SF ℝ 2 n) (ic : IC ℝ 2) (X : Matrix (Fin n) (Fin 2) ℝ)
    (D : Matrix (Fin 3) (Fin 3) ℝ) (U : Matrix (Fin n) (Fin 2) ℝ) : ℝ :=
  ∑ g, measure2 sf ic X g * (1 / 2 * (voigt2 (green (dispGrad (gradAt sf X (ic.points g)) U)) ⬝ᵥ
    D *ᵥ voigt2 (green (dispGrad (gradAt sf X (ic.points g)) U))))

/-- The strain energy of the solid element. -/
def tlEnergy3 (sf : SF ℝ 3 n) (ic : IC ℝ 3) (X : Matrix (Fin n) (Fin 3) ℝ)
    (D : Matrix (Fin 6) (Fin 6) ℝ) (U : Matrix (Fin n) (Fin 3) ℝ) : ℝ :=
  ∑ g, measure3 sf ic X g * (1 / 2 * (voigt3 (green (dispGrad (gradAt sf X (ic.points g)) U)) ⬝ᵥ
    D *ᵥ voigt3 (green (dispGrad (gradAt sf X (ic.points g)) U))))

/-- C70: the residual is minus the gradient of the strain energy. -/
theorem C70_planeStrain_energy {sf : SF ℝ 2 n} {ic : IC ℝ 2} {X : Matrix (Fin n) (Fin 2) ℝ} {E V t : ℝ}
    {D} (hD : planeStrainD E V = some D) {u : Fin n × Fin 2 → ℝ} {Ke Fe}
    (h : planeTL sf ic X (nodes u) E V t = some (Ke, Fe)) (w : Fin n × Fin 2 → ℝ) :
    HasDerivAt (fun s : ℝ => tlEnergy2 sf ic X D (nodes (u + s • w))) (-Fe ⬝ᵥ w) 0 := by
  obtain ⟨D', hD', hreg, -, rfl⟩ := planeTL_eq_some.1 h
  obtain rfl : D' = D := Option.some.inj (hD'.symm.trans hD)
  have e : (-tlForce2 sf ic X D' (nodes u)) ⬝ᵥ w = ∑ g, measure2 sf ic X g *
      ((D' *ᵥ voigt2 (green (dispGrad (gradAt sf X (ic.points g)) (nodes u)))) ⬝ᵥ
        voigt2 ((1 + dispGrad (gradAt sf X (ic.points g)) (nodes u))ᵀ *
          dispGrad (gradAt sf X (ic.points g)) (nodes w))) := by
    rw [tlForce2, neg_neg, sum_dotProduct]
    refine Finset.sum_congr rfl fun g _ => ?_
    rw [smul_dotProduct, smul_eq_mul, dot_voigt2, ← force_work _ _ _ (stress2_transpose _), flat_nodes]
  rw [e]
  refine HasDerivAt.fun_sum fun g _ => HasDerivAt.const_mul _ ?_
  refine hasDerivAt_energy (isSymm_planeStrainD hD) _ (voigt2 ((1 / 2 : ℝ) •
    ((dispGrad (gradAt sf X (ic.points g)) (nodes w))ᵀ *
      dispGrad (gradAt sf X (ic.points g)) (nodes w)))) fun s => ?_
  rw [nodes_add_smul, dispGrad_add_smul]
  exact green_expand two_ne_zero voigt2 voigt2_add voigt2_smul voigt2_transpose _ _ s

theorem geoS_isSymm {K : Type} [Field K] {S : Matrix (Fin d) (Fin d) K} (h : Sᵀ = S) :
    (geoS S).IsSymm := by
  ext r c
  have := congrFun (congrFun h r.1) c.1
  rw [transpose_apply] at this
  simp [geoS, Matrix.one_apply, this, eq_comm]

/-- C70: the tangent is symmetric. -/
theorem C70_planeStrain_symm {K : Type} [Field K] [DecidableEq K] {sf : SF K 2 n} {ic : IC K 2}
    {X U : Matrix (Fin n) (Fin 2) K} {E V t : K} {Ke Fe}
    (h : planeTL sf ic X U E V t = some (Ke, Fe)) : Ke.IsSymm := by
  obtain ⟨D, hD, -, rfl, -⟩ := planeTL_eq_some.1 h
  refine isSymm_smul_sum fun g => ?_
  exact (isSymm_congr_transform (isSymm_planeStrainD hD) _).add
    (isSymm_congr_transform (geoS_isSymm (stress2_transpose _)) _)

/-- C70: the residual is minus the gradient of the strain energy. -/
theorem C70_solid_energy {sf : SF ℝ 3 n} {ic : IC ℝ 3} {X : Matrix (Fin n) (Fin 3) ℝ} {E V : ℝ}
    {D} (hD : solidC E V = some D) {u : Fin n × Fin 3 → ℝ} {Ke Fe}
    (h : solidTL sf ic X (nodes u) E V = some (Ke, Fe)) (w : Fin n × Fin 3 → ℝ) :
    HasDerivAt (fun s : ℝ => tlEnergy3 sf ic X D (nodes (u + s • w))) (-Fe ⬝ᵥ w) 0 := by
  obtain ⟨D', hD', hreg, -, rfl⟩ := solidTL_eq_some.1 h
  obtain rfl : D' = D := Option.some.inj (hD'.symm.trans hD)
  have e : (-tlForce3 sf ic X D' (nodes u)) ⬝ᵥ w = ∑ g, measure3 sf ic X g *
      ((D' *ᵥ voigt3 (green (dispGrad (gradAt sf X (ic.points g)) (nodes u)))) ⬝ᵥ
        voigt3 ((1 + dispGrad (gradAt sf X (ic.points g)) (nodes u))ᵀ *
          dispGrad (gradAt sf X (ic.points g)) (nodes w))) := by
    rw [tlForce3, neg_neg, sum_dotProduct]
    refine Finset.sum_congr rfl fun g _ => ?_
    rw [smul_dotProduct, smul_eq_mul, dot_voigt3, ← force_work _ _ _ (stress3_transpose _), flat_nodes]
  rw [e]
  refine HasDerivAt.fun_sum fun g _ => HasDerivAt.const_mul _ ?_
  refine hasDerivAt_energy (isSymm_solidC hD) _ (voigt3 ((1 / 2 : ℝ) •
    ((dispGrad (gradAt sf X (ic.points g)) (nodes w))ᵀ *
      dispGrad (gradAt sf X (ic.points g)) (nodes w)))) fun s => ?_
  rw [nodes_add_smul, dispGrad_add_smul]
  exact green_expand two_ne_zero voigt3 voigt3_add voigt3_smul voigt3_transpose _ _ s

/-- C70: the tangent is symmetric. -/
theorem C70_solid_symm {K : Type} [Field K] [DecidableEq K] {sf : SF K 3 n} {ic : IC K 3}
    {X U : Matrix (Fin n) (Fin 3) K} {E V : K} {Ke Fe}
    (h : solidTL sf ic X U E V = some (Ke, Fe)) : Ke.IsSymm := by
  obtain ⟨D, hD, -, rfl, -⟩ := solidTL_eq_some.1 h
  refine isSymm_smul_sum fun g => ?_
  exact (isSymm_congr_transform (isSymm_solidC hD) _).add
    (isSymm_congr_transform (geoS_isSymm (stress3_transpose _)) _)

end Real

/-! ### Cases -/

theorem exPlaneTL (E : ℝ) (U : Matrix (Fin 3) (Fin 2) ℝ) (t : ℝ) :
    ∃ p, planeTL (SF.triangle3 : SF ℝ 2 3) exRuleR exTriR U E (1 / 4) t = some p := by
  obtain ⟨D, hD⟩ : ∃ D, planeStrainD E (1 / 4 : ℝ) = some D :=
    ⟨_, planeStrainD_eq_some.2 ⟨by norm_num, rfl⟩⟩
  exact ⟨(_, _), planeTL_eq_some.2 ⟨D, hD, exTriR_regular, rfl, rfl⟩⟩

theorem exSolidTL (E : ℝ) (U : Matrix (Fin 4) (Fin 3) ℝ) :
    ∃ p, solidTL (SF.tetrahedron4 : SF ℝ 3 4) exRule3R exTetR U E (1 / 4) = some p := by
  obtain ⟨D, hD⟩ : ∃ D, solidC E (1 / 4 : ℝ) = some D :=
    ⟨_, solidC_eq_some.2 ⟨by norm_num, rfl⟩⟩
  exact ⟨(_, _), solidTL_eq_some.2 ⟨D, hD, exTetR_regular, rfl, rfl⟩⟩

/-- The hypotheses of C38 and C70 hold for a triangle and every displacement. -/
example : ∃ Fe : (Fin 3 × Fin 2 → ℝ) → Fin 3 × Fin 2 → ℝ, ∀ u, ∃ Ke,
    planeTL (SF.triangle3 : SF ℝ 2 3) exRuleR exTriR (nodes u) 5 (1 / 4) 1 = some (Ke, Fe u) :=
  ⟨fun u => (exPlaneTL 5 (nodes u) 1).choose.2, fun u =>
    ⟨(exPlaneTL 5 (nodes u) 1).choose.1, (exPlaneTL 5 (nodes u) 1).choose_spec⟩⟩

example : ∃ Fe : (Fin 4 × Fin 3 → ℝ) → Fin 4 × Fin 3 → ℝ, ∀ u, ∃ Ke,
    solidTL (SF.tetrahedron4 : SF ℝ 3 4) exRule3R exTetR (nodes u) 5 (1 / 4) = some (Ke, Fe u) :=
  ⟨fun u => (exSolidTL 5 (nodes u)).choose.2, fun u =>
    ⟨(exSolidTL 5 (nodes u)).choose.1, (exSolidTL 5 (nodes u)).choose_spec⟩⟩

end Pansfem
