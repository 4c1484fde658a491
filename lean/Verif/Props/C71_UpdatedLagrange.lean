/-
C71: the tangent of the Updated Lagrange elements is the Jacobian of the internal force (`-_Fe`).
C70: their internal force is the gradient of the stored energy of a compressible neo-Hookean solid and
the tangent is symmetric.
-/
import Verif.Lemmas.Updated
import Verif.Props.C38_TotalLagrange

noncomputable section

namespace Pansfem

open Matrix

variable {n d : ℕ}

/-- The tangent at an integration point, for the gradient `G` in the deformed element. -/
def ulPoint2 (mu0 lambda0 : ℝ) (F : Matrix (Fin 2) (Fin 2) ℝ) (G : Matrix (Fin 2) (Fin n) ℝ) :
    Matrix (Fin n × Fin 2) (Fin n × Fin 2) ℝ :=
  (planeB G)ᵀ * spatialC2 (spatialLambda lambda0 F) (spatialMu mu0 lambda0 F) * planeB G
    + (geoB G)ᵀ * geoS (cauchy mu0 lambda0 F) * geoB G

theorem measure2_deformed {sf : SF ℝ 2 n} {ic : IC ℝ 2} {X x : Matrix (Fin n) (Fin 2) ℝ} {g : Fin ic.N}
    (h : (sf.dNdr (ic.points g) * X).det ≠ 0) :
    measure2 sf ic x g = measure2 sf ic X g * (defGrad sf X x (ic.points g)).det := by
  rw [measure2, measure2, det_deformed h]; ring

theorem planeUL_eq_some {sf : SF ℝ 2 n} {ic : IC ℝ 2} {X U : Matrix (Fin n) (Fin 2) ℝ} {E V t : ℝ}
    {Ke : Matrix (Fin n × Fin 2) (Fin n × Fin 2) ℝ} {Fe : Fin n × Fin 2 → ℝ} :
    planeUL sf ic X U E V t = some (Ke, Fe) ↔ ∃ mu0 lambda0, lame E V = some (mu0, lambda0) ∧
      Regular sf ic X ∧ (∀ g, 0 < (defGrad sf X (X + U) (ic.points g)).det) ∧
      Ke = ∑ g, measure2 sf ic (X + U) g • ulPoint2 mu0 lambda0 (defGrad sf X (X + U) (ic.points g))
        (gradAt sf (X + U) (ic.points g)) ∧
      Fe = -∑ g, measure2 sf ic X g • flat ((gradAt sf X (ic.points g))ᵀ *
        neoHooke mu0 lambda0 (defGrad sf X (X + U) (ic.points g))) := by
  have key : ∀ mu0 lambda0, (∀ g, (sf.dNdr (ic.points g) * X).det ≠ 0) →
      (∀ g, 0 < (defGrad sf X (X + U) (ic.points g)).det) →
      (∑ g, measure2 sf ic (X + U) g • -flat ((gradAt sf (X + U) (ic.points g))ᵀ *
        cauchy mu0 lambda0 (defGrad sf X (X + U) (ic.points g))))
      = -∑ g, measure2 sf ic X g • flat ((gradAt sf X (ic.points g))ᵀ *
        neoHooke mu0 lambda0 (defGrad sf X (X + U) (ic.points g))) := by
    intro mu0 lambda0 h0 hp
    rw [← Finset.sum_neg_distrib]
    refine Finset.sum_congr rfl fun g _ => ?_
    rw [← cauchy_pullback mu0 lambda0 (hp g).ne', measure2_deformed (x := X + U) (h0 g),
      gradAt_deformed (x := X + U) (h0 g), transpose_mul, transpose_transpose, Matrix.mul_smul, flat_smul,
      smul_neg, smul_smul, Matrix.mul_assoc]
  simp only [planeUL, Option.bind_eq_bind, Option.bind_eq_some_iff, Prod.exists, loop2_eq_some,
    deformation_eq_some]
  constructor
  · rintro ⟨mu0, lambda0, hl, hreg, v, hv, e⟩
    have hv' : ∀ g, (sf.dNdr (ic.points g) * X).det ≠ 0 ∧
        0 < (defGrad sf X (X + U) (ic.points g)).det ∧
        v g = (ulPoint2 mu0 lambda0 (defGrad sf X (X + U) (ic.points g))
          (gradAt sf (X + U) (ic.points g)), -flat ((gradAt sf (X + U) (ic.points g))ᵀ *
            cauchy mu0 lambda0 (defGrad sf X (X + U) (ic.points g)))) := by
      intro g
      obtain ⟨F, ⟨h0, hp, rfl⟩, e⟩ := hv g
      refine ⟨h0, hp, ?_⟩
      rw [← Option.some.inj e, planeB_transpose, stress2_cauchy (cauchy_transpose _ _ _)]
      rfl
    refine ⟨mu0, lambda0, hl, fun g => (hv' g).1, fun g => (hv' g).2.1, ?_, ?_⟩
    · have := congrArg Prod.fst e
      rw [Prod.fst_sum] at this
      exact this.trans (Finset.sum_congr rfl fun g _ => by rw [(hv' g).2.2]; rfl)
    · have := congrArg Prod.snd e
      rw [Prod.snd_sum] at this
      rw [← key mu0 lambda0 (fun g => (hv' g).1) fun g => (hv' g).2.1]
      exact this.trans (Finset.sum_congr rfl fun g _ => by rw [(hv' g).2.2]; rfl)
  · rintro ⟨mu0, lambda0, hl, hreg, hp, rfl, rfl⟩
    refine ⟨mu0, lambda0, hl, fun g => ?_, fun g =>
      (ulPoint2 mu0 lambda0 (defGrad sf X (X + U) (ic.points g)) (gradAt sf (X + U) (ic.points g)),
        -flat ((gradAt sf (X + U) (ic.points g))ᵀ *
            cauchy mu0 lambda0 (defGrad sf X (X + U) (ic.points g)))),
      fun g => ⟨_, ⟨hreg g, hp g, rfl⟩, ?_⟩, ?_⟩
    · rw [det_deformed (x := X + U) (hreg g)]
      exact mul_ne_zero (hreg g) (hp g).ne'
    · rw [planeB_transpose, stress2_cauchy (cauchy_transpose _ _ _)]
      rfl
    · refine Prod.ext ?_ ?_
      · rw [Prod.fst_sum]; rfl
      · rw [Prod.snd_sum, ← key mu0 lambda0 hreg hp]; rfl

/-- The tangent at a point on an increment, referred to the undeformed element. -/
theorem ulPoint2_mulVec {sf : SF ℝ 2 n} {ic : IC ℝ 2} {X x : Matrix (Fin n) (Fin 2) ℝ} {g : Fin ic.N}
    (h : (sf.dNdr (ic.points g) * X).det ≠ 0) (hp : (defGrad sf X x (ic.points g)).det ≠ 0)
    (mu0 lambda0 : ℝ) (W : Matrix (Fin n) (Fin 2) ℝ) :
    (measure2 sf ic x g • ulPoint2 mu0 lambda0 (defGrad sf X x (ic.points g))
        (gradAt sf x (ic.points g))) *ᵥ flat W
      = measure2 sf ic X g • flat ((gradAt sf X (ic.points g))ᵀ * neoHookeDeriv mu0 lambda0
          (defGrad sf X x (ic.points g)) (dispGrad (gradAt sf X (ic.points g)) W)) := by
  rw [smul_mulVec, ulPoint2, ulTangent2_mulVec, dispGrad_deformed (x := x) h,
    ← tangent_pullback mu0 lambda0 hp, measure2_deformed (x := x) h, gradAt_deformed (x := x) h,
    transpose_mul, transpose_transpose, Matrix.mul_smul, flat_smul, smul_smul, Matrix.mul_assoc]

/-- The tangent at an integration point, for the gradient `G` in the deformed element. -/
def ulPoint3 (mu0 lambda0 : ℝ) (F : Matrix (Fin 3) (Fin 3) ℝ) (G : Matrix (Fin 3) (Fin n) ℝ) :
    Matrix (Fin n × Fin 3) (Fin n × Fin 3) ℝ :=
  (solidBU G)ᵀ * spatialC3 (spatialLambda lambda0 F) (spatialMu mu0 lambda0 F) * solidBU G
    + (geoB G)ᵀ * geoS (cauchy mu0 lambda0 F) * geoB G

theorem measure3_deformed {sf : SF ℝ 3 n} {ic : IC ℝ 3} {X x : Matrix (Fin n) (Fin 3) ℝ} {g : Fin ic.N}
    (h : (sf.dNdr (ic.points g) * X).det ≠ 0) :
    measure3 sf ic x g = measure3 sf ic X g * (defGrad sf X x (ic.points g)).det := by
  rw [measure3, measure3, det_deformed h]; ring

theorem solidUL_eq_some {sf : SF ℝ 3 n} {ic : IC ℝ 3} {X U : Matrix (Fin n) (Fin 3) ℝ} {E V : ℝ}
    {Ke : Matrix (Fin n × Fin 3) (Fin n × Fin 3) ℝ} {Fe : Fin n × Fin 3 → ℝ} :
    solidUL sf ic X U E V = some (Ke, Fe) ↔ ∃ mu0 lambda0, lame E V = some (mu0, lambda0) ∧
      Regular sf ic X ∧ (∀ g, 0 < (defGrad sf X (X + U) (ic.points g)).det) ∧
      Ke = ∑ g, measure3 sf ic (X + U) g • ulPoint3 mu0 lambda0 (defGrad sf X (X + U) (ic.points g))
        (gradAt sf (X + U) (ic.points g)) ∧
      Fe = -∑ g, measure3 sf ic X g • flat ((gradAt sf X (ic.points g))ᵀ *
        neoHooke mu0 lambda0 (defGrad sf X (X + U) (ic.points g))) := by
  have key : ∀ mu0 lambda0, (∀ g, (sf.dNdr (ic.points g) * X).det ≠ 0) →
      (∀ g, 0 < (defGrad sf X (X + U) (ic.points g)).det) →
      (∑ g, measure3 sf ic (X + U) g • -flat ((gradAt sf (X + U) (ic.points g))ᵀ *
        cauchy mu0 lambda0 (defGrad sf X (X + U) (ic.points g))))
      = -∑ g, measure3 sf ic X g • flat ((gradAt sf X (ic.points g))ᵀ *
        neoHooke mu0 lambda0 (defGrad sf X (X + U) (ic.points g))) := by
    intro mu0 lambda0 h0 hp
    rw [← Finset.sum_neg_distrib]
    refine Finset.sum_congr rfl fun g _ => ?_
    rw [← cauchy_pullback mu0 lambda0 (hp g).ne', measure3_deformed (x := X + U) (h0 g),
      gradAt_deformed (x := X + U) (h0 g), transpose_mul, transpose_transpose, Matrix.mul_smul, flat_smul,
      smul_neg, smul_smul, Matrix.mul_assoc]
  simp only [solidUL, Option.bind_eq_bind, Option.bind_eq_some_iff, Prod.exists, loop3_eq_some,
    deformation_eq_some]
  constructor
  · rintro ⟨mu0, lambda0, hl, hreg, v, hv, e⟩
    have hv' : ∀ g, (sf.dNdr (ic.points g) * X).det ≠ 0 ∧
        0 < (defGrad sf X (X + U) (ic.points g)).det ∧
        v g = (ulPoint3 mu0 lambda0 (defGrad sf X (X + U) (ic.points g))
          (gradAt sf (X + U) (ic.points g)), -flat ((gradAt sf (X + U) (ic.points g))ᵀ *
            cauchy mu0 lambda0 (defGrad sf X (X + U) (ic.points g)))) := by
      intro g
      obtain ⟨F, ⟨h0, hp, rfl⟩, e⟩ := hv g
      refine ⟨h0, hp, ?_⟩
      rw [← Option.some.inj e, solidBU_transpose, stressU3_cauchy (cauchy_transpose _ _ _)]
      rfl
    refine ⟨mu0, lambda0, hl, fun g => (hv' g).1, fun g => (hv' g).2.1, ?_, ?_⟩
    · have := congrArg Prod.fst e
      rw [Prod.fst_sum] at this
      exact this.trans (Finset.sum_congr rfl fun g _ => by rw [(hv' g).2.2]; rfl)
    · have := congrArg Prod.snd e
      rw [Prod.snd_sum] at this
      rw [← key mu0 lambda0 (fun g => (hv' g).1) fun g => (hv' g).2.1]
      exact this.trans (Finset.sum_congr rfl fun g _ => by rw [(hv' g).2.2]; rfl)
  · rintro ⟨mu0, lambda0, hl, hreg, hp, rfl, rfl⟩
    refine ⟨mu0, lambda0, hl, fun g => ?_, fun g =>
      (ulPoint3 mu0 lambda0 (defGrad sf X (X + U) (ic.points g)) (gradAt sf (X + U) (ic.points g)),
        -flat ((gradAt sf (X + U) (ic.points g))ᵀ *
            cauchy mu0 lambda0 (defGrad sf X (X + U) (ic.points g)))),
      fun g => ⟨_, ⟨hreg g, hp g, rfl⟩, ?_⟩, ?_⟩
    · rw [det_deformed (x := X + U) (hreg g)]
      exact mul_ne_zero (hreg g) (hp g).ne'
    · rw [solidBU_transpose, stressU3_cauchy (cauchy_transpose _ _ _)]
      rfl
    · refine Prod.ext ?_ ?_
      · rw [Prod.fst_sum]; rfl
      · rw [Prod.snd_sum, ← key mu0 lambda0 hreg hp]; rfl

/-- The tangent at a point on an increment, referred to the undeformed element. -/
theorem ulPoint3_mulVec {sf : SF ℝ 3 n} {ic : IC ℝ 3} {X x : Matrix (Fin n) (Fin 3) ℝ} {g : Fin ic.N}
    (h : (sf.dNdr (ic.points g) * X).det ≠ 0) (hp : (defGrad sf X x (ic.points g)).det ≠ 0)
    (mu0 lambda0 : ℝ) (W : Matrix (Fin n) (Fin 3) ℝ) :
    (measure3 sf ic x g • ulPoint3 mu0 lambda0 (defGrad sf X x (ic.points g))
        (gradAt sf x (ic.points g))) *ᵥ flat W
      = measure3 sf ic X g • flat ((gradAt sf X (ic.points g))ᵀ * neoHookeDeriv mu0 lambda0
          (defGrad sf X x (ic.points g)) (dispGrad (gradAt sf X (ic.points g)) W)) := by
  rw [smul_mulVec, ulPoint3, ulTangent3_mulVec, dispGrad_deformed (x := x) h,
    ← tangent_pullback mu0 lambda0 hp, measure3_deformed (x := x) h, gradAt_deformed (x := x) h,
    transpose_mul, transpose_transpose, Matrix.mul_smul, flat_smul, smul_smul, Matrix.mul_assoc]

/-- The force at the integration points along a line of displacements. -/
theorem hasDerivAt_ulForce {N : ℕ} (c : Fin N → ℝ) (G : Fin N → Matrix (Fin d) (Fin n) ℝ)
    (F V : Fin N → Matrix (Fin d) (Fin d) ℝ) (mu0 lambda0 : ℝ) (h : ∀ g, (F g).det ≠ 0) :
    HasDerivAt (fun s : ℝ => -∑ g, c g • flat ((G g)ᵀ * neoHooke mu0 lambda0 (F g + s • V g)))
      (-∑ g, c g • flat ((G g)ᵀ * neoHookeDeriv mu0 lambda0 (F g) (V g))) 0 := by
  refine (HasDerivAt.fun_sum fun g _ => HasDerivAt.const_smul (c g) ?_).neg
  refine hasDerivAt_pi.2 fun p => ?_
  have := HasDerivAt.fun_sum (u := Finset.univ) fun k _ =>
    (hasDerivAt_neoHooke mu0 lambda0 (F g) (V g) (h g) k p.2).const_mul ((G g)ᵀ p.1 k)
  exact this

/-- C71: where the element is not inverted, `_Fe` is differentiable in the displacements and the tangent
is minus its Jacobian.  `Fe` is any function that agrees with the routine where that returns. -/
theorem C71_planeStrain {sf : SF ℝ 2 n} {ic : IC ℝ 2} {X : Matrix (Fin n) (Fin 2) ℝ} {E V t : ℝ}
    {Fe : (Fin n × Fin 2 → ℝ) → Fin n × Fin 2 → ℝ}
    (hF : ∀ u A f, planeUL sf ic X (nodes u) E V t = some (A, f) → Fe u = f)
    {u : Fin n × Fin 2 → ℝ} {Ke f} (h : planeUL sf ic X (nodes u) E V t = some (Ke, f)) :
    IsJacobian Fe u (-Ke) := by
  intro w
  obtain ⟨mu0, lambda0, hl, hreg, hp, rfl, rfl⟩ := planeUL_eq_some.1 h
  have hline : ∀ g (s : ℝ), defGrad sf X (X + nodes (u + s • w)) (ic.points g)
      = defGrad sf X (X + nodes u) (ic.points g)
        + s • dispGrad (gradAt sf X (ic.points g)) (nodes w) := by
    intro g s
    rw [defGrad_add (hreg g), defGrad_add (hreg g), nodes_add_smul, dispGrad_add_smul, add_assoc]
  have hdef : ∀ᶠ s in nhds (0 : ℝ), ∀ g, 0 < (defGrad sf X (X + nodes (u + s • w)) (ic.points g)).det := by
    simp only [hline]
    exact Filter.eventually_all.2 fun g => eventually_det_pos _ _ (hp g)
  have hFe : ∀ᶠ s in nhds (0 : ℝ), Fe (u + s • w) = -∑ g, measure2 sf ic X g •
      flat ((gradAt sf X (ic.points g))ᵀ * neoHooke mu0 lambda0
        (defGrad sf X (X + nodes u) (ic.points g)
          + s • dispGrad (gradAt sf X (ic.points g)) (nodes w))) := by
    filter_upwards [hdef] with s hs
    have := hF (u + s • w) _ _ (planeUL_eq_some.2 ⟨mu0, lambda0, hl, hreg, hs, rfl, rfl⟩)
    rw [this]
    simp only [hline]
  refine HasDerivAt.congr_of_eventuallyEq ?_ hFe
  rw [neg_mulVec, mulVec_sum]
  have e : ∀ g, (measure2 sf ic (X + nodes u) g • ulPoint2 mu0 lambda0
      (defGrad sf X (X + nodes u) (ic.points g)) (gradAt sf (X + nodes u) (ic.points g))) *ᵥ w = _ :=
    fun g => ulPoint2_mulVec (x := X + nodes u) (hreg g) (hp g).ne' mu0 lambda0 (nodes w)
  simp only [e]
  exact hasDerivAt_ulForce _ _ _ _ mu0 lambda0 fun g => (hp g).ne'

/-- C70: the tangent is symmetric. -/
theorem C70_planeStrainUL_symm {sf : SF ℝ 2 n} {ic : IC ℝ 2} {X U : Matrix (Fin n) (Fin 2) ℝ} {E V t : ℝ}
    {Ke f} (h : planeUL sf ic X U E V t = some (Ke, f)) : Ke.IsSymm := by
  obtain ⟨mu0, lambda0, -, -, -, rfl, -⟩ := planeUL_eq_some.1 h
  refine isSymm_smul_sum fun g => ?_
  refine (isSymm_congr_transform ?_ _).add
    (isSymm_congr_transform (geoS_isSymm (cauchy_transpose _ _ _)) _)
  ext i j
  fin_cases i <;> fin_cases j <;> rfl

/-- C71: where the element is not inverted, `_Fe` is differentiable in the displacements and the tangent
is minus its Jacobian.  `Fe` is any function that agrees with the routine where that returns. -/
theorem C71_solid {sf : SF ℝ 3 n} {ic : IC ℝ 3} {X : Matrix (Fin n) (Fin 3) ℝ} {E V : ℝ}
    {Fe : (Fin n × Fin 3 → ℝ) → Fin n × Fin 3 → ℝ}
    (hF : ∀ u A f, solidUL sf ic X (nodes u) E V = some (A, f) → Fe u = f)
    {u : Fin n × Fin 3 → ℝ} {Ke f} (h : solidUL sf ic X (nodes u) E V = some (Ke, f)) :
    IsJacobian Fe u (-Ke) := by
  intro w
  obtain ⟨mu0, lambda0, hl, hreg, hp, rfl, rfl⟩ := solidUL_eq_some.1 h
  have hline : ∀ g (s : ℝ), defGrad sf X (X + nodes (u + s • w)) (ic.points g)
      = defGrad sf X (X + nodes u) (ic.points g)
        + s • dispGrad (gradAt sf X (ic.points g)) (nodes w) := by
    intro g s
    rw [defGrad_add (hreg g), defGrad_add (hreg g), nodes_add_smul, dispGrad_add_smul, add_assoc]
  have hdef : ∀ᶠ s in nhds (0 : ℝ), ∀ g, 0 < (defGrad sf X (X + nodes (u + s • w)) (ic.points g)).det := by
    simp only [hline]
    exact Filter.eventually_all.2 fun g => eventually_det_pos _ _ (hp g)
  have hFe : ∀ᶠ s in nhds (0 : ℝ), Fe (u + s • w) = -∑ g, measure3 sf ic X g •
      flat ((gradAt sf X (ic.points g))ᵀ * neoHooke mu0 lambda0
        (defGrad sf X (X + nodes u) (ic.points g)
          + s • dispGrad (gradAt sf X (ic.points g)) (nodes w))) := by
    filter_upwards [hdef] with s hs
    have := hF (u + s • w) _ _ (solidUL_eq_some.2 ⟨mu0, lambda0, hl, hreg, hs, rfl, rfl⟩)
    rw [this]
    simp only [hline]
  refine HasDerivAt.congr_of_eventuallyEq ?_ hFe
  rw [neg_mulVec, mulVec_sum]
  have e : ∀ g, (measure3 sf ic (X + nodes u) g • ulPoint3 mu0 lambda0
      (defGrad sf X (X + nodes u) (ic.points g)) (gradAt sf (X + nodes u) (ic.points g))) *ᵥ w = _ :=
    fun g => ulPoint3_mulVec (x := X + nodes u) (hreg g) (hp g).ne' mu0 lambda0 (nodes w)
  simp only [e]
  exact hasDerivAt_ulForce _ _ _ _ mu0 lambda0 fun g => (hp g).ne'

/-- C70: the tangent is symmetric. -/
theorem C70_solidUL_symm {sf : SF ℝ 3 n} {ic : IC ℝ 3} {X U : Matrix (Fin n) (Fin 3) ℝ} {E V : ℝ}
    {Ke f} (h : solidUL sf ic X U E V = some (Ke, f)) : Ke.IsSymm := by
  obtain ⟨mu0, lambda0, -, -, -, rfl, -⟩ := solidUL_eq_some.1 h
  refine isSymm_smul_sum fun g => ?_
  refine (isSymm_congr_transform ?_ _).add
    (isSymm_congr_transform (geoS_isSymm (cauchy_transpose _ _ _)) _)
  ext i j
  fin_cases i <;> fin_cases j <;> rfl

/-! ### Stored energy -/

/-- The stored energy per unit undeformed volume. -/
def neoEnergy (mu0 lambda0 : ℝ) (F : Matrix (Fin d) (Fin d) ℝ) : ℝ :=
  mu0 / 2 * (trace (Fᵀ * F) - d) - mu0 * Real.log F.det + lambda0 / 2 * Real.log F.det ^ 2

theorem hasDerivAt_neoEnergy (mu0 lambda0 : ℝ) (F V : Matrix (Fin d) (Fin d) ℝ) (h : F.det ≠ 0) :
    HasDerivAt (fun s : ℝ => neoEnergy mu0 lambda0 (F + s • V)) (trace (neoHooke mu0 lambda0 F * V)) 0 := by
  have h2 := hasDerivAt_log_det F V h
  have h1 : HasDerivAt (fun s : ℝ => trace ((F + s • V)ᵀ * (F + s • V))) (2 * trace (Fᵀ * V)) 0 := by
    refine hasDerivAt_of_expansion (a := trace (Fᵀ * F)) (r := fun _ => trace (Vᵀ * V))
      continuousAt_const (Filter.Eventually.of_forall fun s => ?_)
    have hc : trace (Vᵀ * F) = trace (Fᵀ * V) := by
      rw [← trace_transpose, transpose_mul, transpose_transpose]
    simp only [transpose_add, transpose_smul, Matrix.add_mul, Matrix.mul_add, Matrix.smul_mul,
      Matrix.mul_smul, trace_add, trace_smul, hc, smul_eq_mul]
    ring
  have h3 := (((h1.sub_const (d : ℝ)).const_mul (mu0 / 2)).sub (h2.const_mul mu0)).add
    ((h2.pow 2).const_mul (lambda0 / 2))
  have h0 : F + (0 : ℝ) • V = F := by simp
  rw [h0] at h3
  refine h3.congr_deriv ?_
  rw [neoHooke, Matrix.add_mul, Matrix.smul_mul, Matrix.smul_mul, Matrix.sub_mul, trace_add, trace_smul,
    trace_smul, trace_sub]
  simp only [smul_eq_mul]
  push_cast
  ring

/-- C70: the residual is minus the gradient of the stored energy. -/
theorem C70_planeStrainUL_energy {sf : SF ℝ 2 n} {ic : IC ℝ 2} {X : Matrix (Fin n) (Fin 2) ℝ}
    {E V t mu0 lambda0 : ℝ} (hl : lame E V = some (mu0, lambda0)) {u : Fin n × Fin 2 → ℝ} {Ke Fe}
    (h : planeUL sf ic X (nodes u) E V t = some (Ke, Fe)) (w : Fin n × Fin 2 → ℝ) :
    HasDerivAt (fun s : ℝ => ∑ g, measure2 sf ic X g *
      neoEnergy mu0 lambda0 (defGrad sf X (X + nodes (u + s • w)) (ic.points g))) (-Fe ⬝ᵥ w) 0 := by
  obtain ⟨mu0', lambda0', hl', hreg, hp, -, rfl⟩ := planeUL_eq_some.1 h
  obtain ⟨rfl, rfl⟩ : mu0' = mu0 ∧ lambda0' = lambda0 := by
    have := hl'.symm.trans hl
    simpa using this
  rw [neg_neg, sum_dotProduct]
  refine HasDerivAt.fun_sum fun g _ => ?_
  rw [smul_dotProduct, smul_eq_mul]
  refine HasDerivAt.const_mul _ ?_
  have hline : ∀ s : ℝ, defGrad sf X (X + nodes (u + s • w)) (ic.points g)
      = defGrad sf X (X + nodes u) (ic.points g)
        + s • dispGrad (gradAt sf X (ic.points g)) (nodes w) := by
    intro s
    rw [defGrad_add (hreg g), defGrad_add (hreg g), nodes_add_smul, dispGrad_add_smul, add_assoc]
  simp only [hline]
  refine (hasDerivAt_neoEnergy mu0' lambda0' _ _ (hp g).ne').congr_deriv ?_
  conv_rhs => rw [← flat_nodes w, flat_dot, ← trace_transpose, transpose_mul, transpose_transpose]
  rw [← Matrix.mul_assoc, trace_mul_comm, dispGrad, transpose_mul]

/-- C70: the residual is minus the gradient of the stored energy. -/
theorem C70_solidUL_energy {sf : SF ℝ 3 n} {ic : IC ℝ 3} {X : Matrix (Fin n) (Fin 3) ℝ}
    {E V mu0 lambda0 : ℝ} (hl : lame E V = some (mu0, lambda0)) {u : Fin n × Fin 3 → ℝ} {Ke Fe}
    (h : solidUL sf ic X (nodes u) E V = some (Ke, Fe)) (w : Fin n × Fin 3 → ℝ) :
    HasDerivAt (fun s : ℝ => ∑ g, measure3 sf ic X g *
      neoEnergy mu0 lambda0 (defGrad sf X (X + nodes (u + s • w)) (ic.points g))) (-Fe ⬝ᵥ w) 0 := by
  obtain ⟨mu0', lambda0', hl', hreg, hp, -, rfl⟩ := solidUL_eq_some.1 h
  obtain ⟨rfl, rfl⟩ : mu0' = mu0 ∧ lambda0' = lambda0 := by
    have := hl'.symm.trans hl
    simpa using this
  rw [neg_neg, sum_dotProduct]
  refine HasDerivAt.fun_sum fun g _ => ?_
  rw [smul_dotProduct, smul_eq_mul]
  refine HasDerivAt.const_mul _ ?_
  have hline : ∀ s : ℝ, defGrad sf X (X + nodes (u + s • w)) (ic.points g)
      = defGrad sf X (X + nodes u) (ic.points g)
        + s • dispGrad (gradAt sf X (ic.points g)) (nodes w) := by
    intro s
    rw [defGrad_add (hreg g), defGrad_add (hreg g), nodes_add_smul, dispGrad_add_smul, add_assoc]
  simp only [hline]
  refine (hasDerivAt_neoEnergy mu0' lambda0' _ _ (hp g).ne').congr_deriv ?_
  conv_rhs => rw [← flat_nodes w, flat_dot, ← trace_transpose, transpose_mul, transpose_transpose]
  rw [← Matrix.mul_assoc, trace_mul_comm, dispGrad, transpose_mul]

/-! ### Cases -/

theorem exPlaneUL (t : ℝ) : ∃ p, planeUL (SF.triangle3 : SF ℝ 2 3) exRuleR exTriR exTriR 5 (1 / 4) t
    = some p := by
  obtain ⟨⟨a, b⟩, hl⟩ : ∃ p, lame 5 (1 / 4) = some p :=
    ⟨(_, _), lame_eq_some.2 ⟨by norm_num, rfl, rfl⟩⟩
  refine ⟨(_, _), planeUL_eq_some.2 ⟨a, b, hl, exTriR_regular, fun g => ?_, rfl, rfl⟩⟩
  rw [defGrad, Matrix.mul_add, gradAt_mul (exTriR_regular g), ← two_smul ℝ, transpose_smul, transpose_one,
    det_smul, det_one]
  norm_num

/-- The hypotheses of C71 and C70: a triangle stretched to twice its size. -/
example : ∃ Ke f, planeUL (SF.triangle3 : SF ℝ 2 3) exRuleR exTriR (nodes (flat exTriR)) 5 (1 / 4) 1
    = some (Ke, f) :=
  ⟨(exPlaneUL 1).choose.1, (exPlaneUL 1).choose.2, (exPlaneUL 1).choose_spec⟩

example : ∃ Ke f, solidUL (SF.tetrahedron4 : SF ℝ 3 4) exRule3R exTetR (nodes (flat exTetR)) 5 (1 / 4)
    = some (Ke, f) := by
  obtain ⟨⟨a, b⟩, hl⟩ : ∃ p, lame 5 (1 / 4) = some p :=
    ⟨(_, _), lame_eq_some.2 ⟨by norm_num, rfl, rfl⟩⟩
  refine ⟨_, _, solidUL_eq_some.2 ⟨a, b, hl, exTetR_regular, fun g => ?_, rfl, rfl⟩⟩
  rw [nodes_flat, defGrad, Matrix.mul_add, gradAt_mul (exTetR_regular g), ← two_smul ℝ, transpose_smul,
    transpose_one, det_smul, det_one]
  norm_num

end Pansfem
