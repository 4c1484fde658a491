/-
C88: loads, masses, drag, reaction, advection and the decoupled method as weak forms.  The work of an
arbitrary virtual field on the element vectors and matrices is the sum over the integration points of
the product of the interpolated fields there, with the data taken at the physical point.
-/
import Verif.Props.C66_Stabilisation
import Verif.Props.C64_Fluid
import Verif.Lemmas.RealExamples

noncomputable section

namespace Pansfem

open Matrix

variable {m n : ℕ}

/-- The value at a point of the field with the nodal values `u`, from the values `N` of the shape
functions there. -/
def interp {K : Type} [Field K] (N u : Fin n → K) : K := ∑ i, N i * u i

/-- The position of a point of the element with the nodes `X`. -/
def place {K : Type} [Field K] {d : ℕ} (N : Fin n → K) (X : Matrix (Fin n) (Fin d) K) : Fin d → K :=
  fun k => ∑ i, N i * X i k

theorem place_eq {K : Type} [Field K] {d : ℕ} (N : Fin n → K) (X : Matrix (Fin n) (Fin d) K) :
    Xᵀ *ᵥ N = place N X := by
  ext k
  simp only [mulVec, dotProduct, transpose_apply, place]
  exact Finset.sum_congr rfl fun i _ => mul_comm _ _

section Plane
variable {K : Type} [Field K] {sf : SF K 2 n} {ic : IC K 2} {X : Matrix (Fin n) (Fin 2) K} {t : K}

theorem planeN_interp (N : Fin n → K) (u : Fin n × Fin 2 → K) :
    planeN N *ᵥ u = fun a => interp N fun i => u (i, a) := by
  rw [planeN_mulVec]
  ext a
  fin_cases a <;> rfl

theorem dot_planeN (N : Fin n → K) (v : Fin n × Fin 2 → K) (f : Fin 2 → K) :
    v ⬝ᵥ ((planeN N)ᵀ *ᵥ f) = ∑ a, f a * interp N fun i => v (i, a) := by
  rw [dotProduct_mulVec, vecMul_transpose, planeN_interp, dotProduct]
  exact Finset.sum_congr rfl fun a _ => mul_comm _ _

/-- **C88** for `PlaneStrainBodyForce`, `PlaneStressBodyForce`. -/
theorem C88_planeBodyForce (f : (Fin 2 → K) → Fin 2 → K) {Fe : Fin n × Fin 2 → K}
    (h : planeBodyForce sf ic X f t = some Fe) (v : Fin n × Fin 2 → K) :
    v ⬝ᵥ Fe = ∑ g, measure2 sf ic X g * (t * ∑ a, f (place (sf.N (ic.points g)) X) a *
      interp (sf.N (ic.points g)) fun i => v (i, a)) := by
  rw [planeBodyForce, loop2J_eq_some] at h
  subst h
  rw [dotProduct_sum]
  refine Finset.sum_congr rfl fun g _ => ?_
  rw [dotProduct_smul, dotProduct_smul, dot_planeN, place_eq, smul_eq_mul, smul_eq_mul]

/-- **C88** for `PlaneStrainMass`, `PlaneStressMass`. -/
theorem C88_planeMass {rho : K} {Me : Matrix (Fin n × Fin 2) (Fin n × Fin 2) K}
    (h : planeMass sf ic X rho t = some Me) (v u : Fin n × Fin 2 → K) :
    v ⬝ᵥ (Me *ᵥ u) = ∑ g, measure2 sf ic X g * (rho * t * ∑ a,
      (interp (sf.N (ic.points g)) fun i => v (i, a)) * interp (sf.N (ic.points g)) fun i => u (i, a)) := by
  rw [planeMass, loop2J_eq_some] at h
  subst h
  rw [dot_smul_sum_mulVec]
  refine Finset.sum_congr rfl fun g _ => ?_
  rw [smul_mulVec, dotProduct_smul, ← mulVec_mulVec, dot_planeN, planeN_interp, smul_eq_mul]
  congr 2
  exact Finset.sum_congr rfl fun a _ => mul_comm _ _

theorem dot_vecMulVec (N M v u : Fin n → K) :
    v ⬝ᵥ (vecMulVec N M *ᵥ u) = interp N v * interp M u := by
  rw [interp, interp, Finset.sum_mul_sum]
  simp only [dotProduct, mulVec, vecMulVec_apply, Finset.mul_sum]
  exact Finset.sum_congr rfl fun i _ => Finset.sum_congr rfl fun j _ => by ring

/-- **C88** for `HeatCapacity`. -/
theorem C88_heatCapacity {rho c : K} {Me : Matrix (Fin n) (Fin n) K}
    (h : heatCapacity sf ic X rho c t = some Me) (v u : Fin n → K) :
    v ⬝ᵥ (Me *ᵥ u) = ∑ g, measure2 sf ic X g * (rho * c * t *
      (interp (sf.N (ic.points g)) v * interp (sf.N (ic.points g)) u)) := by
  rw [heatCapacity, loop2J_eq_some] at h
  subst h
  rw [dot_smul_sum_mulVec]
  refine Finset.sum_congr rfl fun g _ => ?_
  rw [smul_mulVec, dotProduct_smul, dot_vecMulVec, smul_eq_mul]

/-- **C88** for `Mass` of the advection equation. -/
theorem C88_advectionMass {Me : Matrix (Fin n) (Fin n) K} (h : advectionMass sf ic X = some Me)
    (v u : Fin n → K) :
    v ⬝ᵥ (Me *ᵥ u) = ∑ g, measure2 sf ic X g *
      (interp (sf.N (ic.points g)) v * interp (sf.N (ic.points g)) u) := by
  rw [advectionMass, loop2J_eq_some] at h
  subst h
  rw [dot_smul_sum_mulVec]
  exact Finset.sum_congr rfl fun g _ => by rw [dot_vecMulVec]

variable [DecidableEq K]

/-- **C88** for `ReactionDiffusionConsistentMass`. -/
theorem C88_rdConsistentMass {Me : Matrix (Fin n) (Fin n) K} (h : rdConsistentMass sf ic X = some Me)
    (v u : Fin n → K) :
    v ⬝ᵥ (Me *ᵥ u) = ∑ g, measure2 sf ic X g *
      (interp (sf.N (ic.points g)) v * interp (sf.N (ic.points g)) u) := by
  rw [rdConsistentMass, loop2_some] at h
  rw [h.2, dot_smul_sum_mulVec]
  exact Finset.sum_congr rfl fun g _ => by rw [dot_vecMulVec]

omit [DecidableEq K] in
theorem interp_eq (N u : Fin n → K) : interp N u = u ⬝ᵥ N := by
  simp only [interp, dotProduct, mul_comm]

/-- **C88** for `ReactionDiffusionReaction`: the reaction is that of the interpolated value and
gradient. -/
theorem C88_reaction {U : Fin n → K} {f : K → (Fin 2 → K) → K} {Fe : Fin n → K}
    (h : rdReaction sf ic X U f = some Fe) (v : Fin n → K) :
    v ⬝ᵥ Fe = ∑ g, measure2 sf ic X g * (f (interp (sf.N (ic.points g)) U)
      (fun k => interp (gradAt sf X (ic.points g) k) U) * interp (sf.N (ic.points g)) v) := by
  rw [rdReaction, loop2_some] at h
  rw [h.2, dotProduct_sum]
  refine Finset.sum_congr rfl fun g _ => ?_
  rw [dotProduct_smul, dotProduct_smul, smul_eq_mul, smul_eq_mul, interp_eq (K := K) _ v]
  rfl

/-- **C88** for `Advection`. -/
theorem C88_advection {c : Fin 2 → K} {Ke : Matrix (Fin n) (Fin n) K}
    (h : advection sf ic X c = some Ke) (v u : Fin n → K) :
    v ⬝ᵥ (Ke *ᵥ u) = ∑ g, measure2 sf ic X g * (interp (sf.N (ic.points g)) v *
      ∑ k, c k * interp (gradAt sf X (ic.points g) k) u) := by
  rw [advection, loop2_some] at h
  rw [h.2, dot_smul_sum_mulVec]
  refine Finset.sum_congr rfl fun g _ => ?_
  rw [dot_vecMulVec]
  congr 2
  simp only [interp, vecMul, dotProduct, Finset.sum_mul, Finset.mul_sum]
  rw [Finset.sum_comm]
  exact Finset.sum_congr rfl fun i _ => Finset.sum_congr rfl fun j _ => by ring

/-- **C88** for the matrix of `NavierStokesPressurePoisson`. -/
theorem C88_pressurePoissonK {Ke : Matrix (Fin n) (Fin n) K} (h : pressurePoissonK sf ic X = some Ke)
    (v u : Fin n → K) :
    v ⬝ᵥ (Ke *ᵥ u) = ∑ g, measure2 sf ic X g * ∑ k,
      interp (gradAt sf X (ic.points g) k) v * interp (gradAt sf X (ic.points g) k) u := by
  rw [pressurePoissonK, loop2_some] at h
  rw [h.2, dot_smul_sum_mulVec]
  refine Finset.sum_congr rfl fun g _ => ?_
  congr 1
  rw [Fin.sum_univ_two, ← dot_vecMulVec, ← dot_vecMulVec, ← dotProduct_add, ← add_mulVec]
  rfl

/-- **C88** for the load of `NavierStokesPressurePoisson`. -/
theorem C88_pressurePoissonF {u : Matrix (Fin n) (Fin 2) K} {rho dt : K} {Fe : Fin n → K}
    (h : pressurePoissonF sf ic X u rho dt = some Fe) (hN : 0 < ic.N) (q : Fin n → K) :
    dt ≠ 0 ∧ q ⬝ᵥ Fe = ∑ g, measure2 sf ic X g * (-rho / dt * interp (sf.N (ic.points g)) q *
      ∑ k, interp (gradAt sf X (ic.points g) k) fun i => u i k) := by
  rw [pressurePoissonF, loop2_eq_some] at h
  obtain ⟨-, w, hw, rfl⟩ := h
  simp only [Option.bind_eq_bind, Option.pure_def, Option.bind_eq_some_iff, Option.some.injEq,
    div?_eq_some] at hw
  refine ⟨by obtain ⟨c, hc, -⟩ := hw ⟨0, hN⟩; exact hc.1, ?_⟩
  rw [dotProduct_sum]
  refine Finset.sum_congr rfl fun g _ => ?_
  obtain ⟨c, ⟨h0, rfl⟩, e⟩ := hw g
  rw [← e, dotProduct_smul, smul_eq_mul, Fin.sum_univ_two]
  congr 1
  simp only [interp, dotProduct, Matrix.mul_apply, Finset.mul_sum, Finset.sum_mul]
  refine Finset.sum_congr rfl fun i _ => ?_
  ring_nf

/-- **C88** for `NavierStokesDecoupledConsistentMass`. -/
theorem C88_decoupledMass {rho : K} {Me : Matrix (Fin n ⊕ Fin n) (Fin n ⊕ Fin n) K}
    (h : decoupledMass sf ic X rho = some Me) (v u : Fin 2 → Fin n → K) :
    Sum.elim (v 0) (v 1) ⬝ᵥ (Me *ᵥ Sum.elim (u 0) (u 1)) = ∑ g, measure2 sf ic X g * (rho * ∑ a,
      interp (sf.N (ic.points g)) (v a) * interp (sf.N (ic.points g)) (u a)) := by
  rw [decoupledMass, loop2_some] at h
  rw [h.2, dot_smul_sum_mulVec]
  refine Finset.sum_congr rfl fun g _ => ?_
  congr 1
  have e : (Matrix.of fun i j => rho * sf.N (ic.points g) i * sf.N (ic.points g) j) =
      rho • vecMulVec (sf.N (ic.points g)) (sf.N (ic.points g)) := by
    ext i j
    simp [vecMulVec_apply, mul_assoc]
  rw [fromBlocks_mulVec, e]
  simp only [Sum.elim_comp_inl, Sum.elim_comp_inr, zero_mulVec, add_zero, zero_add]
  rw [sumElim_dotProduct_sumElim, smul_mulVec, smul_mulVec, dotProduct_smul,
    dotProduct_smul, dot_vecMulVec, dot_vecMulVec, Fin.sum_univ_two, smul_eq_mul, smul_eq_mul, mul_add]

theorem elim_dot_smul_sum {N : ℕ} (c : Fin N → K) (F : Fin N → Fin n ⊕ Fin n → K) (v : Fin 2 → Fin n → K) :
    Sum.elim (v 0) (v 1) ⬝ᵥ (∑ g, c g • F g) = ∑ g, c g *
      ∑ a, ∑ i, v a i * (if a = 0 then F g (.inl i) else F g (.inr i)) := by
  rw [dotProduct_sum]
  refine Finset.sum_congr rfl fun g _ => ?_
  rw [dotProduct_smul, smul_eq_mul, Fin.sum_univ_two]
  simp [dotProduct, Fintype.sum_sum_type]

/-- **C88** for `NavierStokesAuxiliaryVelocity`. -/
theorem C88_auxiliaryVelocity {u : Matrix (Fin n) (Fin 2) K} {rho mu : K} {Fe : Fin n ⊕ Fin n → K}
    (h : auxiliaryVelocity sf ic X u rho mu = some Fe) (v : Fin 2 → Fin n → K) :
    Sum.elim (v 0) (v 1) ⬝ᵥ Fe = -∑ g, measure2 sf ic X g * (
      let U := fun a => interp (sf.N (ic.points g)) fun i => u i a
      let D := fun k a => interp (gradAt sf X (ic.points g) k) fun i => u i a
      ∑ a, (rho * interp (sf.N (ic.points g)) (v a) * ∑ k, U k * D k a +
        mu * ∑ k, interp (gradAt sf X (ic.points g) k) (v a) * D k a)) := by
  rw [auxiliaryVelocity, loop2_some] at h
  rw [h.2, elim_dot_smul_sum, ← Finset.sum_neg_distrib]
  refine Finset.sum_congr rfl fun g _ => ?_
  rw [← mul_neg]
  congr 1
  rw [← Finset.sum_neg_distrib]
  refine Finset.sum_congr rfl fun a _ => ?_
  have eU : ∀ b, interp (sf.N (ic.points g)) (fun i => u i b) = (uᵀ *ᵥ sf.N (ic.points g)) b := by
    intro b
    rw [place_eq]
    rfl
  have eD : ∀ k b, interp (gradAt sf X (ic.points g) k) (fun i => u i b) =
      (gradAt sf X (ic.points g) * u) k b := fun k b => rfl
  simp only [eU, eD, Fin.sum_univ_two]
  generalize uᵀ *ᵥ sf.N (ic.points g) = U
  generalize gradAt sf X (ic.points g) * u = D
  simp only [interp, Finset.mul_sum, Finset.sum_mul, ← Finset.sum_add_distrib, ← Finset.sum_neg_distrib]
  refine Finset.sum_congr rfl fun i _ => ?_
  fin_cases a <;> simp <;> ring

/-- **C88** for `NavierStokesNextstepVelocity`. -/
theorem C88_nextstepVelocity {p : Fin n → K} {Fe : Fin n ⊕ Fin n → K}
    (h : nextstepVelocity sf ic X p = some Fe) (v : Fin 2 → Fin n → K) :
    Sum.elim (v 0) (v 1) ⬝ᵥ Fe = -∑ g, measure2 sf ic X g * ∑ a,
      interp (sf.N (ic.points g)) (v a) * interp (gradAt sf X (ic.points g) a) p := by
  rw [nextstepVelocity, loop2_some] at h
  rw [h.2, elim_dot_smul_sum, ← Finset.sum_neg_distrib]
  refine Finset.sum_congr rfl fun g _ => ?_
  rw [← mul_neg]
  congr 1
  rw [← Finset.sum_neg_distrib]
  refine Finset.sum_congr rfl fun a _ => ?_
  rw [interp, Finset.sum_mul, ← Finset.sum_neg_distrib]
  refine Finset.sum_congr rfl fun i _ => ?_
  fin_cases a <;> simp [interp, mulVec, dotProduct] <;> ring

end Plane

section Edge
variable {sf : SF ℝ 1 n} {ic : IC ℝ 1} {X : Matrix (Fin n) (Fin 2) ℝ} {t : ℝ}

/-- **C88** for `PlaneStrainSurfaceForce`, `PlaneStressSurfaceForce`. -/
theorem C88_planeSurfaceForce (f : (Fin 2 → ℝ) → Fin 2 → ℝ) {Fe : Fin n × Fin 2 → ℝ}
    (h : planeSurfaceForce sf ic X f t = some Fe) (v : Fin n × Fin 2 → ℝ) :
    v ⬝ᵥ Fe = ∑ g, lineElement sf X (ic.points g) * ic.weights g 0 *
      (t * ∑ a, f (place (sf.N (ic.points g)) X) a *
        interp (sf.N (ic.points g)) fun i => v (i, a)) := by
  rw [planeSurfaceForce, loop1_eq_some] at h
  subst h
  rw [dotProduct_sum]
  refine Finset.sum_congr rfl fun g _ => ?_
  rw [dotProduct_smul, dotProduct_smul, dot_planeN, place_eq, smul_eq_mul, smul_eq_mul]

/-- **C88** for `HeatTransferSurfaceFlux`. -/
theorem C88_heatSurfaceFlux (f : (Fin 2 → ℝ) → ℝ) {Fe : Fin n → ℝ}
    (h : heatSurfaceFlux sf ic X f t = some Fe) (v : Fin n → ℝ) :
    v ⬝ᵥ Fe = ∑ g, lineElement sf X (ic.points g) * ic.weights g 0 *
      (f (place (sf.N (ic.points g)) X) * t * interp (sf.N (ic.points g)) v) := by
  rw [heatSurfaceFlux, loop1_eq_some] at h
  subst h
  rw [dotProduct_sum]
  refine Finset.sum_congr rfl fun g _ => ?_
  rw [dotProduct_smul, dotProduct_smul, place_eq, smul_eq_mul, smul_eq_mul, interp_eq]

/-- **C88** for `StokesSurfaceForce`: the place is that of the pressure nodes. -/
theorem C88_stokesSurfaceForce {sfu : SF ℝ 1 m} (f : (Fin 2 → ℝ) → Fin 2 → ℝ) {Fe : Flu m n → ℝ}
    (h : stokesSurfaceForce sfu sf ic X f = some Fe) (u v : Fin m → ℝ) (p : Fin n → ℝ) :
    fluV u v p ⬝ᵥ Fe = ∑ g, lineElement sf X (ic.points g) * ic.weights g 0 *
      (f (place (sf.N (ic.points g)) X) 0 * interp (sfu.N (ic.points g)) u +
        f (place (sf.N (ic.points g)) X) 1 * interp (sfu.N (ic.points g)) v) := by
  rw [stokesSurfaceForce, loop1_eq_some] at h
  subst h
  rw [dotProduct_sum]
  refine Finset.sum_congr rfl fun g _ => ?_
  rw [dotProduct_smul, smul_eq_mul, fluV_dot, place_eq, dot_mul_of (fun j => rfl),
    dot_mul_of (fun j => rfl)]
  simp only [interp, show p ⬝ᵥ (fun _ => (0 : ℝ)) = 0 from dotProduct_zero p]
  ring

end Edge

section Mixed
variable {K : Type} [Field K] {sfu : SF K 2 m} {sfp : SF K 2 n} {ic : IC K 2}
  {Xp : Matrix (Fin n) (Fin 2) K}

/-- **C88** for `StokesBodyForce`, `NavierStokesBodyForce`. -/
theorem C88_stokesBodyForce (f : (Fin 2 → K) → Fin 2 → K) {Fe : Flu m n → K}
    (h : stokesBodyForce sfu sfp ic Xp f = some Fe) (u v : Fin m → K) (p : Fin n → K) :
    fluV u v p ⬝ᵥ Fe = ∑ g, measure2 sfp ic Xp g *
      (f (place (sfp.N (ic.points g)) Xp) 0 * interp (sfu.N (ic.points g)) u +
        f (place (sfp.N (ic.points g)) Xp) 1 * interp (sfu.N (ic.points g)) v) := by
  rw [stokesBodyForce, loop2J_eq_some] at h
  subst h
  rw [dotProduct_sum]
  refine Finset.sum_congr rfl fun g _ => ?_
  rw [dotProduct_smul, smul_eq_mul, fluV_dot, place_eq, dot_mul_of (fun j => mul_comm _ _),
    dot_mul_of (fun j => mul_comm _ _)]
  simp only [interp, show p ⬝ᵥ (fun _ => (0 : K)) = 0 from dotProduct_zero p]
  ring

/-- The work of a matrix whose velocity blocks are `c a b` times the products of the shape functions. -/
theorem dot_fluM_products (N : Fin m → K) (c : Matrix (Fin 2) (Fin 2) K) (w z u v : Fin m → K)
    (q p : Fin n → K) :
    fluV w z q ⬝ᵥ (fluM (fun i j => N i * c 0 0 * N j) (fun i j => N i * c 0 1 * N j)
      (fun i j => N i * c 1 0 * N j) (fun i j => N i * c 1 1 * N j) (fun _ _ => 0) (fun _ _ => 0)
      (fun _ _ => 0) (fun _ _ => 0) (fun _ _ => 0) *ᵥ fluV u v p) =
    interp N w * (c 0 0 * interp N u + c 0 1 * interp N v) +
      interp N z * (c 1 0 * interp N u + c 1 1 * interp N v) := by
  rw [fluM_mulVec, fluV_dot]
  simp only [zero_mul, Finset.sum_const_zero, add_zero,
    show q ⬝ᵥ (fun _ => (0 : K)) = 0 from dotProduct_zero q]
  have e : ∀ (a b : K) (y : Fin m → K), (y ⬝ᵥ fun i => ∑ j, N i * a * N j * u j + ∑ j, N i * b * N j * v j)
      = interp N y * (a * interp N u + b * interp N v) := by
    intro a b y
    have e1 : ∀ (a : K) (u : Fin m → K) i, ∑ j, N i * a * N j * u j = N i * (a * interp N u) := by
      intro a u i
      simp only [interp, Finset.mul_sum]
      exact Finset.sum_congr rfl fun j _ => by ring
    simp only [e1, ← mul_add]
    rw [dot_mul_of (fun j => rfl)]
    rfl
  rw [e, e]

/-- **C88** for `BrinkmanBodyForce`, `NavierStokesBrinkmanBodyForce`: the drag on the virtual velocity
is that of the matrix `k`. -/
theorem C88_brinkman {k : Matrix (Fin 2) (Fin 2) K} {Ke : Matrix (Flu m n) (Flu m n) K}
    (h : brinkman sfu sfp ic Xp k = some Ke) (w z u v : Fin m → K) (q p : Fin n → K) :
    fluV w z q ⬝ᵥ (Ke *ᵥ fluV u v p) = ∑ g, measure2 sfp ic Xp g * (
      let I := interp (sfu.N (ic.points g))
      ![I w, I z] ⬝ᵥ (k *ᵥ ![I u, I v])) := by
  rw [brinkman, loop2J_eq_some] at h
  subst h
  rw [dot_smul_sum_mulVec]
  refine Finset.sum_congr rfl fun g _ => ?_
  rw [dot_fluM_products]
  simp [dotProduct, mulVec, Fin.sum_univ_two]

/-- **C88** for `StokesMass`, `NavierStokesConsistentMass`. -/
theorem C88_stokesMass {rho : K} {Me : Matrix (Flu m n) (Flu m n) K}
    (h : stokesMass sfu sfp ic Xp rho = some Me) (w z u v : Fin m → K) (q p : Fin n → K) :
    fluV w z q ⬝ᵥ (Me *ᵥ fluV u v p) = ∑ g, measure2 sfp ic Xp g * (
      let I := interp (sfu.N (ic.points g))
      rho * (I w * I u + I z * I v)) := by
  rw [stokesMass, loop2J_eq_some] at h
  subst h
  rw [dot_smul_sum_mulVec]
  refine Finset.sum_congr rfl fun g _ => ?_
  have e := dot_fluM_products (sfu.N (ic.points g)) (!![rho, 0; 0, rho] : Matrix (Fin 2) (Fin 2) K)
    w z u v q p
  simp only [of_apply, cons_val', cons_val_zero, cons_val_one, mul_zero, zero_mul, zero_add,
    add_zero, cons_val_fin_one] at e
  simp only [mul_comm rho (sfu.N (ic.points g) _)]
  rw [e]
  ring

variable [DecidableEq K]

/-- **C88** for `ContinuityStiffness`: the pressure works on the divergence of the virtual velocity, the
virtual pressure on the divergence of the velocity. -/
theorem C88_continuity {Ke : Matrix (Flu m n) (Flu m n) K} (h : continuity sfu sfp ic Xp = some Ke)
    (w z u v : Fin m → K) (q p : Fin n → K) :
    fluV w z q ⬝ᵥ (Ke *ᵥ fluV u v p) = ∑ g, measure2 sfp ic Xp g * (
      let D := velGrad sfu sfp Xp (ic.points g)
      let I := interp (sfp.N (ic.points g))
      I q * (D u 0 + D v 1) - (D w 0 + D z 1) * I p) := by
  obtain ⟨-, rfl⟩ := loopF_some.1 h
  rw [dot_smul_sum_mulVec]
  refine Finset.sum_congr rfl fun g _ => ?_
  rw [fluM_mulVec, fluV_dot]
  congr 1
  simp only [zero_mul, Finset.sum_const_zero, add_zero, zero_add]
  set N := sfp.N (ic.points g)
  set G := gradMix sfu sfp Xp (ic.points g)
  have e1 : ∀ k i, ∑ j, -G k i * N j * p j = G k i * (-interp N p) := by
    intro k i
    rw [interp, ← Finset.sum_neg_distrib, Finset.mul_sum]
    exact Finset.sum_congr rfl fun j _ => by ring
  have e2 : ∀ (k : Fin 2) (u : Fin m → K) i, ∑ j, N i * G k j * u j = N i * velGrad sfu sfp Xp (ic.points g) u k := by
    intro k u i
    rw [velGrad, Finset.mul_sum]
    exact Finset.sum_congr rfl fun j _ => mul_assoc _ _ _
  simp only [e1, e2, ← mul_add]
  rw [dot_mul_of (fun j => rfl), dot_mul_of (fun j => rfl), dot_mul_of (fun j => rfl)]
  simp only [velGrad, interp]
  ring

end Mixed

/-! ### Cases -/

theorem exTri_measure (g : Fin exRule.N) : measure2 (SF.triangle3 : SF ℚ 2 3) exRule exTri g = 1 := by
  rw [measure2, exTri_det]
  have : g = (⟨0, one_pos⟩ : Fin exRule.N) := Subsingleton.elim (α := Fin 1) _ _
  subst this
  show (2 : ℚ) * 1 * (1 / 2) = 1
  norm_num

theorem exTri_N (g : Fin exRule.N) :
    (SF.triangle3 : SF ℚ 2 3).N (exRule.points g) = fun _ => (1 / 3 : ℚ) := by
  have : g = (⟨0, one_pos⟩ : Fin exRule.N) := Subsingleton.elim (α := Fin 1) _ _
  subst this
  have h : exRule.points ⟨0, one_pos⟩ = ![1 / 3, 1 / 3] := rfl
  rw [h]
  ext i
  fin_cases i <;> norm_num [SF.triangle3]

theorem sum_exRule (c : ℚ) : ∑ _g : Fin exRule.N, c = c :=
  Fin.sum_univ_one (fun _ : Fin 1 => c)

/-- A load that varies linearly in `x`: its total on the triangle with the corners (2,0), (0,1), (0,0) of
area one is its value 2/3 at the centre. -/
example : ∃ Fe, planeBodyForce (SF.triangle3 : SF ℚ 2 3) exRule exTri (fun x => ![x 0, 0]) 1 = some Fe ∧
    (fun q : Fin 3 × Fin 2 => if q.2 = 0 then (1 : ℚ) else 0) ⬝ᵥ Fe = 2 / 3 := by
  obtain ⟨Fe, h⟩ : ∃ Fe, planeBodyForce (SF.triangle3 : SF ℚ 2 3) exRule exTri (fun x => ![x 0, 0]) 1 = some Fe :=
    ⟨_, loop2J_eq_some.2 rfl⟩
  refine ⟨Fe, h, ?_⟩
  rw [C88_planeBodyForce _ h]
  simp only [exTri_measure, exTri_N, sum_exRule]
  simp [place, interp, Fin.sum_univ_succ, exTri]
  norm_num

/-- A drag that couples the directions one way: the velocity `v = 1` is dragged in the first direction
with `5`, the velocity `u = 1` is not dragged in the second. -/
example : ∃ Ke, brinkman (n := 3) (SF.triangle3 : SF ℚ 2 3) (SF.triangle3 : SF ℚ 2 3) exRule exTri !![1, 5; 0, 1]
    = some Ke ∧ fluV 1 0 0 ⬝ᵥ (Ke *ᵥ fluV 0 1 0) = 5 ∧ fluV 0 1 0 ⬝ᵥ (Ke *ᵥ fluV 1 0 0) = 0 := by
  obtain ⟨Ke, h⟩ : ∃ Ke, brinkman (n := 3) (SF.triangle3 : SF ℚ 2 3) (SF.triangle3 : SF ℚ 2 3) exRule exTri
    !![1, 5; 0, 1] = some Ke := ⟨_, loop2J_eq_some.2 rfl⟩
  refine ⟨Ke, h, ?_, ?_⟩ <;>
  · rw [C88_brinkman h]
    simp only [exTri_measure, exTri_N, sum_exRule]
    norm_num [interp, dotProduct, mulVec, Fin.sum_univ_succ]

/-- The reaction `u^2` of the values 0, 0, 3 at the corners is one at the centre. -/
example : ∃ Fe, rdReaction (SF.triangle3 : SF ℚ 2 3) exRule exTri ![0, 0, 3] (fun u _ => u ^ 2) = some Fe ∧
    1 ⬝ᵥ Fe = 1 := by
  obtain ⟨Fe, h⟩ : ∃ Fe, rdReaction (SF.triangle3 : SF ℚ 2 3) exRule exTri ![0, 0, 3] (fun u _ => u ^ 2)
    = some Fe := ⟨_, loop2_some.2 ⟨exTri_regular, rfl⟩⟩
  refine ⟨Fe, h, ?_⟩
  rw [C88_reaction h]
  simp only [exTri_measure, exTri_N, sum_exRule]
  simp [interp, Fin.sum_univ_succ]

/-- The edge from (0,0) to (3,4) with a one-point rule and the load `x` in the first direction: its
length 5 times the load 3/2 in the middle. -/
example : ∃ Fe, planeSurfaceForce SF.line2 ⟨1, fun _ _ => 0, fun _ _ => 2⟩ !![0, 0; 3, 4]
    (fun x => ![x 0, 0]) 1 = some Fe ∧
    (fun q : Fin 2 × Fin 2 => if q.2 = 0 then (1 : ℝ) else 0) ⬝ᵥ Fe = 15 / 2 := by
  obtain ⟨Fe, h⟩ : ∃ Fe, planeSurfaceForce SF.line2 ⟨1, fun _ _ => 0, fun _ _ => 2⟩ !![0, 0; 3, 4]
    (fun x => ![x 0, 0]) 1 = some Fe := ⟨_, loop1_eq_some.2 rfl⟩
  refine ⟨Fe, h, ?_⟩
  have hl : lineElement SF.line2 (!![0, 0; 3, 4] : Matrix (Fin 2) (Fin 2) ℝ) (fun _ => 0) = 5 / 2 := by
    rw [lineElement, Real.sqrt_eq_iff_mul_self_eq_of_pos (by norm_num)]
    norm_num [SF.line2, Matrix.mul_apply, Fin.sum_univ_succ]
  rw [C88_planeSurfaceForce _ h]
  simp only [hl]
  norm_num [place, interp, Fin.sum_univ_succ, SF.line2]

/-- The other loops are defined on the same triangle. -/
example : (∃ Me, decoupledMass (SF.triangle3 : SF ℚ 2 3) exRule exTri 2 = some Me) ∧
    (∃ Fe, auxiliaryVelocity (SF.triangle3 : SF ℚ 2 3) exRule exTri exTri 2 3 = some Fe) ∧
    (∃ Fe, nextstepVelocity (SF.triangle3 : SF ℚ 2 3) exRule exTri ![1, 2, 3] = some Fe) ∧
    (∃ Ke, advection (SF.triangle3 : SF ℚ 2 3) exRule exTri ![1, 2] = some Ke) ∧
    (∃ Ke, pressurePoissonK (SF.triangle3 : SF ℚ 2 3) exRule exTri = some Ke) ∧
    (∃ Ke, continuity (SF.triangle6 : SF ℚ 2 6) (SF.triangle3 : SF ℚ 2 3) exRule exTri = some Ke) ∧
    ∃ Fe, pressurePoissonF (SF.triangle3 : SF ℚ 2 3) exRule exTri exTri 2 3 = some Fe :=
  ⟨⟨_, loop2_some.2 ⟨exTri_regular, rfl⟩⟩, ⟨_, loop2_some.2 ⟨exTri_regular, rfl⟩⟩,
    ⟨_, loop2_some.2 ⟨exTri_regular, rfl⟩⟩, ⟨_, loop2_some.2 ⟨exTri_regular, rfl⟩⟩,
    ⟨_, loop2_some.2 ⟨exTri_regular, rfl⟩⟩, ⟨_, loopF_some.2 ⟨exTri_regular, rfl⟩⟩,
    ⟨_, loop2_eq_some.2 ⟨exTri_regular, fun g i => -2 / 3 * (SF.triangle3 : SF ℚ 2 3).N (exRule.points g) i *
      ((gradAt SF.triangle3 exTri (exRule.points g) * exTri) 0 0 +
        (gradAt SF.triangle3 exTri (exRule.points g) * exTri) 1 1), fun g => by
        rw [div?_eq_some.2 ⟨by norm_num, rfl⟩]; rfl, rfl⟩⟩⟩

end Pansfem
