/-
C66: SUPG/PSPG terms of Navier-Stokes.  C68: matrices and loads of the decoupled method.  C69: advection.
-/
import Verif.Props.C39_NavierStokes
import Verif.Lemmas.Shell

noncomputable section

namespace Pansfem

open Matrix

variable {m n : ℕ}

/-! ### SUPG and PSPG -/

section SUPG
variable {sfu : SF ℝ 2 m} {sfp : SF ℝ 2 n} {ic : IC ℝ 2} {Xp : Matrix (Fin n) (Fin 2) ℝ}
  {ubar : Matrix (Fin m) (Fin 2) ℝ} {rho mu dt : ℝ}

/-- The stabilisation parameter, where defined, is positive. -/
theorem supgTau_pos {U : Fin 2 → ℝ} {dM : Matrix (Fin 2) (Fin m) ℝ} {A tau : ℝ}
    (h : supgTau U dM A rho mu dt = some tau) : 0 < tau := by
  simp only [supgTau, Option.bind_eq_bind, Option.bind_eq_some_iff] at h
  obtain ⟨he, -, a, -, b, -, c, -, h⟩ := h
  obtain ⟨h0, rfl⟩ := div?_eq_some.1 h
  exact one_div_pos.2 (lt_of_le_of_ne (Real.sqrt_nonneg _) (Ne.symm h0))

/-- The parameter at the integration points of an element. -/
def IsTau (sfu : SF ℝ 2 m) (sfp : SF ℝ 2 n) (ic : IC ℝ 2) (Xp : Matrix (Fin n) (Fin 2) ℝ)
    (ubar : Matrix (Fin m) (Fin 2) ℝ) (rho mu dt : ℝ) (tau : Fin ic.N → ℝ) : Prop :=
  ∀ g, supgTau (ubarᵀ *ᵥ sfu.N (ic.points g)) (gradMix sfu sfp Xp (ic.points g)) (area sfp ic Xp) rho mu dt
    = some (tau g)

theorem exists_tau
    {f : (Fin m → ℝ) → Matrix (Fin 2) (Fin m) ℝ → (Fin n → ℝ) → Matrix (Fin 2) (Fin n) ℝ →
      Matrix (Flu m n) (Flu m n) ℝ} {Ke : Matrix (Flu m n) (Flu m n) ℝ}
    (h : (loopF sfu sfp ic Xp fun M dM N dN => do
      let tau ← supgTau (ubarᵀ *ᵥ M) dM (area sfp ic Xp) rho mu dt
      return tau • f M dM N dN) = some Ke) :
    ∃ tau, IsTau sfu sfp ic Xp ubar rho mu dt tau ∧ Ke = ∑ g, measure2 sfp ic Xp g • (tau g •
      f (sfu.N (ic.points g)) (gradMix sfu sfp Xp (ic.points g)) (sfp.N (ic.points g))
        (gradAt sfp Xp (ic.points g))) := by
  obtain ⟨-, v, hv, rfl⟩ := loopF_eq_some.1 h
  simp only [Option.bind_eq_bind, Option.bind_eq_some_iff, Option.pure_def, Option.some.injEq] at hv
  choose tau h1 h2 using hv
  exact ⟨tau, h1, Finset.sum_congr rfl fun g _ => by rw [h2]⟩

theorem IsTau.unique {tau tau' : Fin ic.N → ℝ} (h : IsTau sfu sfp ic Xp ubar rho mu dt tau)
    (h' : IsTau sfu sfp ic Xp ubar rho mu dt tau') : tau' = tau :=
  funext fun g => Option.some.inj ((h' g).symm.trans (h g))

/-- The momentum residual `rho*(du/dt + (ubar.grad)u) + grad p` of component `k` at a point, without
its viscous part: rates `ud`, velocities `u`, pressures `p`. -/
def strongResidual (sfu : SF ℝ 2 m) (sfp : SF ℝ 2 n) (Xp : Matrix (Fin n) (Fin 2) ℝ)
    (ubar : Matrix (Fin m) (Fin 2) ℝ) (rho : ℝ) (r : Fin 2 → ℝ) (u ud : Fin m → ℝ) (p : Fin n → ℝ)
    (k : Fin 2) : ℝ :=
  let U := ubarᵀ *ᵥ sfu.N r
  rho * (∑ i, sfu.N r i * ud i + (U 0 * velGrad sfu sfp Xp r u 0 + U 1 * velGrad sfu sfp Xp r u 1))
    + ∑ j, gradAt sfp Xp r k j * p j

theorem sum_zero_mul {k : ℕ} (f : Fin k → ℝ) : ∑ j, (0 : ℝ) * f j = 0 := by simp

/-- C66: the three stabilisation matrices together test the momentum residual with
`tau*(ubar.grad w + grad q)`. -/
theorem C66_residual {Ks Ms Cs : Matrix (Flu m n) (Flu m n) ℝ}
    (hK : supgStiffness sfu sfp ic Xp ubar rho mu dt = some Ks)
    (hM : supgMass sfu sfp ic Xp ubar rho mu dt = some Ms)
    (hC : supgContinuity sfu sfp ic Xp ubar rho mu dt = some Cs)
    (u v ud vd : Fin m → ℝ) (p pd : Fin n → ℝ) :
    ∃ tau, (∀ g, 0 < tau g) ∧ IsTau sfu sfp ic Xp ubar rho mu dt tau ∧
    Ks *ᵥ fluV u v p + Ms *ᵥ fluV ud vd pd + Cs *ᵥ fluV u v p =
      ∑ g, measure2 sfp ic Xp g • (tau g • (
        let U := ubarᵀ *ᵥ sfu.N (ic.points g)
        let R0 := strongResidual sfu sfp Xp ubar rho (ic.points g) u ud p 0
        let R1 := strongResidual sfu sfp Xp ubar rho (ic.points g) v vd p 1
        let dM := gradMix sfu sfp Xp (ic.points g)
        let dN := gradAt sfp Xp (ic.points g)
        fluV (fun i => (U 0 * dM 0 i + U 1 * dM 1 i) * R0) (fun i => (U 0 * dM 0 i + U 1 * dM 1 i) * R1)
          (fun j => dN 0 j * R0 + dN 1 j * R1))) := by
  obtain ⟨tau, ht, rfl⟩ := exists_tau hK
  obtain ⟨t1, ht1, rfl⟩ := exists_tau hM
  obtain ⟨t2, ht2, rfl⟩ := exists_tau hC
  obtain rfl := ht.unique ht1
  obtain rfl := ht1.unique ht2
  refine ⟨t2, fun g => supgTau_pos (ht2 g), ht2, ?_⟩
  simp only [smul_smul]
  rw [smul_sum_mulVec, smul_sum_mulVec, smul_sum_mulVec, ← Finset.sum_add_distrib,
    ← Finset.sum_add_distrib]
  refine Finset.sum_congr rfl fun g _ => ?_
  rw [← smul_add, ← smul_add, fluM_mulVec, fluM_mulVec, fluM_mulVec]
  congr 1
  ext r
  rcases r with (i | i) | i <;>
    simp only [fluV, Pi.add_apply, strongResidual, velGrad, sum_zero_mul, add_zero, zero_add]
  all_goals
    simp only [mul_add, add_mul, Finset.sum_add_distrib, Finset.mul_sum]
    simp only [← Finset.sum_add_distrib]
  · exact congrArg₂ (· + ·) (Finset.sum_congr rfl fun j _ => by ring)
      (Finset.sum_congr rfl fun j _ => by ring)
  · exact congrArg₂ (· + ·) (Finset.sum_congr rfl fun j _ => by ring)
      (Finset.sum_congr rfl fun j _ => by ring)
  · conv_rhs => rw [add_add_add_comm, ← Finset.sum_add_distrib, ← Finset.sum_add_distrib]
    exact congrArg₂ (· + ·) (Finset.sum_congr rfl fun j _ => by ring)
      (Finset.sum_congr rfl fun j _ => by ring)

/-- C66: the stabilisation is consistent: it vanishes for a state without momentum residual. -/
theorem C66_consistent {Ks Ms Cs : Matrix (Flu m n) (Flu m n) ℝ}
    (hK : supgStiffness sfu sfp ic Xp ubar rho mu dt = some Ks)
    (hM : supgMass sfu sfp ic Xp ubar rho mu dt = some Ms)
    (hC : supgContinuity sfu sfp ic Xp ubar rho mu dt = some Cs)
    {u v ud vd : Fin m → ℝ} {p pd : Fin n → ℝ}
    (h0 : ∀ g, strongResidual sfu sfp Xp ubar rho (ic.points g) u ud p 0 = 0)
    (h1 : ∀ g, strongResidual sfu sfp Xp ubar rho (ic.points g) v vd p 1 = 0) :
    Ks *ᵥ fluV u v p + Ms *ᵥ fluV ud vd pd + Cs *ᵥ fluV u v p = 0 := by
  obtain ⟨tau, -, -, h⟩ := C66_residual hK hM hC u v ud vd p pd
  rw [h]
  refine Finset.sum_eq_zero fun g _ => ?_
  simp only [h0, h1, mul_zero, add_zero]
  rw [show (fluV (fun _ => 0) (fun _ => 0) (fun _ => 0) : Flu m n → ℝ) = 0 from by
    ext r; rcases r with (i | i) | i <;> rfl, smul_zero, smul_zero]

/-- C66: the advection part dissipates: its quadratic form on velocities is
`tau*rho*|(ubar.grad)u|^2`. -/
theorem C66_dissipates {Ks : Matrix (Flu m n) (Flu m n) ℝ} (hrho : 0 ≤ rho)
    (hw : ∀ g, 0 ≤ measure2 sfp ic Xp g)
    (hK : supgStiffness sfu sfp ic Xp ubar rho mu dt = some Ks) (u v : Fin m → ℝ) :
    0 ≤ fluV u v 0 ⬝ᵥ (Ks *ᵥ fluV u v 0) := by
  obtain ⟨tau, ht, rfl⟩ := exists_tau hK
  simp only [smul_smul]
  rw [dot_smul_sum_mulVec]
  refine Finset.sum_nonneg fun g _ => mul_nonneg (mul_nonneg (hw g) (supgTau_pos (ht g)).le) ?_
  rw [fluM_mulVec, fluV_dot, zero_dotProduct, add_zero]
  have z : ∀ f : Fin n → ℝ, ∑ j, f j * (0 : Fin n → ℝ) j = 0 := fun f => by simp
  simp only [sum_zero_mul, z, add_zero, zero_add]
  set U := ubarᵀ *ᵥ sfu.N (ic.points g)
  set dM := gradMix sfu sfp Xp (ic.points g)
  have key : ∀ w : Fin m → ℝ, w ⬝ᵥ (fun i => ∑ j, rho * (U 0 * U 0 * dM 0 i * dM 0 j
      + U 1 * U 0 * dM 1 i * dM 0 j + U 0 * U 1 * dM 0 i * dM 1 j + U 1 * U 1 * dM 1 i * dM 1 j) * w j)
      = rho * (∑ i, (U 0 * dM 0 i + U 1 * dM 1 i) * w i) ^ 2 := by
    intro w
    rw [sq, Finset.sum_mul_sum, Finset.mul_sum, dotProduct]
    refine Finset.sum_congr rfl fun i _ => ?_
    rw [Finset.mul_sum, Finset.mul_sum]
    exact Finset.sum_congr rfl fun j _ => by ring
  rw [key, key]
  positivity

/-- C66: so does the pressure part, with `tau*|grad p|^2`. -/
theorem C66_pressure {Cs : Matrix (Flu m n) (Flu m n) ℝ} (hw : ∀ g, 0 ≤ measure2 sfp ic Xp g)
    (hC : supgContinuity sfu sfp ic Xp ubar rho mu dt = some Cs) (p : Fin n → ℝ) :
    0 ≤ fluV 0 0 p ⬝ᵥ (Cs *ᵥ fluV 0 0 p) := by
  obtain ⟨tau, ht, rfl⟩ := exists_tau hC
  simp only [smul_smul]
  rw [dot_smul_sum_mulVec]
  refine Finset.sum_nonneg fun g _ => mul_nonneg (mul_nonneg (hw g) (supgTau_pos (ht g)).le) ?_
  rw [fluM_mulVec, fluV_dot, zero_dotProduct, zero_dotProduct, zero_add, zero_add]
  simp only [sum_zero_mul, zero_add]
  set dN := gradAt sfp Xp (ic.points g)
  have key : p ⬝ᵥ (fun i => ∑ j, (dN 0 i * dN 0 j + dN 1 i * dN 1 j) * p j)
      = (∑ i, dN 0 i * p i) ^ 2 + (∑ i, dN 1 i * p i) ^ 2 := by
    rw [sq, sq, Finset.sum_mul_sum, Finset.sum_mul_sum, ← Finset.sum_add_distrib, dotProduct]
    refine Finset.sum_congr rfl fun i _ => ?_
    rw [Finset.mul_sum, ← Finset.sum_add_distrib]
    exact Finset.sum_congr rfl fun j _ => by ring
  rw [key]
  positivity

end SUPG

/-! ### The decoupled method -/

section Decoupled
variable {K : Type} [Field K] [DecidableEq K] {sf : SF K 2 m} {ic : IC K 2} {X : Matrix (Fin m) (Fin 2) K}

/-- C68: consistent and lumped mass have the same total, density times area for each component. -/
theorem C68_mass (hp : PartitionOfUnity sf) {rho : K} {Me : Matrix (Fin m ⊕ Fin m) (Fin m ⊕ Fin m) K}
    (h : decoupledMass sf ic X rho = some Me) :
    ∑ i, ∑ j, Me (.inl i) (.inl j) = rho * area sf ic X ∧
    ∑ i, ∑ j, Me (.inr i) (.inr j) = rho * area sf ic X ∧
    ∀ i j, Me (.inl i) (.inr j) = 0 ∧ Me (.inr i) (.inl j) = 0 := by
  obtain ⟨-, rfl⟩ := loop2_some.1 h
  have key : ∀ g : Fin ic.N, ∑ i, ∑ j, rho * sf.N (ic.points g) i * sf.N (ic.points g) j = rho := by
    intro g
    simp only [← Finset.mul_sum]
    simp only [hp (ic.points g), mul_one, ← Finset.mul_sum]
  refine ⟨?_, ?_, fun i j => ⟨?_, ?_⟩⟩
  · simp only [Matrix.sum_apply, Matrix.smul_apply, Matrix.fromBlocks_apply₁₁, Matrix.of_apply]
    rw [area_eq, Finset.mul_sum]
    simp only [Finset.sum_comm (s := (Finset.univ : Finset (Fin m))) (t := (Finset.univ : Finset (Fin ic.N)))]
    refine Finset.sum_congr rfl fun g _ => ?_
    simp only [smul_eq_mul]
    conv_rhs => rw [← key g, Finset.sum_mul]
    refine Finset.sum_congr rfl fun i _ => ?_
    rw [Finset.sum_mul]
    exact Finset.sum_congr rfl fun j _ => by ring
  · simp only [Matrix.sum_apply, Matrix.smul_apply, Matrix.fromBlocks_apply₂₂, Matrix.of_apply]
    rw [area_eq, Finset.mul_sum]
    simp only [Finset.sum_comm (s := (Finset.univ : Finset (Fin m))) (t := (Finset.univ : Finset (Fin ic.N)))]
    refine Finset.sum_congr rfl fun g _ => ?_
    simp only [smul_eq_mul]
    conv_rhs => rw [← key g, Finset.sum_mul]
    refine Finset.sum_congr rfl fun i _ => ?_
    rw [Finset.sum_mul]
    exact Finset.sum_congr rfl fun j _ => by ring
  · simp [Matrix.sum_apply]
  · simp [Matrix.sum_apply]

theorem C68_lumped {rho : K} {Me : Matrix (Fin m ⊕ Fin m) (Fin m ⊕ Fin m) K}
    (h : decoupledLumped sf ic X rho = some Me) :
    (∀ i j, i ≠ j → Me i j = 0) ∧ ∑ i, Me (.inl i) (.inl i) = rho * area sf ic X ∧
    ∑ i, Me (.inr i) (.inr i) = rho * area sf ic X := by
  simp only [decoupledLumped, Option.bind_eq_bind, Option.bind_eq_some_iff, Option.pure_def,
    Option.some.injEq] at h
  obtain ⟨c, hc, rfl⟩ := h
  obtain ⟨hm, rfl⟩ := div?_eq_some.1 hc
  refine ⟨fun i j hij => by simp [hij], ?_, ?_⟩ <;>
  · simp only [Matrix.smul_apply, Matrix.one_apply_eq, smul_eq_mul, mul_one, Finset.sum_const,
      Finset.card_univ, Fintype.card_fin, nsmul_eq_mul]
    field_simp

theorem sum_gradAt_row (hc : Complete sf) (g : Fin ic.N) (k : Fin 2) :
    ∑ i, gradAt sf X (ic.points g) k i = 0 := sum_gradAt hc X _ k

/-- C68: a constant pressure is in the kernel of the matrix of the pressure equation. -/
theorem C68_poisson_constant (hc : Complete sf) {Ke : Matrix (Fin m) (Fin m) K}
    (h : pressurePoissonK sf ic X = some Ke) (a : K) : Ke *ᵥ (fun _ => a) = 0 := by
  obtain ⟨-, rfl⟩ := loop2_some.1 h
  rw [smul_sum_mulVec]
  refine Finset.sum_eq_zero fun g _ => ?_
  convert smul_zero _ using 2
  ext i
  simp only [mulVec, dotProduct, Matrix.of_apply, ← Finset.sum_mul, Finset.sum_add_distrib,
    ← Finset.mul_sum, sum_gradAt_row hc, mul_zero, add_zero, zero_mul, Pi.zero_apply]

/-- C68: the load of the pressure equation has the total `-rho/dt` times the integrated divergence, and
no load for a divergence-free velocity. -/
theorem C68_poisson_load (hp : PartitionOfUnity sf) {u v : Fin m → K} {rho dt : K} {Fe : Fin m → K}
    (h : pressurePoissonF sf ic X (nodalM u v) rho dt = some Fe) :
    ∑ i, Fe i = -(rho / dt) * ∑ g, measure2 sf ic X g *
      (∑ i, gradAt sf X (ic.points g) 0 i * u i + ∑ i, gradAt sf X (ic.points g) 1 i * v i) := by
  obtain ⟨-, w, hw, rfl⟩ := loop2_eq_some.1 h
  have e0 : ∀ (dM : Matrix (Fin 2) (Fin m) K), (dM * nodalM u v) 0 0 = ∑ i, dM 0 i * u i := fun dM => by
    rw [Matrix.mul_apply]; exact Finset.sum_congr rfl fun i _ => by simp [nodalM]
  have e1 : ∀ (dM : Matrix (Fin 2) (Fin m) K), (dM * nodalM u v) 1 1 = ∑ i, dM 1 i * v i := fun dM => by
    rw [Matrix.mul_apply]; exact Finset.sum_congr rfl fun i _ => by simp [nodalM]
  simp only [Option.bind_eq_bind, Option.bind_eq_some_iff, Option.pure_def, Option.some.injEq, e0, e1] at hw
  choose c hc hw using hw
  simp only [Finset.sum_apply, Pi.smul_apply, smul_eq_mul]
  rw [Finset.sum_comm, Finset.mul_sum]
  refine Finset.sum_congr rfl fun g _ => ?_
  obtain ⟨-, hcg⟩ := div?_eq_some.1 (hc g)
  rw [← hw g, hcg, ← Finset.mul_sum, ← Finset.sum_mul, ← Finset.mul_sum, hp]
  ring

/-- C68: a uniform velocity has no load in the prediction step. -/
theorem C68_auxiliary_uniform (hc : Complete sf) {a b rho mu : K} {Fe : Fin m ⊕ Fin m → K}
    (h : auxiliaryVelocity sf ic X (nodalM (fun _ => a) fun _ => b) rho mu = some Fe) : Fe = 0 := by
  obtain ⟨-, rfl⟩ := loop2_some.1 h
  refine Finset.sum_eq_zero fun g _ => ?_
  have e : gradAt sf X (ic.points g) * nodalM (fun _ : Fin m => a) (fun _ => b) = 0 := by
    ext k l
    rw [Matrix.mul_apply]
    fin_cases l <;> simp [nodalM, ← Finset.sum_mul, sum_gradAt_row hc]
  simp only [e]
  convert smul_zero _ using 2
  ext i
  rcases i with i | i <;> simp

/-- C68: a constant pressure has no load in the correction step. -/
theorem C68_nextstep_constant (hc : Complete sf) {a : K} {Fe : Fin m ⊕ Fin m → K}
    (h : nextstepVelocity sf ic X (fun _ => a) = some Fe) : Fe = 0 := by
  obtain ⟨-, rfl⟩ := loop2_some.1 h
  refine Finset.sum_eq_zero fun g _ => ?_
  have e : ∀ k, (gradAt sf X (ic.points g) *ᵥ fun _ => a) k = 0 := fun k => by
    simp only [mulVec, dotProduct, ← Finset.sum_mul, sum_gradAt_row hc, zero_mul]
  simp only [e]
  convert smul_zero _ using 2
  ext i
  rcases i with i | i <;> simp

end Decoupled

/-! ### Advection -/

section Advection
variable {K : Type} [Field K] [DecidableEq K] {sf : SF K 2 m} {ic : IC K 2} {X : Matrix (Fin m) (Fin 2) K}

/-- C69: the rows of `Advection` integrate `N_i*(c.grad phi)`. -/
theorem C69_advection_rows {c : Fin 2 → K} {Ke : Matrix (Fin m) (Fin m) K}
    (h : advection sf ic X c = some Ke) (phi : Fin m → K) (i : Fin m) :
    (Ke *ᵥ phi) i = ∑ g, measure2 sf ic X g * (sf.N (ic.points g) i *
      ∑ k, c k * ∑ j, gradAt sf X (ic.points g) k j * phi j) := by
  obtain ⟨-, rfl⟩ := loop2_some.1 h
  rw [smul_sum_mulVec, Finset.sum_apply]
  refine Finset.sum_congr rfl fun g _ => ?_
  rw [Pi.smul_apply, smul_eq_mul]
  congr 1
  simp only [mulVec, vecMulVec_apply, dotProduct, vecMul, mul_assoc, ← Finset.mul_sum]
  congr 1
  simp only [Finset.mul_sum, Finset.sum_mul, mul_assoc]
  exact Finset.sum_comm

/-- C69: a constant is transported without change. -/
theorem C69_advection_constant (hc : Complete sf) {c : Fin 2 → K} {Ke : Matrix (Fin m) (Fin m) K}
    (h : advection sf ic X c = some Ke) (a : K) : Ke *ᵥ (fun _ => a) = 0 := by
  ext i
  rw [C69_advection_rows h]
  simp only [← Finset.sum_mul, sum_gradAt_row hc, zero_mul, mul_zero, Finset.sum_const_zero,
    Pi.zero_apply]

end Advection

section AdvectionSUPG
variable {sf : SF ℝ 2 m} {ic : IC ℝ 2} {X : Matrix (Fin m) (Fin 2) ℝ} {a : Fin 2 → ℝ} {k : ℝ}

theorem advScale_pos {dN : Matrix (Fin 2) (Fin m) ℝ} (hk : 0 ≤ k) {s : ℝ × Option ℝ}
    (h : advScale dN a k = some s) : 0 < s.1 ∧ ∀ alpha, s.2 = some alpha → 0 ≤ alpha := by
  simp only [advScale, Option.bind_eq_bind, Option.bind_eq_some_iff, Option.pure_def,
    Option.some.injEq] at h
  obtain ⟨t, ht, he, hh, rfl⟩ := h
  have h0 : ∀ i, 0 ≤ t i := fun i => by
    have := allSome_eq_some.1 ht i
    obtain ⟨-, e⟩ := div?_eq_some.1 this
    rw [e]
    exact div_nonneg (abs_nonneg _) (Real.sqrt_nonneg _)
  obtain ⟨hs, rfl⟩ := div?_eq_some.1 hh
  have hpos : 0 < ∑ i, t i := lt_of_le_of_ne (Finset.sum_nonneg fun i _ => h0 i) (Ne.symm hs)
  refine ⟨div_pos two_pos hpos, fun alpha hal => ?_⟩
  obtain ⟨-, rfl⟩ := div?_eq_some.1 hal
  exact div_nonneg (mul_nonneg (mul_nonneg (by norm_num) (Real.sqrt_nonneg _))
    (div_pos two_pos hpos).le) hk

theorem advLimit_nonneg {tau : ℝ} (ht : 0 ≤ tau) {o : Option ℝ} (ho : ∀ alpha, o = some alpha → 0 ≤ alpha) :
    0 ≤ advLimit tau o := by
  cases o with
  | none => simpa [advLimit] using ht
  | some alpha =>
    simp only [advLimit]
    split_ifs
    · exact mul_nonneg ht (div_nonneg (ho alpha rfl) (by norm_num))
    · rwa [mul_one]

/-- C69: the stabilisation parameters are not negative. -/
theorem advTau_nonneg {dN : Matrix (Fin 2) (Fin m) ℝ} (hk : 0 ≤ k) {tau : ℝ}
    (h : advTau dN a k = some tau) : 0 ≤ tau := by
  simp only [advTau, Option.bind_eq_bind, Option.bind_eq_some_iff, Option.pure_def,
    Option.some.injEq] at h
  obtain ⟨s, hs, t, ht, rfl⟩ := h
  obtain ⟨h1, h2⟩ := advScale_pos hk hs
  obtain ⟨-, rfl⟩ := div?_eq_some.1 ht
  exact advLimit_nonneg (div_nonneg (mul_nonneg (by norm_num) h1.le) (Real.sqrt_nonneg _)) h2

theorem shockTau_nonneg {dN : Matrix (Fin 2) (Fin m) ℝ} (hk : 0 ≤ k) {tau : ℝ}
    (h : shockTau dN a k = some tau) : 0 ≤ tau := by
  simp only [shockTau, Option.bind_eq_bind, Option.bind_eq_some_iff, Option.pure_def,
    Option.some.injEq] at h
  obtain ⟨s, hs, rfl⟩ := h
  obtain ⟨h1, h2⟩ := advScale_pos hk hs
  exact advLimit_nonneg (mul_nonneg (mul_nonneg (by norm_num) (Real.sqrt_nonneg _)) h1.le) h2

theorem exists_advTau {f : (Fin 2 → ℝ) → Matrix (Fin 2) (Fin m) ℝ → Matrix (Fin m) (Fin m) ℝ}
    {T : Matrix (Fin 2) (Fin m) ℝ → Option ℝ} {Ke : Matrix (Fin m) (Fin m) ℝ}
    (h : (loop2 sf ic X fun r dN => do return (← T dN) • f r dN) = some Ke) :
    ∃ tau : Fin ic.N → ℝ, (∀ g, T (gradAt sf X (ic.points g)) = some (tau g)) ∧
      Ke = ∑ g, measure2 sf ic X g • (tau g • f (ic.points g) (gradAt sf X (ic.points g))) := by
  obtain ⟨-, v, hv, rfl⟩ := loop2_eq_some.1 h
  simp only [Option.bind_eq_bind, Option.bind_eq_some_iff, Option.pure_def, Option.some.injEq] at hv
  choose tau h1 h2 using hv
  exact ⟨tau, h1, Finset.sum_congr rfl fun g _ => by rw [h2]⟩

/-- The derivative along `a` of an interpolated field at a point. -/
def along (sf : SF ℝ 2 m) (X : Matrix (Fin m) (Fin 2) ℝ) (a : Fin 2 → ℝ) (r : Fin 2 → ℝ)
    (phi : Fin m → ℝ) : ℝ :=
  a ⬝ᵥ (gradAt sf X r *ᵥ phi)

theorem vecMul_dot_along (phi : Fin m → ℝ) (r : Fin 2 → ℝ) :
    (a ᵥ* gradAt sf X r) ⬝ᵥ phi = along sf X a r phi := by
  rw [along, Matrix.dotProduct_mulVec]

/-- C69: the SUPG matrices together test `d phi/dt + a.grad phi` with `tau*a.grad w`; they vanish for
transported fields. -/
theorem C69_supg_residual {Ks Ms : Matrix (Fin m) (Fin m) ℝ} (hK : advectionSUPG sf ic X a k = some Ks)
    (hM : massSUPG sf ic X a k = some Ms) (phi phid : Fin m → ℝ) :
    ∃ tau : Fin ic.N → ℝ, Ms *ᵥ phid + Ks *ᵥ phi = ∑ g, (measure2 sf ic X g * tau g) •
      fun i => along sf X a (ic.points g) (Pi.single i 1) *
        (sf.N (ic.points g) ⬝ᵥ phid + along sf X a (ic.points g) phi) := by
  obtain ⟨tau, ht, rfl⟩ := exists_advTau hK
  obtain ⟨t1, ht1, rfl⟩ := exists_advTau hM
  obtain rfl : t1 = tau := funext fun g => Option.some.inj ((ht1 g).symm.trans (ht g))
  refine ⟨t1, ?_⟩
  simp only [smul_smul]
  rw [smul_sum_mulVec, smul_sum_mulVec, ← Finset.sum_add_distrib]
  refine Finset.sum_congr rfl fun g _ => ?_
  rw [← smul_add]
  congr 1
  ext i
  rw [Pi.add_apply, vecMulVec_mulVec, vecMulVec_mulVec, ← vecMul_dot_along, ← vecMul_dot_along,
    dotProduct_single, mul_one, mulVec_transpose]
  simp only [Pi.smul_apply, MulOpposite.smul_eq_mul_unop, MulOpposite.unop_op]
  ring

/-- C69: the SUPG matrix is symmetric and not negative. -/
theorem C69_supg_nonneg (hk : 0 ≤ k) (hw : ∀ g, 0 ≤ measure2 sf ic X g) {Ks : Matrix (Fin m) (Fin m) ℝ}
    (hK : advectionSUPG sf ic X a k = some Ks) :
    Ksᵀ = Ks ∧ ∀ phi, 0 ≤ phi ⬝ᵥ (Ks *ᵥ phi) := by
  obtain ⟨tau, ht, rfl⟩ := exists_advTau hK
  simp only [smul_smul]
  constructor
  · refine isSymm_smul_sum fun g => ?_
    rw [transpose_vecMulVec, mulVec_transpose]
  · intro phi
    rw [dot_smul_sum_mulVec]
    refine Finset.sum_nonneg fun g _ => mul_nonneg (mul_nonneg (hw g) (advTau_nonneg hk (ht g))) ?_
    rw [vecMulVec_mulVec, mulVec_transpose, vecMul_dot_along, dotProduct_smul, dotProduct_comm,
      vecMul_dot_along]
    simp only [MulOpposite.smul_eq_mul_unop, MulOpposite.unop_op]
    exact mul_self_nonneg _

/-- C69: the shock-capturing matrix is symmetric and not negative. -/
theorem C69_shock_nonneg (hk : 0 ≤ k) (hw : ∀ g, 0 ≤ measure2 sf ic X g) {Ks : Matrix (Fin m) (Fin m) ℝ}
    (hK : shockCapturing sf ic X a k = some Ks) :
    Ksᵀ = Ks ∧ ∀ phi, 0 ≤ phi ⬝ᵥ (Ks *ᵥ phi) := by
  obtain ⟨tau, ht, rfl⟩ := exists_advTau hK
  simp only [smul_smul]
  refine ⟨isSymm_smul_sum fun g => transpose_gram _, fun phi => ?_⟩
  rw [dot_smul_sum_mulVec]
  refine Finset.sum_nonneg fun g _ => mul_nonneg (mul_nonneg (hw g) (shockTau_nonneg hk (ht g))) ?_
  rw [← Matrix.mulVec_mulVec, Matrix.dotProduct_mulVec, Matrix.vecMul_transpose]
  exact Finset.sum_nonneg fun i _ => mul_self_nonneg _

theorem along_const (hc : Complete sf) (g : Fin ic.N) (b : ℝ) :
    along sf X a (ic.points g) (fun _ => b) = 0 := by
  rw [along]
  have : (gradAt sf X (ic.points g) *ᵥ fun _ => b) = 0 := by
    ext k
    simp only [mulVec, dotProduct, ← Finset.sum_mul, sum_gradAt hc X, zero_mul, Pi.zero_apply]
  rw [this, dotProduct_zero]

/-- C69: stabilisation keeps constants and, with the constant test function, all totals. -/
theorem C69_supg_constant (hc : Complete sf) {Ks Ms : Matrix (Fin m) (Fin m) ℝ}
    (hK : advectionSUPG sf ic X a k = some Ks) (hM : massSUPG sf ic X a k = some Ms) (b : ℝ) :
    Ks *ᵥ (fun _ => b) = 0 ∧ (fun _ => b) ᵥ* Ks = 0 ∧ (fun _ => b) ᵥ* Ms = 0 := by
  obtain ⟨tau, ht, rfl⟩ := exists_advTau hK
  obtain ⟨t1, ht1, rfl⟩ := exists_advTau hM
  have e : ∀ g : Fin ic.N, (fun _ : Fin m => b) ⬝ᵥ ((gradAt sf X (ic.points g))ᵀ *ᵥ a) = 0 := fun g => by
    rw [mulVec_transpose, dotProduct_comm, vecMul_dot_along, along_const hc]
  refine ⟨?_, ?_, ?_⟩
  · simp only [smul_smul]
    rw [smul_sum_mulVec]
    refine Finset.sum_eq_zero fun g _ => ?_
    rw [vecMulVec_mulVec, vecMul_dot_along, along_const hc]
    simp
  · rw [Matrix.vecMul_sum]
    refine Finset.sum_eq_zero fun g _ => ?_
    rw [smul_smul, Matrix.vecMul_smul, vecMul_vecMulVec, e]
    simp
  · rw [Matrix.vecMul_sum]
    refine Finset.sum_eq_zero fun g _ => ?_
    rw [smul_smul, Matrix.vecMul_smul, vecMul_vecMulVec, e]
    simp

end AdvectionSUPG

/-! ### Cases -/

/-- The parameter is defined for non-zero step, density and element length. -/
theorem supgTau_defined {U : Fin 2 → ℝ} {dM : Matrix (Fin 2) (Fin m) ℝ} {A rho mu dt he : ℝ}
    (h : supgLength U dM A = some he) (h0 : he ≠ 0) (hr : rho ≠ 0) (hd : dt ≠ 0) :
    ∃ tau, supgTau U dM A rho mu dt = some tau := by
  have h1 : div? 2 dt = some (2 / dt) := div?_eq_some.2 ⟨hd, rfl⟩
  have h2 : div? (2 * √(U ⬝ᵥ U)) he = some (2 * √(U ⬝ᵥ U) / he) := div?_eq_some.2 ⟨h0, rfl⟩
  have h3 : div? (4 * mu) (rho * he ^ 2) = some (4 * mu / (rho * he ^ 2)) :=
    div?_eq_some.2 ⟨mul_ne_zero hr (pow_ne_zero 2 h0), rfl⟩
  refine ⟨1 / √((2 / dt) ^ 2 + (2 * √(U ⬝ᵥ U) / he) ^ 2 + (4 * mu / (rho * he ^ 2)) ^ 2), ?_⟩
  unfold supgTau
  simp only [Option.bind_eq_bind, h, h1, h2, h3, Option.bind_some]
  refine div?_eq_some.2 ⟨?_, rfl⟩
  have : 0 < (2 / dt) ^ 2 := by positivity
  exact (Real.sqrt_pos.2 (by positivity)).ne'

/-- A uniform advection velocity along the first axis. -/
def exUbar : Matrix (Fin 3) (Fin 2) ℝ := Matrix.of fun _ => ![1, 0]

theorem exUbar_velocity (r : Fin 2 → ℝ) : exUbarᵀ *ᵥ (SF.triangle3 : SF ℝ 2 3).N r = ![1, 0] := by
  have h := C27_sum_N (K := ℝ) .triangle3 r
  change ∑ i, (SF.triangle3 : SF ℝ 2 3).N r i = 1 at h
  ext k
  fin_cases k <;> simp [mulVec, dotProduct, exUbar, h]

theorem exSupg_defined (g : Fin exRuleR.N) : ∃ tau, supgTau
    (exUbarᵀ *ᵥ (SF.triangle3 : SF ℝ 2 3).N (exRuleR.points g))
    (gradMix (SF.triangle3 : SF ℝ 2 3) SF.triangle3 exTriR (exRuleR.points g))
    (area (SF.triangle3 : SF ℝ 2 3) exRuleR exTriR) 2 3 1 = some tau := by
  refine supgTau_defined (he := 2) ?_ (by norm_num) (by norm_num) (by norm_num)
  rw [exUbar_velocity, show gradMix (SF.triangle3 : SF ℝ 2 3) SF.triangle3 exTriR (exRuleR.points g) = _ from
    exTriR_grad _]
  have h1 : (![1, 0] : Fin 2 → ℝ) ⬝ᵥ ![1, 0] = 1 := by simp
  rw [supgLength, h1, Real.sqrt_one, if_pos (by norm_num)]
  refine div?_eq_some.2 ⟨?_, ?_⟩ <;>
    simp [Fin.sum_univ_succ, mulVec, dotProduct, abs_of_pos] <;> norm_num

/-- The three matrices of C66 are defined on a triangle in a uniform stream. -/
example : ∃ Ks Ms Cs, supgStiffness (SF.triangle3 : SF ℝ 2 3) (SF.triangle3 : SF ℝ 2 3) exRuleR exTriR
      exUbar 2 3 1 = some Ks ∧
    supgMass (SF.triangle3 : SF ℝ 2 3) (SF.triangle3 : SF ℝ 2 3) exRuleR exTriR exUbar 2 3 1 = some Ms ∧
    supgContinuity (SF.triangle3 : SF ℝ 2 3) (SF.triangle3 : SF ℝ 2 3) exRuleR exTriR exUbar 2 3 1
      = some Cs := by
  choose tau ht using exSupg_defined
  simp only [exists_and_left, exists_and_right]
  refine ⟨loopF_defined exTriR_regular fun g => ?_, loopF_defined exTriR_regular fun g => ?_,
    loopF_defined exTriR_regular fun g => ?_⟩ <;>
  · simp only [Option.bind_eq_bind, Option.pure_def, ht, Option.bind_some]
    exact ⟨_, rfl⟩

/-- The matrices of C69 are defined, for the flow `(1, 0)` and unit diffusion. -/
example : ∃ Ks Ms Ss, advectionSUPG (SF.triangle3 : SF ℝ 2 3) exRuleR exTriR ![1, 0] 1 = some Ks ∧
    massSUPG (SF.triangle3 : SF ℝ 2 3) exRuleR exTriR ![1, 0] 1 = some Ms ∧
    shockCapturing (SF.triangle3 : SF ℝ 2 3) exRuleR exTriR ![1, 0] 1 = some Ss := by
  have hn : √((![1, 0] : Fin 2 → ℝ) ⬝ᵥ ![1, 0]) = 1 := by simp
  have hs : ∀ r, ∃ s, advScale (gradAt (SF.triangle3 : SF ℝ 2 3) exTriR r) ![1, 0] 1 = some s := fun r => by
    rw [exTriR_grad, advScale, hn]
    simp only [Option.bind_eq_bind, Option.pure_def, Option.bind_eq_some_iff]
    refine ⟨_, _, allSome_eq_some.2 fun i => div?_eq_some.2 ⟨one_ne_zero, rfl⟩, _,
      div?_eq_some.2 ⟨?_, rfl⟩, rfl⟩
    simp [Fin.sum_univ_succ, mulVec, dotProduct]
  choose s hs using hs
  have ht : ∀ r, ∃ t, advTau (gradAt (SF.triangle3 : SF ℝ 2 3) exTriR r) ![1, 0] 1 = some t := fun r => by
    rw [advTau, hs, hn]
    simp only [Option.bind_eq_bind, Option.pure_def, Option.bind_eq_some_iff]
    exact ⟨_, _, rfl, _, div?_eq_some.2 ⟨one_ne_zero, rfl⟩, rfl⟩
  have hc : ∀ r, ∃ t, shockTau (gradAt (SF.triangle3 : SF ℝ 2 3) exTriR r) ![1, 0] 1 = some t := fun r => by
    rw [shockTau, hs]
    exact ⟨_, rfl⟩
  choose t ht using ht
  choose c hc using hc
  simp only [exists_and_left, exists_and_right]
  refine ⟨loop2_defined exTriR_regular fun g => ?_, loop2_defined exTriR_regular fun g => ?_,
    loop2_defined exTriR_regular fun g => ?_⟩ <;>
  · simp only [Option.bind_eq_bind, Option.pure_def, ht, hc, Option.bind_some]
    exact ⟨_, rfl⟩

/-- C68 on the triangle of area one. -/
example : ∃ Me, decoupledMass (SF.triangle3 : SF ℚ 2 3) exRule exTri 5 = some Me ∧
    ∑ i, ∑ j, Me (.inl i) (.inl j) = 5 := by
  obtain ⟨Me, h⟩ : ∃ Me, decoupledMass (SF.triangle3 : SF ℚ 2 3) exRule exTri 5 = some Me := by
    unfold decoupledMass
    exact ⟨_, loop2_some.2 ⟨exTri_regular, rfl⟩⟩
  exact ⟨Me, h, by rw [(C68_mass partition_triangle3 h).1, exTri_area, mul_one]⟩

end Pansfem
