/-
C34: element energies are non-negative, and vanish only for displacements without strain.
-/
import Verif.Props.C33_RigidMotions

namespace Pansfem

open Matrix

variable {K : Type} [Field K] [LinearOrder K] [IsStrictOrderedRing K] {n : ℕ}

/-- `A` is positive semidefinite as a quadratic form. -/
def NonnegForm {ι : Type} [Fintype ι] (A : Matrix ι ι K) : Prop := ∀ u : ι → K, 0 ≤ u ⬝ᵥ (A *ᵥ u)

theorem nonnegForm_add {ι : Type} [Fintype ι] {A B : Matrix ι ι K} (hA : NonnegForm A)
    (hB : NonnegForm B) : NonnegForm (A + B) := fun u => by
  rw [Matrix.add_mulVec, dotProduct_add]
  exact add_nonneg (hA u) (hB u)

theorem nonnegForm_sum_congr {ι κ : Type} [Fintype ι] [Fintype κ] [DecidableEq ι] [DecidableEq κ]
    {N : ℕ} {c : Fin N → K} (hc : ∀ g, 0 ≤ c g) {B : Fin N → Matrix κ ι K} {D : Matrix κ κ K}
    (hD : NonnegForm D) : NonnegForm (∑ g, c g • ((B g)ᵀ * D * B g)) := fun u => by
  rw [dot_sum_congr_transform]
  exact Finset.sum_nonneg fun g _ => mul_nonneg (hc g) (hD _)

theorem nonnegForm_sum_gram {ι κ : Type} [Fintype ι] [Fintype κ] [DecidableEq ι] [DecidableEq κ]
    {N : ℕ} {c : Fin N → K} (hc : ∀ g, 0 ≤ c g) (B : Fin N → Matrix κ ι K) :
    NonnegForm (∑ g, c g • ((B g)ᵀ * B g)) := by
  have h : NonnegForm (1 : Matrix κ κ K) := fun v => by
    rw [Matrix.one_mulVec]
    exact Finset.sum_nonneg fun i _ => mul_self_nonneg _
  have := nonnegForm_sum_congr (B := B) hc h
  simpa only [Matrix.mul_one] using this

/-! ### Constitutive matrices -/

theorem form_planeStrainD0 (V : K) (e : Fin 3 → K) :
    e ⬝ᵥ (planeStrainD0 V *ᵥ e) = 1 / 2 * (e 0 + e 1) ^ 2 +
      1 / 2 * (1 - 2 * V) * ((e 0 - e 1) ^ 2 + e 2 ^ 2) := by
  simp [planeStrainD0, Matrix.mulVec, dotProduct, Fin.sum_univ_succ]
  ring

theorem form_planeStressD0 (V : K) (e : Fin 3 → K) :
    e ⬝ᵥ (planeStressD0 V *ᵥ e) = 1 / 2 * (1 + V) * (e 0 + e 1) ^ 2 +
      1 / 2 * (1 - V) * ((e 0 - e 1) ^ 2 + e 2 ^ 2) := by
  simp [planeStressD0, Matrix.mulVec, dotProduct, Fin.sum_univ_succ]
  ring

theorem form_solidC0 (V : K) (e : Fin 6 → K) :
    e ⬝ᵥ (solidC0 V *ᵥ e) = 1 / 3 * (1 + V) * (e 0 + e 1 + e 2) ^ 2 +
      1 / 3 * (1 - 2 * V) * ((e 0 - e 1) ^ 2 + (e 1 - e 2) ^ 2 + (e 2 - e 0) ^ 2) +
      1 / 2 * (1 - 2 * V) * (e 3 ^ 2 + e 4 ^ 2 + e 5 ^ 2) := by
  simp [solidC0, Matrix.mulVec, dotProduct, Fin.sum_univ_succ]
  ring

theorem nonnegForm_planeStrainD {E V : K} (hE : 0 ≤ E) (h1 : -1 < V) (h2 : 2 * V < 1)
    {D : Matrix (Fin 3) (Fin 3) K} (h : planeStrainD E V = some D) : NonnegForm D := by
  rw [(planeStrainD_eq_some.1 h).2]
  intro e
  have a1 : 0 < 1 - 2 * V := by linarith
  have a2 : 0 < 1 + V := by linarith
  rw [Matrix.smul_mulVec, dotProduct_smul, form_planeStrainD0, smul_eq_mul]
  positivity

theorem nonnegForm_planeStressD {E V : K} (hE : 0 ≤ E) (h1 : -1 < V) (h2 : V < 1)
    {D : Matrix (Fin 3) (Fin 3) K} (h : planeStressD E V = some D) : NonnegForm D := by
  rw [(planeStressD_eq_some.1 h).2]
  intro e
  have a1 : 0 < 1 - V := by linarith
  have a2 : 0 < 1 + V := by linarith
  rw [Matrix.smul_mulVec, dotProduct_smul, form_planeStressD0, smul_eq_mul]
  positivity

theorem nonnegForm_planeStrainDvol {E V : K} (hE : 0 ≤ E) (h2 : 2 * V < 1)
    {D : Matrix (Fin 3) (Fin 3) K} (h : planeStrainDvol E V = some D) : NonnegForm D := by
  rw [(planeStrainDvol_eq_some.1 h).2]
  intro e
  have a1 : 0 < 1 - 2 * V := by linarith
  have : e ⬝ᵥ (Matrix.of ![![1, 1, 0], ![1, 1, 0], ![0, 0, (0 : K)]] *ᵥ e) = (e 0 + e 1) ^ 2 := by
    simp [Matrix.mulVec, dotProduct, Fin.sum_univ_succ]
    ring
  rw [Matrix.smul_mulVec, dotProduct_smul, this, smul_eq_mul]
  positivity

theorem nonnegForm_planeStrainDdev {E V : K} (hE : 0 ≤ E) (h1 : -1 < V)
    {D : Matrix (Fin 3) (Fin 3) K} (h : planeStrainDdev E V = some D) : NonnegForm D := by
  rw [(planeStrainDdev_eq_some.1 h).2]
  intro e
  have a2 : 0 < 1 + V := by linarith
  have : e ⬝ᵥ (Matrix.of ![![4, -2, 0], ![-2, 4, 0], ![0, 0, (3 : K)]] *ᵥ e) =
      (e 0 + e 1) ^ 2 + 3 * (e 0 - e 1) ^ 2 + 3 * e 2 ^ 2 := by
    simp [Matrix.mulVec, dotProduct, Fin.sum_univ_succ]
    ring
  rw [Matrix.smul_mulVec, dotProduct_smul, this, smul_eq_mul]
  positivity

theorem nonnegForm_solidC {E V : K} (hE : 0 ≤ E) (h1 : -1 < V) (h2 : 2 * V < 1)
    {D : Matrix (Fin 6) (Fin 6) K} (h : solidC E V = some D) : NonnegForm D := by
  rw [(solidC_eq_some.1 h).2]
  intro e
  have a1 : 0 < 1 - 2 * V := by linarith
  have a2 : 0 < 1 + V := by linarith
  rw [Matrix.smul_mulVec, dotProduct_smul, form_solidC0, smul_eq_mul]
  positivity

/-! ### Energies -/

section
variable {sf : SF K 2 n} {ic icV icD : IC K 2} {X : Matrix (Fin n) (Fin 2) K} {E V t : K}

/-- **C34** for `PlaneStiffness` with a positive semidefinite constitutive matrix, at points where
weight times Jacobian is non-negative. -/
theorem C34_planeStiffness (hm : ∀ g, 0 ≤ measure2 sf ic X g) (ht : 0 ≤ t)
    {D : Matrix (Fin 3) (Fin 3) K} (hD : NonnegForm D)
    {Ke : Matrix (Fin n × Fin 2) (Fin n × Fin 2) K} (h : planeStiffness sf ic X D t = some Ke)
    (u : Fin n × Fin 2 → K) : 0 ≤ u ⬝ᵥ (Ke *ᵥ u) := by
  obtain ⟨hr, rfl⟩ := (planeStiffness_eq_some sf ic X).1 h
  exact nonnegForm_sum_congr (fun g => mul_nonneg (hm g) ht) hD u

/-- **C34** for `PlaneStrainStiffness`. -/
theorem C34_planeStrain (hm : ∀ g, 0 ≤ measure2 sf ic X g) (ht : 0 ≤ t) (hE : 0 ≤ E)
    (h1 : -1 < V) (h2 : 2 * V < 1) {Ke : Matrix (Fin n × Fin 2) (Fin n × Fin 2) K}
    (h : planeStrainStiffness sf ic X E V t = some Ke) (u : Fin n × Fin 2 → K) :
    0 ≤ u ⬝ᵥ (Ke *ᵥ u) := by
  obtain ⟨D, hD, h⟩ := planeStrainStiffness_eq_some.1 h
  exact C34_planeStiffness hm ht (nonnegForm_planeStrainD hE h1 h2 hD) h u

/-- **C34** for `PlaneStressStiffness`. -/
theorem C34_planeStress (hm : ∀ g, 0 ≤ measure2 sf ic X g) (ht : 0 ≤ t) (hE : 0 ≤ E)
    (h1 : -1 < V) (h2 : V < 1) {Ke : Matrix (Fin n × Fin 2) (Fin n × Fin 2) K}
    (h : planeStressStiffness sf ic X E V t = some Ke) (u : Fin n × Fin 2 → K) :
    0 ≤ u ⬝ᵥ (Ke *ᵥ u) := by
  obtain ⟨D, hD, h⟩ := planeStressStiffness_eq_some.1 h
  exact C34_planeStiffness hm ht (nonnegForm_planeStressD hE h1 h2 hD) h u

/-- **C34** for `PlaneStrainStiffnessSRI`. -/
theorem C34_SRI (hv : ∀ g, 0 ≤ measure2 sf icV X g) (hd : ∀ g, 0 ≤ measure2 sf icD X g)
    (ht : 0 ≤ t) (hE : 0 ≤ E) (h1 : -1 < V) (h2 : 2 * V < 1)
    {Ke : Matrix (Fin n × Fin 2) (Fin n × Fin 2) K}
    (h : planeStrainStiffnessSRI sf icV icD X E V t = some Ke) (u : Fin n × Fin 2 → K) :
    0 ≤ u ⬝ᵥ (Ke *ᵥ u) := by
  obtain ⟨Dv, Dd, e1, e2, -, -, rfl⟩ := (planeStrainStiffnessSRI_eq_some sf icV icD X).1 h
  exact nonnegForm_add
    (nonnegForm_sum_congr (fun g => mul_nonneg (hv g) ht) (nonnegForm_planeStrainDvol hE h2 e1))
    (nonnegForm_sum_congr (fun g => mul_nonneg (hd g) ht) (nonnegForm_planeStrainDdev hE h1 e2)) u

/-- **C34** for `PlaneStiffnessBbar`. -/
theorem C34_planeStiffnessBbar (hv : ∀ g, 0 ≤ measure2 sf icV X g)
    (hd : ∀ g, 0 ≤ measure2 sf icD X g) (ht : 0 ≤ t) {D : Matrix (Fin 3) (Fin 3) K}
    (hD : NonnegForm D) {Ke : Matrix (Fin n × Fin 2) (Fin n × Fin 2) K}
    (h : planeStiffnessBbar sf icV icD X D t = some Ke) (u : Fin n × Fin 2 → K) :
    0 ≤ u ⬝ᵥ (Ke *ᵥ u) := by
  obtain ⟨-, -, rfl⟩ := (planeStiffnessBbar_eq_some sf icV icD X).1 h
  exact nonnegForm_add (nonnegForm_sum_congr (fun g => mul_nonneg (hv g) ht) hD)
    (nonnegForm_sum_congr (fun g => mul_nonneg (hd g) ht) hD) u

/-- **C34** for `PlaneStrainStiffnessBbar`. -/
theorem C34_Bbar (hv : ∀ g, 0 ≤ measure2 sf icV X g) (hd : ∀ g, 0 ≤ measure2 sf icD X g)
    (ht : 0 ≤ t) (hE : 0 ≤ E) (h1 : -1 < V) (h2 : 2 * V < 1)
    {Ke : Matrix (Fin n × Fin 2) (Fin n × Fin 2) K}
    (h : planeStrainStiffnessBbar sf icV icD X E V t = some Ke) (u : Fin n × Fin 2 → K) :
    0 ≤ u ⬝ᵥ (Ke *ᵥ u) := by
  obtain ⟨D, hD, h⟩ := planeStrainStiffnessBbar_eq_some.1 h
  exact C34_planeStiffnessBbar hv hd ht (nonnegForm_planeStrainD hE h1 h2 hD) h u

/-- **C34** for `PlaneStiffnessWilsonTaylor`: eliminating the incompatible modes keeps the energy
non-negative. -/
theorem C34_planeStiffnessWilsonTaylor (hm : ∀ g, 0 ≤ measure2 sf ic X g) (ht : 0 ≤ t)
    {D : Matrix (Fin 3) (Fin 3) K} (hs : Dᵀ = D) (hD : NonnegForm D)
    {Ke : Matrix (Fin n × Fin 2) (Fin n × Fin 2) K}
    (h : planeStiffnessWilsonTaylor sf ic X D t = some Ke)
    (u : Fin n × Fin 2 → K) : 0 ≤ u ⬝ᵥ (Ke *ᵥ u) := by
  obtain ⟨hr, Kaa, Kad, Kdd, h0, hdd, haa, had, rfl⟩ := planeStiffnessWilsonTaylor_eq_some.1 h
  set B := fun g => planeB (gradAt sf X (ic.points g)) with hB
  set G := fun g => planeG (ic.points g) (sf.dNdr (ic.points g) * X)⁻¹ with hG
  set c := fun g => measure2 sf ic X g * t with hcdef
  have hc : ∀ g, 0 ≤ c g := fun g => mul_nonneg (hm g) ht
  set a : Fin 4 → K := -(Kaa⁻¹ *ᵥ (Kad *ᵥ u)) with ha
  have e1 : Kaa *ᵥ a = -(Kad *ᵥ u) := by
    rw [ha, Matrix.mulVec_neg, Matrix.mulVec_mulVec, Matrix.mul_nonsing_inv _ (Ne.isUnit h0),
      Matrix.one_mulVec]
  have cross : a ⬝ᵥ (Kad *ᵥ u) = ∑ g, c g * ((G g *ᵥ a) ⬝ᵥ (D *ᵥ (B g *ᵥ u))) := by
    rw [had, mulVec_sum, dotProduct_sum]
    refine Finset.sum_congr rfl fun g _ => ?_
    rw [Matrix.smul_mulVec, dotProduct_smul, smul_eq_mul, ← Matrix.mulVec_mulVec,
      ← Matrix.mulVec_mulVec, Matrix.dotProduct_mulVec, Matrix.vecMul_transpose]
  have hsum : u ⬝ᵥ (Kdd *ᵥ u) + 2 * (a ⬝ᵥ (Kad *ᵥ u)) + a ⬝ᵥ (Kaa *ᵥ a) =
      ∑ g, c g * ((B g *ᵥ u + G g *ᵥ a) ⬝ᵥ (D *ᵥ (B g *ᵥ u + G g *ᵥ a))) := by
    rw [cross, hdd, haa, dot_sum_congr_transform, dot_sum_congr_transform, Finset.mul_sum,
      ← Finset.sum_add_distrib, ← Finset.sum_add_distrib]
    refine Finset.sum_congr rfl fun g _ => ?_
    have hsw : (B g *ᵥ u) ⬝ᵥ (D *ᵥ (G g *ᵥ a)) = (G g *ᵥ a) ⬝ᵥ (D *ᵥ (B g *ᵥ u)) := by
      rw [Matrix.dotProduct_mulVec, ← Matrix.mulVec_transpose, hs, dotProduct_comm]
    rw [Matrix.mulVec_add, add_dotProduct, dotProduct_add, dotProduct_add, hsw]
    ring
  have hfin : u ⬝ᵥ ((Kdd - Kadᵀ * Kaa⁻¹ * Kad) *ᵥ u) =
      u ⬝ᵥ (Kdd *ᵥ u) + 2 * (a ⬝ᵥ (Kad *ᵥ u)) + a ⬝ᵥ (Kaa *ᵥ a) := by
    rw [e1, dotProduct_neg, Matrix.sub_mulVec, dotProduct_sub, ← Matrix.mulVec_mulVec,
      ← Matrix.mulVec_mulVec, Matrix.dotProduct_mulVec u Kadᵀ, Matrix.vecMul_transpose, ha,
      neg_dotProduct, dotProduct_comm (Kad *ᵥ u)]
    ring
  rw [hfin, hsum]
  exact Finset.sum_nonneg fun g _ => mul_nonneg (hc g) (hD _)

/-- **C34** for `PlaneStrainStiffnessWilsonTaylor`. -/
theorem C34_WilsonTaylor (hm : ∀ g, 0 ≤ measure2 sf ic X g) (ht : 0 ≤ t) (hE : 0 ≤ E)
    (h1 : -1 < V) (h2 : 2 * V < 1) {Ke : Matrix (Fin n × Fin 2) (Fin n × Fin 2) K}
    (h : planeStrainStiffnessWilsonTaylor sf ic X E V t = some Ke) (u : Fin n × Fin 2 → K) :
    0 ≤ u ⬝ᵥ (Ke *ᵥ u) := by
  obtain ⟨D, hD, h⟩ := planeStrainStiffnessWilsonTaylor_eq_some.1 h
  exact C34_planeStiffnessWilsonTaylor hm ht (isSymm_planeStrainD hD)
    (nonnegForm_planeStrainD hE h1 h2 hD) h u

/-- **C34** for `SolidLinearIsotropicElastic`. -/
theorem C34_solid {sf : SF K 3 n} {ic : IC K 3} {X : Matrix (Fin n) (Fin 3) K}
    (hm : ∀ g, 0 ≤ measure3 sf ic X g) (hE : 0 ≤ E) (h1 : -1 < V) (h2 : 2 * V < 1)
    {Ke : Matrix (Fin n × Fin 3) (Fin n × Fin 3) K} (h : solidStiffness sf ic X E V = some Ke)
    (u : Fin n × Fin 3 → K) : 0 ≤ u ⬝ᵥ (Ke *ᵥ u) := by
  obtain ⟨C, hC, -, rfl⟩ := solidStiffness_eq_some.1 h
  exact nonnegForm_sum_congr hm (nonnegForm_solidC hE h1 h2 hC) u

/-- **C34** for `HeatTransfer`. -/
theorem C34_heatTransfer (hm : ∀ g, 0 ≤ measure2 sf ic X g) (ht : 0 ≤ t) {alpha : K}
    (ha : 0 ≤ alpha) {Ke : Matrix (Fin n) (Fin n) K} (h : heatTransfer sf ic X alpha t = some Ke)
    (u : Fin n → K) : 0 ≤ u ⬝ᵥ (Ke *ᵥ u) := by
  rw [(heatTransfer_eq_some.1 h).2]
  exact nonnegForm_sum_gram (fun g => mul_nonneg (hm g) (mul_nonneg ha ht)) _ u

/-- **C34** for `ReactionDiffusionStiffness` and `Diffusion`. -/
theorem C34_diffusion (hm : ∀ g, 0 ≤ measure2 sf ic X g) {D : K} (hD : 0 ≤ D)
    {Ke : Matrix (Fin n) (Fin n) K} (h : rdStiffness sf ic X D = some Ke)
    (u : Fin n → K) : 0 ≤ u ⬝ᵥ (Ke *ᵥ u) := by
  rw [(rdStiffness_eq_some.1 h).2]
  exact nonnegForm_sum_gram (fun g => mul_nonneg (hm g) hD) _ u

/-- **C34** for `PlaneStrainMass` and `PlaneStressMass`. -/
theorem C34_planeMass (hm : ∀ g, 0 ≤ measure2 sf ic X g) {rho : K} (hr : 0 ≤ rho) (ht : 0 ≤ t)
    {Me : Matrix (Fin n × Fin 2) (Fin n × Fin 2) K} (h : planeMass sf ic X rho t = some Me)
    (u : Fin n × Fin 2 → K) : 0 ≤ u ⬝ᵥ (Me *ᵥ u) := by
  rw [planeMass_eq_some.1 h]
  exact nonnegForm_sum_gram (fun g => mul_nonneg (hm g) (mul_nonneg hr ht)) _ u

theorem nonnegForm_sum_vecMulVec {N : ℕ} {c : Fin N → K} (hc : ∀ g, 0 ≤ c g)
    (v : Fin N → Fin n → K) : NonnegForm (∑ g, c g • vecMulVec (v g) (v g)) := fun u => by
  rw [mulVec_sum, dotProduct_sum]
  refine Finset.sum_nonneg fun g _ => ?_
  rw [Matrix.smul_mulVec, dotProduct_smul, smul_eq_mul]
  refine mul_nonneg (hc g) ?_
  have : u ⬝ᵥ (vecMulVec (v g) (v g) *ᵥ u) = (v g ⬝ᵥ u) * (v g ⬝ᵥ u) := by
    rw [Matrix.vecMulVec_mulVec, dotProduct_smul]
    simp [dotProduct_comm u]
  rw [this]
  exact mul_self_nonneg _

/-- **C34** for `HeatCapacity`. -/
theorem C34_heatCapacity (hm : ∀ g, 0 ≤ measure2 sf ic X g) {rho c : K} (hr : 0 ≤ rho * c)
    (ht : 0 ≤ t) {Me : Matrix (Fin n) (Fin n) K} (h : heatCapacity sf ic X rho c t = some Me)
    (u : Fin n → K) : 0 ≤ u ⬝ᵥ (Me *ᵥ u) := by
  rw [heatCapacity_eq_some.1 h]
  exact nonnegForm_sum_vecMulVec (fun g => mul_nonneg (hm g) (mul_nonneg hr ht)) _ u

/-- **C34** for `ReactionDiffusionConsistentMass`. -/
theorem C34_rdConsistentMass (hm : ∀ g, 0 ≤ measure2 sf ic X g) {Me : Matrix (Fin n) (Fin n) K}
    (h : rdConsistentMass sf ic X = some Me) (u : Fin n → K) : 0 ≤ u ⬝ᵥ (Me *ᵥ u) := by
  rw [rdConsistentMass, loop2_some] at h
  rw [h.2]
  exact nonnegForm_sum_vecMulVec hm _ u

/-! ### Zero energy -/

/-- The energy of `PlaneStrainStiffness` is zero only if the strain vanishes at every integration
point. -/
theorem C34_zero_energy (hm : ∀ g, 0 < measure2 sf ic X g) (ht : 0 < t) (hE : 0 < E)
    (h1 : -1 < V) (h2 : 2 * V < 1) {Ke : Matrix (Fin n × Fin 2) (Fin n × Fin 2) K}
    (h : planeStrainStiffness sf ic X E V t = some Ke) {u : Fin n × Fin 2 → K}
    (hu : u ⬝ᵥ (Ke *ᵥ u) = 0) (g : Fin ic.N) : strain2 (gradAt sf X (ic.points g)) u = 0 := by
  obtain ⟨D, hD, h⟩ := planeStrainStiffness_eq_some.1 h
  obtain ⟨-, rfl⟩ := (planeStiffness_eq_some sf ic X).1 h
  have hpsd := nonnegForm_planeStrainD hE.le h1 h2 hD
  rw [dot_sum_congr_transform, Finset.sum_eq_zero_iff_of_nonneg
    fun g _ => mul_nonneg (mul_nonneg (hm g).le ht.le) (hpsd _)] at hu
  have h0 := (mul_eq_zero.1 (hu g (Finset.mem_univ g))).resolve_left (mul_pos (hm g) ht).ne'
  rw [(planeStrainD_eq_some.1 hD).2, Matrix.smul_mulVec, dotProduct_smul, form_planeStrainD0,
    smul_eq_mul, planeB_mulVec] at h0
  have a1 : 0 < 1 - 2 * V := by linarith
  have a2 : 0 < 1 + V := by linarith
  have h0 := (mul_eq_zero.1 h0).resolve_left (by positivity)
  set e := strain2 (gradAt sf X (ic.points g)) u
  have b1 : 0 ≤ 1 / 2 * (e 0 + e 1) ^ 2 := by positivity
  have b2 : 0 ≤ 1 / 2 * (1 - 2 * V) * ((e 0 - e 1) ^ 2 + e 2 ^ 2) := by positivity
  have c1 : (e 0 + e 1) ^ 2 = 0 := by linarith
  have c2 : (e 0 - e 1) ^ 2 + e 2 ^ 2 = 0 := by
    have : 1 / 2 * (1 - 2 * V) * ((e 0 - e 1) ^ 2 + e 2 ^ 2) = 0 := by linarith
    exact (mul_eq_zero.1 this).resolve_left (by positivity)
  have d1 : e 0 + e 1 = 0 := by simpa using c1
  have d2 : e 0 - e 1 = 0 := by
    have : (e 0 - e 1) ^ 2 = 0 := by nlinarith [sq_nonneg (e 0 - e 1), sq_nonneg (e 2)]
    simpa using this
  have d3 : e 2 = 0 := by
    have : e 2 ^ 2 = 0 := by nlinarith [sq_nonneg (e 0 - e 1), sq_nonneg (e 2)]
    simpa using this
  ext q
  fin_cases q
  · show e 0 = 0; linarith
  · show e 1 = 0; linarith
  · exact d3

end

/-- The triangle has no other zero-energy modes: its stiffness kills exactly the rigid motions. -/
theorem C34_triangle_kernel {ic : IC K 2} (hN : 0 < ic.N) {X : Matrix (Fin 3) (Fin 2) K}
    {E V t : K} (hm : ∀ g, 0 < measure2 SF.triangle3 ic X g) (ht : 0 < t) (hE : 0 < E)
    (h1 : -1 < V) (h2 : 2 * V < 1) {Ke : Matrix (Fin 3 × Fin 2) (Fin 3 × Fin 2) K}
    (h : planeStrainStiffness SF.triangle3 ic X E V t = some Ke) (u : Fin 3 × Fin 2 → K) :
    Ke *ᵥ u = 0 ↔ ∃ a w, u = rigid2 X a w := by
  constructor
  · intro hu
    have hz := C34_zero_energy hm ht hE h1 h2 h (u := u) (by rw [hu, dotProduct_zero]) ⟨0, hN⟩
    have hreg : (SF.triangle3.dNdr (ic.points ⟨0, hN⟩) * X).det ≠ 0 := by
      intro h0
      have := hm ⟨0, hN⟩
      rw [measure2, h0] at this
      simp at this
    set r := ic.points ⟨0, hN⟩
    set G := gradAt SF.triangle3 X r with hG
    have hc : Complete (SF.triangle3 : SF K 2 3) := complete_triangle3
    -- the gradient of the displacement is antisymmetric
    set H : Fin 2 → Fin 2 → K := fun k j => ∑ i, G k i * u (i, j) with hH
    have s0 : H 0 0 = 0 := congrFun hz 0
    have s1 : H 1 1 = 0 := congrFun hz 1
    have s2 : H 1 0 + H 0 1 = 0 := congrFun hz 2
    -- an affine field is determined by its gradient on a triangle
    have key : ∀ (j : Fin 2) (i : Fin 3), u (i, j) - u (2, j) =
        (X i 0 - X 2 0) * H 0 j + (X i 1 - X 2 1) * H 1 j := by
      have hJ : (SF.triangle3.dNdr r * X) * G = SF.triangle3.dNdr r := by
        rw [hG, gradAt, ← Matrix.mul_assoc, Matrix.mul_nonsing_inv _ (Ne.isUnit hreg),
          Matrix.one_mul]
      intro j
      have hrow : ∀ l : Fin 2, (SF.triangle3.dNdr r * X) l 0 * H 0 j +
          (SF.triangle3.dNdr r * X) l 1 * H 1 j = ∑ i, SF.triangle3.dNdr r l i * u (i, j) := by
        intro l
        have e : ∑ i, ((SF.triangle3.dNdr r * X) * G) l i * u (i, j) =
            (SF.triangle3.dNdr r * X) l 0 * H 0 j + (SF.triangle3.dNdr r * X) l 1 * H 1 j := by
          simp only [hH, Matrix.mul_apply (M := SF.triangle3.dNdr r * X), Fin.sum_univ_two, add_mul,
            Finset.sum_add_distrib, Finset.mul_sum, mul_assoc]
        rw [← e, hJ]
      have r0 := hrow 0
      have r1 := hrow 1
      simp [SF.triangle3, Matrix.mul_apply, Fin.sum_univ_succ] at r0 r1
      intro i
      fin_cases i
      · simp; linear_combination -r0
      · simp; linear_combination -r1
      · simp
    refine ⟨fun j => u (2, j) - H 0 1 * ![-X 2 1, X 2 0] j, H 0 1, ?_⟩
    funext p
    obtain ⟨i, j⟩ := p
    have := key j i
    fin_cases j
    · simp [rigid2] at this ⊢
      rw [s0] at this
      linear_combination this + (X i 1 - X 2 1) * s2
    · simp [rigid2] at this ⊢
      rw [s1] at this
      linear_combination this
  · rintro ⟨a, w, rfl⟩
    exact C33_planeStrain complete_triangle3 h a w

/-- The hypotheses on the example triangle. -/
example : ∀ g, measure2 (SF.triangle3 : SF ℚ 2 3) exRule exTri g = 1 := fun g => by
  rw [measure2, exTri_det]
  fin_cases g
  simp [exRule]

example : ∃ Ke, planeStrainStiffness (SF.triangle3 : SF ℚ 2 3) exRule exTri 1 (1 / 4) 1 = some Ke ∧
    (∀ u, 0 ≤ u ⬝ᵥ (Ke *ᵥ u)) ∧ ∀ u, Ke *ᵥ u = 0 ↔ ∃ a w, u = rigid2 exTri a w := by
  obtain ⟨Ke, h⟩ := Option.isSome_iff_exists.1 (C32_planeStrain_defined (E := (1 : ℚ))
    (V := 1 / 4) (t := 1) |>.2 ⟨by norm_num, exTri_regular⟩)
  have hm : ∀ g, 0 < measure2 (SF.triangle3 : SF ℚ 2 3) exRule exTri g := fun g => by
    rw [measure2, exTri_det]
    fin_cases g
    simp [exRule]
  exact ⟨Ke, h, C34_planeStrain (fun g => (hm g).le) (by norm_num) (by norm_num) (by norm_num)
    (by norm_num) h, C34_triangle_kernel (by simp [exRule]) hm (by norm_num) (by norm_num)
    (by norm_num) (by norm_num) h⟩

end Pansfem
