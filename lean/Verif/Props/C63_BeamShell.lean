/-
C32 for beams and shells, and C63: the energy of a beam or shell element is the integral of the energy
density of the local strains, it is non-negative, and rigid motions produce no forces.
-/
import Verif.Lemmas.Shell
import Verif.Props.C34_Energy

namespace Pansfem

open Matrix

variable {n : ℕ}

section Beam
variable {sf : SF ℝ 1 n} {ic0 : IC ℝ 1} {ic12 : IC ℝ 2} {X V1 V2 : Matrix (Fin n) (Fin 3) ℝ}
  {E V a b : ℝ} {Ke : Matrix (Fin n × Fin 6) (Fin n × Fin 6) ℝ}

theorem isSymm_smul_sum₂ {ι : Type} {N M : ℕ} {c : Fin N → Fin M → ℝ}
    {A : Fin N → Fin M → Matrix ι ι ℝ} (h : ∀ g k, (A g k)ᵀ = A g k) :
    (∑ g, ∑ k, c g k • A g k)ᵀ = ∑ g, ∑ k, c g k • A g k := by
  rw [Matrix.transpose_sum]
  exact Finset.sum_congr rfl fun g _ => isSymm_smul_sum fun k => h g k

theorem mulVec_sum₂ {ι : Type} [Fintype ι] [DecidableEq ι] {N M : ℕ} {c : Fin N → Fin M → ℝ}
    {A : Fin N → Fin M → Matrix ι ι ℝ} (u : ι → ℝ) :
    (∑ g, ∑ k, c g k • A g k) *ᵥ u = ∑ g, ∑ k, c g k • (A g k *ᵥ u) := by
  rw [mulVec_sum]
  refine Finset.sum_congr rfl fun g _ => ?_
  rw [mulVec_sum]
  exact Finset.sum_congr rfl fun k _ => by rw [Matrix.smul_mulVec]

theorem dot_sum₂ {ι κ μ : Type} [Fintype ι] [DecidableEq ι] [Fintype κ] [DecidableEq κ] [Fintype μ]
    [DecidableEq μ] {N M : ℕ} {c : Fin N → Fin M → ℝ} {B : Fin N → Fin M → Matrix κ ι ℝ}
    {P : Fin N → Fin M → Matrix μ κ ℝ} {D : Matrix μ μ ℝ} (u v : ι → ℝ) :
    u ⬝ᵥ ((∑ g, ∑ k, c g k • ((B g k)ᵀ * ((P g k)ᵀ * D * P g k) * B g k)) *ᵥ v) =
      ∑ g, ∑ k, c g k * ((P g k *ᵥ (B g k *ᵥ u)) ⬝ᵥ (D *ᵥ (P g k *ᵥ (B g k *ᵥ v)))) := by
  rw [mulVec_sum₂, dotProduct_sum]
  refine Finset.sum_congr rfl fun g _ => ?_
  rw [dotProduct_sum]
  refine Finset.sum_congr rfl fun k _ => ?_
  rw [dotProduct_smul, smul_eq_mul, dotProduct_congr_transform, dotProduct_congr_transform]

/-- **C32** for `BeamLinearIsotropicElastic`. -/
theorem C32_beam (h : beamStiffness sf ic0 ic12 X V1 V2 E V a b = some Ke) : Keᵀ = Ke := by
  obtain ⟨v1, v2, D0, P0, P1, P2, -, -, hD, -, rfl⟩ := beamStiffness_some h
  exact isSymm_smul_sum₂ fun g k =>
    isSymm_congr_transform (isSymm_congr_transform (isSymm_beamD0 hD) _) _

/-- **C63**: the work of the forces of a beam element under the displacement `w` is the integral of
the products of local stresses and strains.  `J⁻¹ Du` is the gradient of the displacement field with
respect to position: the rows of `J` are the derivatives of the position, those of `Du` the
derivatives of the displacement; `P0` is the axis and `P1`, `P2` the directions of the section. -/
theorem C63_beam_energy (h : beamStiffness sf ic0 ic12 X V1 V2 E V a b = some Ke) :
    ∃ (v1 v2 : Matrix (Fin n) (Fin 3) ℝ) (P0 P1 P2 : Fin ic0.N → Fin ic12.N → Fin 3 → ℝ),
      (∀ i, normal? (V1 i) = some (v1 i)) ∧ (∀ i, normal? (V2 i) = some (v2 i)) ∧
      (∀ g h, normal? (fun k => ∑ i, v1 i k * sf.N (ic0.points g) i) = some (P1 g h) ∧
        normal? (fun k => ∑ i, v2 i k * sf.N (ic0.points g) i) = some (P2 g h) ∧
        normal? (cross3 (P1 g h) (P2 g h)) = some (P0 g h)) ∧
      ∀ u w : Fin n × Fin 6 → ℝ, u ⬝ᵥ (Ke *ᵥ w) = ∑ g, ∑ h,
        (let J := beamJ sf X v1 v2 a b (ic0.points g) (ic12.points h)
         let H := J⁻¹ * beamDu sf v1 v2 a b (ic0.points g) (ic12.points h) u
         let H' := J⁻¹ * beamDu sf v1 v2 a b (ic0.points g) (ic12.points h) w
         let axial := fun H : Matrix (Fin 3) (Fin 3) ℝ => P0 g h ⬝ᵥ (H *ᵥ P0 g h)
         let shear := fun (H : Matrix (Fin 3) (Fin 3) ℝ) (p : Fin 3 → ℝ) =>
           P0 g h ⬝ᵥ (H *ᵥ p) + p ⬝ᵥ (H *ᵥ P0 g h)
         J.det * ic0.weights g 0 * ic12.weights h 0 * ic12.weights h 1 *
          (E * (axial H * axial H') + E / (2 * (1 + V)) / 1.2 *
            (shear H (P1 g h) * shear H' (P1 g h) + shear H (P2 g h) * shear H' (P2 g h)))) := by
  obtain ⟨v1, v2, D0, P0, P1, P2, e1, e2, hD, hP, rfl⟩ := beamStiffness_some h
  refine ⟨v1, v2, P0, P1, P2, e1, e2, fun g h => (hP g h).2, fun u w => ?_⟩
  rw [dot_sum₂]
  refine Finset.sum_congr rfl fun g _ => Finset.sum_congr rfl fun k _ => ?_
  rw [beamB_mulVec, beamB_mulVec, beamP_mulVec, beamP_mulVec]
  unfold beamD0 at hD
  simp only [Option.bind_eq_bind, Option.pure_def, Option.bind_eq_some_iff, Option.some.injEq] at hD
  obtain ⟨G, hG, rfl⟩ := hD
  obtain ⟨hV, rfl⟩ := div?_eq_some.1 hG
  simp only [dot3, Matrix.mulVec, Matrix.of_apply, Matrix.cons_val_zero, Matrix.cons_val_one,
    Matrix.cons_val]
  field_simp
  ring

/-- **C63**: the energy of a beam element is not negative. -/
theorem C63_beam_nonneg (hE : 0 ≤ E) (hV : -1 < V)
    (h : beamStiffness sf ic0 ic12 X V1 V2 E V a b = some Ke)
    (hm : ∀ v1 v2 : Matrix (Fin n) (Fin 3) ℝ, (∀ i, normal? (V1 i) = some (v1 i)) →
      (∀ i, normal? (V2 i) = some (v2 i)) → ∀ g k,
      0 ≤ (beamJ sf X v1 v2 a b (ic0.points g) (ic12.points k)).det * ic0.weights g 0 *
        ic12.weights k 0 * ic12.weights k 1) : NonnegForm Ke := by
  obtain ⟨v1, v2, P0, P1, P2, e1, e2, -, hu⟩ := C63_beam_energy h
  intro u
  rw [hu]
  refine Finset.sum_nonneg fun g _ => Finset.sum_nonneg fun k _ => ?_
  refine mul_nonneg (hm v1 v2 e1 e2 g k) ?_
  have : 0 ≤ E / (2 * (1 + V)) / 1.2 := by
    have : 0 < 1 + V := by linarith
    positivity
  exact add_nonneg (mul_nonneg hE (mul_self_nonneg _))
    (mul_nonneg this (add_nonneg (mul_self_nonneg _) (mul_self_nonneg _)))

/-- A rigid motion of a beam or shell with rotations as unknowns: translation `c`, rotation `w` about
the origin, to first order. -/
def rigid6 (X : Matrix (Fin n) (Fin 3) ℝ) (c w : Fin 3 → ℝ) : Fin n × Fin 6 → ℝ := fun p =>
  ![c 0 + cross3 w (X p.1) 0, c 1 + cross3 w (X p.1) 1, c 2 + cross3 w (X p.1) 2, w 0, w 1, w 2] p.2

theorem trans6_rigid (X : Matrix (Fin n) (Fin 3) ℝ) (c w : Fin 3 → ℝ) (i : Fin n) :
    trans6 (rigid6 X c w) i = c + cross3 w (X i) := by
  funext k; fin_cases k <;> rfl

theorem rot6_rigid (X : Matrix (Fin n) (Fin 3) ℝ) (c w : Fin 3 → ℝ) (i : Fin n) :
    rot6 (rigid6 X c w) i = w := by
  funext k; fin_cases k <;> rfl

/-- **C63**: a rigid motion of a beam element needs no forces. -/
theorem C63_beam_rigid (hc : Complete sf) (h : beamStiffness sf ic0 ic12 X V1 V2 E V a b = some Ke)
    (c w : Fin 3 → ℝ) : Ke *ᵥ rigid6 X c w = 0 := by
  obtain ⟨v1, v2, D0, P0, P1, P2, -, -, hD, hP, rfl⟩ := beamStiffness_some h
  rw [mulVec_sum₂]
  refine Finset.sum_eq_zero fun g _ => Finset.sum_eq_zero fun k _ => ?_
  rw [← Matrix.mulVec_mulVec, beamB_mulVec, strain6_rigid (hP g k).1 w, Matrix.mulVec_zero, smul_zero]
  have h0 := hc (ic0.points g) 0
  have hsum : ∀ C : ℝ, ∑ i, sf.dNdr (ic0.points g) 0 i * C = 0 := fun C => by
    rw [← Finset.sum_mul, h0, zero_mul]
  intro p
  funext q
  simp only [beamDu, trans6_rigid, rot6_rigid, beamJ]
  fin_cases p <;> fin_cases q <;>
  simp only [Fin.reduceFinMk, Fin.mk_one, Fin.zero_eta, Matrix.of_apply, Matrix.cons_val_zero,
    Matrix.cons_val_one, Matrix.cons_val, cross3_zero, cross3_one, cross3_two, Matrix.mul_apply,
    Matrix.add_apply, Matrix.smul_apply, smul_eq_mul, Pi.add_apply, Finset.mul_sum,
    ← Finset.sum_sub_distrib]
  · rw [← sub_eq_zero, ← Finset.sum_sub_distrib, ← hsum (c 0)]
    exact Finset.sum_congr rfl fun i _ => by ring
  · rw [← sub_eq_zero, ← Finset.sum_sub_distrib, ← hsum (c 1)]
    exact Finset.sum_congr rfl fun i _ => by ring
  · rw [← sub_eq_zero, ← Finset.sum_sub_distrib, ← hsum (c 2)]
    exact Finset.sum_congr rfl fun i _ => by ring
  all_goals exact Finset.sum_congr rfl fun i _ => by ring

end Beam

section Shell
variable {sf : SF ℝ 2 n} {ic01 : IC ℝ 2} {ic2 : IC ℝ 1} {X : Matrix (Fin n) (Fin 3) ℝ} {E V t : ℝ}

/-- **C32** for `ShellLinearIsotropicElastic`. -/
theorem C32_shell {Ke : Matrix (Fin n × Fin 5) (Fin n × Fin 5) ℝ}
    (h : shellStiffness sf ic01 ic2 X E V t = some Ke) : Keᵀ = Ke := by
  obtain ⟨l, v1, v2, v3, D0, P0, P1, P2, -, -, hD, -, rfl⟩ := shellWith_some h
  exact isSymm_smul_sum₂ fun g k =>
    isSymm_congr_transform (isSymm_congr_transform (isSymm_shellD0 hD) _) _

/-- **C32** for `ShellLinearIsotropicElastic2`. -/
theorem C32_shell2 {Ke : Matrix (Fin n × Fin 6) (Fin n × Fin 6) ℝ}
    (h : shellStiffness2 sf ic01 ic2 X E V t = some Ke) : Keᵀ = Ke := by
  obtain ⟨l, v1, v2, v3, D0, P0, P1, P2, -, -, hD, -, rfl⟩ := shellWith_some h
  exact isSymm_smul_sum₂ fun g k =>
    isSymm_congr_transform (isSymm_congr_transform (isSymm_shellD0 hD) _) _

/-- The energy density of a shell: plane stress in the surface and corrected transverse shear, for the
displacement gradients `H` and `H'`. -/
noncomputable def shellDensity (E V : ℝ) (P0 P1 P2 : Fin 3 → ℝ) (H H' : Matrix (Fin 3) (Fin 3) ℝ) : ℝ :=
  let nrm := fun (H : Matrix (Fin 3) (Fin 3) ℝ) (p : Fin 3 → ℝ) => p ⬝ᵥ (H *ᵥ p)
  let shear := fun (H : Matrix (Fin 3) (Fin 3) ℝ) (p q : Fin 3 → ℝ) => p ⬝ᵥ (H *ᵥ q) + q ⬝ᵥ (H *ᵥ p)
  E / (1 - V ^ 2) * (nrm H P0 * (nrm H' P0 + V * nrm H' P1) + nrm H P1 * (V * nrm H' P0 + nrm H' P1) +
    (1 - V) / 2 * (shear H P0 P1 * shear H' P0 P1 +
      (shear H P0 P2 * shear H' P0 P2 + shear H P1 P2 * shear H' P1 P2) / 1.2))

theorem shellDensity_eq {D0 : Matrix (Fin 5) (Fin 5) ℝ} (hD : shellD0 E V = some D0)
    (P0 P1 P2 : Fin 3 → ℝ) (H H' : Matrix (Fin 3) (Fin 3) ℝ) :
    (shellP P0 P1 P2 *ᵥ strain6 H) ⬝ᵥ (D0 *ᵥ (shellP P0 P1 P2 *ᵥ strain6 H')) =
      shellDensity E V P0 P1 P2 H H' := by
  rw [shellP_mulVec, shellP_mulVec]
  unfold shellD0 at hD
  simp only [Option.bind_eq_bind, Option.pure_def, Option.bind_eq_some_iff, Option.some.injEq] at hD
  obtain ⟨G, hG, rfl⟩ := hD
  obtain ⟨hV, rfl⟩ := div?_eq_some.1 hG
  rw [Matrix.smul_mulVec, dotProduct_smul, smul_eq_mul, shellDensity, sq]
  congr 1
  simp only [Matrix.mulVec, dotProduct, Fin.sum_univ_five, Fin.sum_univ_three, Matrix.of_apply,
    Matrix.cons_val_zero, Matrix.cons_val_one, Matrix.cons_val]
  norm_num
  ring

theorem shellDensity_nonneg (hE : 0 ≤ E) (h1 : -1 < V) (h2 : V < 1) (P0 P1 P2 : Fin 3 → ℝ)
    (H : Matrix (Fin 3) (Fin 3) ℝ) : 0 ≤ shellDensity E V P0 P1 P2 H H := by
  unfold shellDensity
  simp only
  generalize P0 ⬝ᵥ (H *ᵥ P0) = x
  generalize P1 ⬝ᵥ (H *ᵥ P1) = y
  have hV : 0 < 1 - V ^ 2 := by nlinarith
  refine mul_nonneg (by positivity) ?_
  have e : x * (x + V * y) + y * (V * x + y) =
      (1 + V) / 2 * (x + y) ^ 2 + (1 - V) / 2 * (x - y) ^ 2 := by ring
  rw [e]
  have p1 : 0 < 1 + V := by linarith
  have p2 : 0 < 1 - V := by linarith
  refine add_nonneg (by positivity) (mul_nonneg (by positivity) ?_)
  refine add_nonneg (mul_self_nonneg _) (div_nonneg (add_nonneg (mul_self_nonneg _) (mul_self_nonneg _))
    (by norm_num))

/-- The frames and directions a shell routine works with. -/
structure ShellData (sf : SF ℝ 2 n) (ic01 : IC ℝ 2) (ic2 : IC ℝ 1) (X : Matrix (Fin n) (Fin 3) ℝ)
    (t : ℝ) where
  l : Fin 3 → ℝ
  v1 : Matrix (Fin n) (Fin 3) ℝ
  v2 : Matrix (Fin n) (Fin 3) ℝ
  v3 : Matrix (Fin n) (Fin 3) ℝ
  P0 : Fin ic01.N → Fin ic2.N → Fin 3 → ℝ
  P1 : Fin ic01.N → Fin ic2.N → Fin 3 → ℝ
  P2 : Fin ic01.N → Fin ic2.N → Fin 3 → ℝ
  hl : shellL X = some l
  frame : ∀ i, shellFrame sf X l i = some (v1 i, v2 i, v3 i)
  det : ∀ g h, (shellJ sf X v3 t (ic01.points g) (ic2.points h 0)).det ≠ 0
  normal : ∀ g h, normal? (cross3 (shellJ sf X v3 t (ic01.points g) (ic2.points h 0) 0)
    (shellJ sf X v3 t (ic01.points g) (ic2.points h 0) 1)) = some (P2 g h)
  first : ∀ g h, normal? (cross3 l (P2 g h)) = some (P0 g h)
  second : ∀ g h, normal? (cross3 (P2 g h) (P0 g h)) = some (P1 g h)

namespace ShellData
variable (S : ShellData sf ic01 ic2 X t)

/-- The factor of an integration point. -/
noncomputable def weight (g : Fin ic01.N) (h : Fin ic2.N) : ℝ :=
  (shellJ sf X S.v3 t (ic01.points g) (ic2.points h 0)).det *
    ic01.weights g 0 * ic01.weights g 1 * ic2.weights h 0

/-- The gradient of the displacement with nodal translations `u` and director changes `d`. -/
noncomputable def grad (u d : Fin n → Fin 3 → ℝ) (g : Fin ic01.N) (h : Fin ic2.N) :
    Matrix (Fin 3) (Fin 3) ℝ :=
  (shellJ sf X S.v3 t (ic01.points g) (ic2.points h 0))⁻¹ *
    shellDu sf t (ic01.points g) (ic2.points h 0) u d

/-- A rigid rotation turns the director like every other vector. -/
theorem strain_rigid (hc : Complete sf) (c w : Fin 3 → ℝ) {u d : Fin n → Fin 3 → ℝ}
    (hu : ∀ i, u i = c + cross3 w (X i)) (hd : ∀ i, d i = cross3 w (S.v3 i))
    (g : Fin ic01.N) (h : Fin ic2.N) : strain6 (S.grad u d g h) = 0 := by
  refine strain6_rigid (S.det g h) w fun p => ?_
  have hsum : ∀ (k : Fin 2) (C : ℝ), ∑ i, sf.dNdr (ic01.points g) k i * C = 0 := fun k C => by
    rw [← Finset.sum_mul, hc (ic01.points g) k, zero_mul]
  funext q
  simp only [shellDu, hu, hd, shellJ]
  fin_cases p <;> fin_cases q <;>
  simp only [Fin.reduceFinMk, Fin.mk_one, Fin.zero_eta, Matrix.of_apply, Matrix.cons_val_zero,
    Matrix.cons_val_one, Matrix.cons_val, cross3_zero, cross3_one, cross3_two, Matrix.mul_apply,
    Matrix.add_apply, Matrix.smul_apply, smul_eq_mul, Pi.add_apply, Finset.mul_sum,
    ← Finset.sum_sub_distrib]
  · rw [← sub_eq_zero, ← Finset.sum_sub_distrib, ← hsum 0 (c 0)]
    exact Finset.sum_congr rfl fun i _ => by ring
  · rw [← sub_eq_zero, ← Finset.sum_sub_distrib, ← hsum 0 (c 1)]
    exact Finset.sum_congr rfl fun i _ => by ring
  · rw [← sub_eq_zero, ← Finset.sum_sub_distrib, ← hsum 0 (c 2)]
    exact Finset.sum_congr rfl fun i _ => by ring
  · rw [← sub_eq_zero, ← Finset.sum_sub_distrib, ← hsum 1 (c 0)]
    exact Finset.sum_congr rfl fun i _ => by ring
  · rw [← sub_eq_zero, ← Finset.sum_sub_distrib, ← hsum 1 (c 1)]
    exact Finset.sum_congr rfl fun i _ => by ring
  · rw [← sub_eq_zero, ← Finset.sum_sub_distrib, ← hsum 1 (c 2)]
    exact Finset.sum_congr rfl fun i _ => by ring
  all_goals exact Finset.sum_congr rfl fun i _ => by ring

end ShellData

/-- **C63**: the work of the forces of the shell element with five unknowns per node. -/
theorem C63_shell_energy {Ke : Matrix (Fin n × Fin 5) (Fin n × Fin 5) ℝ}
    (h : shellStiffness sf ic01 ic2 X E V t = some Ke) :
    ∃ S : ShellData sf ic01 ic2 X t, ∀ u w, u ⬝ᵥ (Ke *ᵥ w) = ∑ g, ∑ h, S.weight g h *
      shellDensity E V (S.P0 g h) (S.P1 g h) (S.P2 g h)
        (S.grad (trans5 u) (director5 S.v1 S.v2 u) g h)
        (S.grad (trans5 w) (director5 S.v1 S.v2 w) g h) := by
  obtain ⟨l, v1, v2, v3, D0, P0, P1, P2, hl, hf, hD, hP, rfl⟩ := shellWith_some h
  refine ⟨⟨l, v1, v2, v3, P0, P1, P2, hl, hf, fun g h => (hP g h).1, fun g h => (hP g h).2.1,
    fun g h => (hP g h).2.2.1, fun g h => (hP g h).2.2.2⟩, fun u w => ?_⟩
  rw [dot_sum₂]
  refine Finset.sum_congr rfl fun g _ => Finset.sum_congr rfl fun k _ => ?_
  rw [shellB_mulVec, shellB_mulVec, shellDensity_eq hD]
  rfl

/-- **C63**: the work of the forces of the shell element with six unknowns per node. -/
theorem C63_shell2_energy {Ke : Matrix (Fin n × Fin 6) (Fin n × Fin 6) ℝ}
    (h : shellStiffness2 sf ic01 ic2 X E V t = some Ke) :
    ∃ S : ShellData sf ic01 ic2 X t, ∀ u w, u ⬝ᵥ (Ke *ᵥ w) = ∑ g, ∑ h, S.weight g h *
      shellDensity E V (S.P0 g h) (S.P1 g h) (S.P2 g h)
        (S.grad (trans6 u) (director6 S.v1 S.v2 u) g h)
        (S.grad (trans6 w) (director6 S.v1 S.v2 w) g h) := by
  obtain ⟨l, v1, v2, v3, D0, P0, P1, P2, hl, hf, hD, hP, rfl⟩ := shellWith_some h
  refine ⟨⟨l, v1, v2, v3, P0, P1, P2, hl, hf, fun g h => (hP g h).1, fun g h => (hP g h).2.1,
    fun g h => (hP g h).2.2.1, fun g h => (hP g h).2.2.2⟩, fun u w => ?_⟩
  rw [dot_sum₂]
  refine Finset.sum_congr rfl fun g _ => Finset.sum_congr rfl fun k _ => ?_
  rw [shellB2_mulVec, shellB2_mulVec, shellDensity_eq hD]
  rfl

/-- **C63**: the energy of a shell element is not negative. -/
theorem C63_shell_nonneg (hE : 0 ≤ E) (h1 : -1 < V) (h2 : V < 1)
    {Ke : Matrix (Fin n × Fin 5) (Fin n × Fin 5) ℝ}
    (h : shellStiffness sf ic01 ic2 X E V t = some Ke)
    (hm : ∀ (S : ShellData sf ic01 ic2 X t) g k, 0 ≤ S.weight g k) : NonnegForm Ke := by
  obtain ⟨S, hu⟩ := C63_shell_energy h
  intro u
  rw [hu]
  exact Finset.sum_nonneg fun g _ => Finset.sum_nonneg fun k _ =>
    mul_nonneg (hm S g k) (shellDensity_nonneg hE h1 h2 _ _ _ _)

/-- **C63**: the energy of a shell element is not negative. -/
theorem C63_shell2_nonneg (hE : 0 ≤ E) (h1 : -1 < V) (h2 : V < 1)
    {Ke : Matrix (Fin n × Fin 6) (Fin n × Fin 6) ℝ}
    (h : shellStiffness2 sf ic01 ic2 X E V t = some Ke)
    (hm : ∀ (S : ShellData sf ic01 ic2 X t) g k, 0 ≤ S.weight g k) : NonnegForm Ke := by
  obtain ⟨S, hu⟩ := C63_shell2_energy h
  intro u
  rw [hu]
  exact Finset.sum_nonneg fun g _ => Finset.sum_nonneg fun k _ =>
    mul_nonneg (hm S g k) (shellDensity_nonneg hE h1 h2 _ _ _ _)

theorem shellDensity_zero (P0 P1 P2 : Fin 3 → ℝ) {H : Matrix (Fin 3) (Fin 3) ℝ}
    (hD : 1 - V * V ≠ 0) (h : strain6 H = 0) (H' : Matrix (Fin 3) (Fin 3) ℝ) :
    shellDensity E V P0 P1 P2 H' H = 0 := by
  obtain ⟨D0, hD0⟩ : ∃ D0, shellD0 E V = some D0 := by
    simp [shellD0, div?, hD]
  rw [← shellDensity_eq hD0, h, Matrix.mulVec_zero, Matrix.mulVec_zero, dotProduct_zero]

theorem shellD0_defined {k : ℕ} {B} {Ke : Matrix (Fin n × Fin k) (Fin n × Fin k) ℝ}
    (h : shellWith B sf ic01 ic2 X E V t = some Ke) : 1 - V * V ≠ 0 := by
  obtain ⟨l, v1, v2, v3, D0, P0, P1, P2, hl, hf, hD, hP, rfl⟩ := shellWith_some h
  unfold shellD0 at hD
  simp only [Option.bind_eq_bind, Option.pure_def, Option.bind_eq_some_iff, Option.some.injEq] at hD
  obtain ⟨G, hG, rfl⟩ := hD
  exact (div?_eq_some.1 hG).1

theorem eq_zero_of_dot {ι : Type} [Fintype ι] {v : ι → ℝ} (h : ∀ u : ι → ℝ, u ⬝ᵥ v = 0) : v = 0 :=
  dotProduct_self_eq_zero.1 (h v)

/-- A rigid motion in the unknowns of the shell with five unknowns per node: the rotation appears
through its components along the two tangent directions of the node. -/
def rigid5 (X v1 v2 : Matrix (Fin n) (Fin 3) ℝ) (c w : Fin 3 → ℝ) : Fin n × Fin 5 → ℝ := fun p =>
  ![c 0 + cross3 w (X p.1) 0, c 1 + cross3 w (X p.1) 1, c 2 + cross3 w (X p.1) 2,
    w ⬝ᵥ v1 p.1, w ⬝ᵥ v2 p.1] p.2

theorem cross3_cross3 (w a b : Fin 3 → ℝ) :
    cross3 w (cross3 a b) = (w ⬝ᵥ b) • a - (w ⬝ᵥ a) • b := by
  funext k
  fin_cases k <;>
  simp only [Fin.reduceFinMk, Fin.mk_one, Fin.zero_eta, cross3_zero, cross3_one, cross3_two, dot3,
    Pi.sub_apply, Pi.smul_apply, smul_eq_mul] <;> ring

/-- **C63**: a rigid motion of a shell element (five unknowns per node) needs no forces. -/
theorem C63_shell_rigid (hc : Complete sf) {Ke : Matrix (Fin n × Fin 5) (Fin n × Fin 5) ℝ}
    (h : shellStiffness sf ic01 ic2 X E V t = some Ke) :
    ∃ S : ShellData sf ic01 ic2 X t, ∀ c w : Fin 3 → ℝ, Ke *ᵥ rigid5 X S.v1 S.v2 c w = 0 := by
  obtain ⟨S, hu⟩ := C63_shell_energy h
  refine ⟨S, fun c w => eq_zero_of_dot fun u => ?_⟩
  rw [hu]
  refine Finset.sum_eq_zero fun g _ => Finset.sum_eq_zero fun k _ => ?_
  rw [shellDensity_zero _ _ _ (shellD0_defined h) (S.strain_rigid hc c w (fun i => ?_) (fun i => ?_) g k),
    mul_zero]
  · funext q; fin_cases q <;> rfl
  · rw [← (shellFrame_some (S.frame i)).2.2.2.2.2.2, cross3_cross3]
    rfl

/-- **C63**: a rigid motion of a shell element (six unknowns per node) needs no forces. -/
theorem C63_shell2_rigid (hc : Complete sf) {Ke : Matrix (Fin n × Fin 6) (Fin n × Fin 6) ℝ}
    (h : shellStiffness2 sf ic01 ic2 X E V t = some Ke) (c w : Fin 3 → ℝ) :
    Ke *ᵥ rigid6 X c w = 0 := by
  obtain ⟨S, hu⟩ := C63_shell2_energy h
  refine eq_zero_of_dot fun u => ?_
  rw [hu]
  refine Finset.sum_eq_zero fun g _ => Finset.sum_eq_zero fun k _ => ?_
  rw [shellDensity_zero _ _ _ (shellD0_defined h) (S.strain_rigid hc c w (fun i => ?_) (fun i => ?_) g k),
    mul_zero]
  · exact trans6_rigid X c w i
  · rw [← (shellFrame_some (S.frame i)).2.2.2.2.2.2, cross3_cross3, director6, rot6_rigid]

/-- **C63**: the sixth unknown is not resisted: rotations of the nodes about their normals need no
forces, so `ShellLinearIsotropicElastic2` returns a singular matrix even modulo rigid motions. -/
theorem C63_shell2_drilling {Ke : Matrix (Fin n × Fin 6) (Fin n × Fin 6) ℝ}
    (h : shellStiffness2 sf ic01 ic2 X E V t = some Ke) :
    ∃ S : ShellData sf ic01 ic2 X t, ∀ q : Fin n → ℝ,
      Ke *ᵥ (fun p => ![0, 0, 0, q p.1 * S.v3 p.1 0, q p.1 * S.v3 p.1 1, q p.1 * S.v3 p.1 2] p.2) = 0 := by
  obtain ⟨S, hu⟩ := C63_shell2_energy h
  refine ⟨S, fun q => eq_zero_of_dot fun u => ?_⟩
  rw [hu]
  refine Finset.sum_eq_zero fun g _ => Finset.sum_eq_zero fun k _ => ?_
  have hz : strain6 (S.grad (trans6 fun p => ![0, 0, 0, q p.1 * S.v3 p.1 0, q p.1 * S.v3 p.1 1,
      q p.1 * S.v3 p.1 2] p.2) (director6 S.v1 S.v2 fun p => ![0, 0, 0, q p.1 * S.v3 p.1 0,
      q p.1 * S.v3 p.1 1, q p.1 * S.v3 p.1 2] p.2) g k) = 0 := by
    have e1 : (trans6 fun p : Fin n × Fin 6 => ![0, 0, 0, q p.1 * S.v3 p.1 0, q p.1 * S.v3 p.1 1,
      q p.1 * S.v3 p.1 2] p.2) = fun _ _ => 0 := by
      funext i k; fin_cases k <;> rfl
    have e2 : (director6 S.v1 S.v2 fun p : Fin n × Fin 6 => ![0, 0, 0, q p.1 * S.v3 p.1 0,
      q p.1 * S.v3 p.1 1, q p.1 * S.v3 p.1 2] p.2) = fun _ _ => 0 := by
      funext i k
      have hr : (rot6 fun p : Fin n × Fin 6 => ![0, 0, 0, q p.1 * S.v3 p.1 0,
        q p.1 * S.v3 p.1 1, q p.1 * S.v3 p.1 2] p.2) i = q i • S.v3 i := by
        funext k; fin_cases k <;> rfl
      obtain ⟨-, -, -, o1, o2, -, -⟩ := shellFrame_some (S.frame i)
      rw [director6, hr, smul_dotProduct, smul_dotProduct, dotProduct_comm, o2, dotProduct_comm, o1]
      simp
    rw [e1, e2]
    funext k
    fin_cases k <;> simp [strain6, ShellData.grad, shellDu, Matrix.mul_apply, Fin.sum_univ_three]
  rw [shellDensity_zero _ _ _ (shellD0_defined h) hz, mul_zero]

end Shell

/-! ### Concrete elements -/

theorem normal?_unit {v : Fin 3 → ℝ} (h : v ⬝ᵥ v = 1) : normal? v = some v := by
  simp [normal?, h]

/-- A rule with one point in the middle, in `d` dimensions. -/
def midRule (d : ℕ) : IC ℝ d := ⟨1, fun _ _ => 0, fun _ _ => 2⟩

/-- A beam from (0,0,0) to (2,0,0) with a section 2 by 4. -/
theorem exBeam : ∃ Ke, beamStiffness SF.line2 (midRule 1) (midRule 2) !![0, 0, 0; 2, 0, 0]
    !![0, 1, 0; 0, 1, 0] !![0, 0, 1; 0, 0, 1] 2.1 0.3 2 4 = some Ke := by
  have n1 : normal? ![0, 1, 0] = some ![0, 1, 0] := normal?_unit (by simp)
  have n2 : normal? ![0, 0, 1] = some ![0, 0, 1] := normal?_unit (by simp [dot3])
  have a1 : (allSome fun i => normal? ((!![0, 1, 0; 0, 1, 0] : Matrix (Fin 2) (Fin 3) ℝ) i)) =
      some (Matrix.of fun _ => ![0, 1, 0]) := allSome_eq_some.2 fun i => by fin_cases i <;> exact n1
  have a2 : (allSome fun i => normal? ((!![0, 0, 1; 0, 0, 1] : Matrix (Fin 2) (Fin 3) ℝ) i)) =
      some (Matrix.of fun _ => ![0, 0, 1]) := allSome_eq_some.2 fun i => by fin_cases i <;> exact n2
  have hJ : beamJ SF.line2 !![0, 0, 0; 2, 0, 0] (Matrix.of fun _ => ![0, 1, 0])
      (Matrix.of fun _ => ![0, 0, 1]) 2 4
      (fun _ => 0) (fun _ => 0) = Matrix.diagonal ![1, 1, 2] := by
    ext p q
    fin_cases p <;> fin_cases q <;>
      simp [beamJ, SF.line2, Matrix.mul_apply, Fin.sum_univ_two, Matrix.diagonal] <;> norm_num
  have hdet : (Matrix.diagonal ![(1 : ℝ), 1, 2]).det ≠ 0 := by
    simp [Matrix.det_diagonal, Fin.prod_univ_three]
  have e1 : normal? (fun k => ∑ i, (![0, 1, 0] : Fin 3 → ℝ) k * (SF.line2 : SF ℝ 1 2).N (fun _ => 0) i) =
      some ![0, 1, 0] := by
    rw [← n1]; congr 1; funext k; simp [SF.line2, Fin.sum_univ_two, ← mul_add]; norm_num
  have e2 : normal? (fun k => ∑ i, (![0, 0, 1] : Fin 3 → ℝ) k * (SF.line2 : SF ℝ 1 2).N (fun _ => 0) i) =
      some ![0, 0, 1] := by
    rw [← n2]; congr 1; funext k; simp [SF.line2, Fin.sum_univ_two, ← mul_add]; norm_num
  have e0 : normal? (cross3 ![0, 1, 0] ![0, 0, 1]) = some (cross3 ![0, 1, 0] ![0, 0, 1]) :=
    normal?_unit (by simp [dot3])
  have hD : ∃ D0, beamD0 2.1 0.3 = some D0 := by
    norm_num [beamD0, div?]
  obtain ⟨D0, hD0⟩ := hD
  unfold beamStiffness
  simp only [Option.bind_eq_bind, Option.pure_def, Option.bind_eq_some_iff, gauss_eq_some]
  exact ⟨_, _, a1, _, a2, D0, hD0, _, fun g => ⟨_, fun h => ⟨_, inv?_eq_some.2 ⟨hJ ▸ hdet, rfl⟩, _, e1, _,
    e2, _, e0, rfl⟩, rfl⟩, rfl⟩

/-- The forces of a screw motion of that beam vanish, and its energy is never negative. -/
example : ∃ Ke, beamStiffness SF.line2 (midRule 1) (midRule 2) !![0, 0, 0; 2, 0, 0]
    !![0, 1, 0; 0, 1, 0] !![0, 0, 1; 0, 0, 1] 2.1 0.3 2 4 = some Ke ∧
    Ke *ᵥ rigid6 !![0, 0, 0; 2, 0, 0] ![1, 2, 3] ![4, 5, 6] = 0 := by
  obtain ⟨Ke, h⟩ := exBeam
  exact ⟨Ke, h, C63_beam_rigid (C27_sum_dNdr .line2) h _ _⟩

/-- A square shell of side 2 in the plane z = 0, thickness 2. -/
theorem exShell {k : ℕ} (B : Matrix (Fin 3) (Fin 4) ℝ → Matrix (Fin 3) (Fin 4) ℝ →
      Matrix (Fin 4) (Fin 3) ℝ → Matrix (Fin 4) (Fin 3) ℝ → ℝ → Matrix (Fin 6) (Fin 4 × Fin k) ℝ) :
    ∃ Ke, shellWith B SF.square4 (midRule 2) (midRule 1)
      !![-1, -1, 0; 1, -1, 0; 1, 1, 0; -1, 1, 0] 1 0.3 2 = some Ke := by
  have hl : shellL !![-1, -1, 0; 1, -1, 0; 1, 1, 0; -1, 1, 0] = some ![2, 0, 0] := by
    simp only [shellL, show 1 < 4 by norm_num, dif_pos, Option.some.injEq]
    funext k; fin_cases k <;> simp; norm_num
  have n3 : normal? ![0, 0, 1] = some ![0, 0, 1] := normal?_unit (by simp [dot3])
  have c1 : normal? (cross3 ![2, 0, 0] ![0, 0, 1]) = some ![0, -1, 0] := by
    have e : cross3 ![2, 0, 0] ![0, 0, 1] = ![0, -2, 0] := by
      funext k; fin_cases k <;> simp
    have s : Real.sqrt 4 = 2 := by
      rw [show (4 : ℝ) = 2 ^ 2 by norm_num, Real.sqrt_sq (by norm_num)]
    rw [e]
    have d : (![0, -2, 0] : Fin 3 → ℝ) ⬝ᵥ ![0, -2, 0] = 4 := by simp [dot3]; norm_num
    rw [normal?, d, s, if_neg (by norm_num)]
    congr 1
    funext k; fin_cases k <;> simp
  have c2 : normal? (cross3 ![0, 0, 1] ![0, -1, 0]) = some ![1, 0, 0] := by
    have e : cross3 ![0, 0, 1] ![0, -1, 0] = ![1, 0, 0] := by
      funext k; fin_cases k <;> simp
    rw [e]
    exact normal?_unit (by simp [dot3])
  have hjac : ∀ p : Fin 2 → ℝ, cross3 (((SF.square4 : SF ℝ 2 4).dNdr p *
      (!![-1, -1, 0; 1, -1, 0; 1, 1, 0; -1, 1, 0] : Matrix (Fin 4) (Fin 3) ℝ)) 0)
      (((SF.square4 : SF ℝ 2 4).dNdr p *
      (!![-1, -1, 0; 1, -1, 0; 1, 1, 0; -1, 1, 0] : Matrix (Fin 4) (Fin 3) ℝ)) 1) = ![0, 0, 1] := by
    intro p
    funext k
    fin_cases k <;>
    simp only [Fin.reduceFinMk, Fin.mk_one, Fin.zero_eta, cross3_zero, cross3_one, cross3_two,
      Matrix.mul_apply, Fin.sum_univ_four] <;> simp [SF.square4] <;> ring
  have hfr : allSome (shellFrame SF.square4 !![-1, -1, 0; 1, -1, 0; 1, 1, 0; -1, 1, 0] ![2, 0, 0]) =
      some fun _ => (![0, -1, 0], ![1, 0, 0], ![0, 0, 1]) := by
    refine allSome_eq_some.2 fun i => ?_
    have : ∃ p, (SF.square4 : SF ℝ 2 4).points[(i : ℕ)]? = some p := by
      fin_cases i <;> exact ⟨_, rfl⟩
    obtain ⟨p, hp⟩ := this
    simp only [shellFrame, hp, Option.bind_eq_bind, Option.bind_some, hjac, n3, c1, c2, Option.pure_def]
  have hJ : shellJ SF.square4 !![-1, -1, 0; 1, -1, 0; 1, 1, 0; -1, 1, 0]
      (Matrix.of fun _ => ![0, 0, 1]) 2 (fun _ => 0) 0 = 1 := by
    ext p q
    fin_cases p <;> fin_cases q <;>
      simp [shellJ, SF.square4, Matrix.mul_apply, Fin.sum_univ_four] <;> norm_num
  have hn : normal? (cross3 ((1 : Matrix (Fin 3) (Fin 3) ℝ) 0) ((1 : Matrix (Fin 3) (Fin 3) ℝ) 1)) =
      some ![0, 0, 1] := by
    have e : cross3 ((1 : Matrix (Fin 3) (Fin 3) ℝ) 0) ((1 : Matrix (Fin 3) (Fin 3) ℝ) 1) =
        ![0, 0, 1] := by
      funext k; fin_cases k <;> simp
    rw [e, n3]
  obtain ⟨D0, hD0⟩ : ∃ D0, shellD0 1 0.3 = some D0 := by norm_num [shellD0, div?]
  have hI : inv? (1 : Matrix (Fin 3) (Fin 3) ℝ) = some (1 : Matrix (Fin 3) (Fin 3) ℝ)⁻¹ :=
    inv?_eq_some.2 ⟨by simp, rfl⟩
  unfold shellWith
  simp only [hl, hfr, hD0, Option.bind_eq_bind, Option.bind_some, midRule, hJ, hI, hn, c1, c2,
    Option.pure_def]
  exact ⟨_, (gauss_eq_some).2 ⟨_, fun g => gauss_eq_some.2 ⟨_, fun h => rfl, rfl⟩, rfl⟩⟩

/-- The forces of a screw motion of that shell vanish. -/
example : ∃ Ke, shellStiffness2 SF.square4 (midRule 2) (midRule 1)
      !![-1, -1, 0; 1, -1, 0; 1, 1, 0; -1, 1, 0] 1 0.3 2 = some Ke ∧
    Ke *ᵥ rigid6 !![-1, -1, 0; 1, -1, 0; 1, 1, 0; -1, 1, 0] ![1, 2, 3] ![4, 5, 6] = 0 := by
  obtain ⟨Ke, h⟩ := exShell shellB2
  exact ⟨Ke, h, C63_shell2_rigid complete_square4 h _ _⟩

end Pansfem
