/-
C39, C65, C67: Navier-Stokes.  The residual is `-_Fe` of `NavierStokesTangent`.

C39 fails: the viscous cross terms `mu*dMdX(1, i)*dMdX(0, j)` and `mu*dMdX(0, i)*dMdX(1, j)` are added to
the diagonal blocks (src/FEM/Equation/NavierStokes.h:81-86) and not to the blocks coupling the two
velocities, where the residual (98-101) has them.  `NavierStokesAdjoint` has them in the right place: up
to the sign of the pressure unknowns and rows its matrix is the transpose of the Jacobian (C65).
-/
import Verif.Props.C64_Fluid
import Verif.Spec.Jacobian
import Verif.Lemmas.RealExamples
import Mathlib.Analysis.Calculus.Deriv.Pow
import Mathlib.Analysis.Calculus.Deriv.Add
import Mathlib.Analysis.Calculus.Deriv.Mul

noncomputable section

namespace Pansfem

open Matrix

variable {m n : ℕ}

/-! ### The expansion of the residual -/

section Expand
variable {K : Type} [Field K]

/-- The first-order change of the residual at an integration point. -/
def nsLin (rho mu : K) (U U' : Fin 2 → K) (dU dU' : Matrix (Fin 2) (Fin 2) K) (P' : K) (M : Fin m → K)
    (dM : Matrix (Fin 2) (Fin m) K) (N : Fin n → K) : Flu m n → K :=
  fluV
    (fun i => rho * M i * (U' 0 * dU 0 0 + U 0 * dU' 0 0 + U' 1 * dU 1 0 + U 1 * dU' 1 0)
      + 2 * mu * dM 0 i * dU' 0 0 + mu * dM 1 i * dU' 1 0 + mu * dM 1 i * dU' 0 1 - dM 0 i * P')
    (fun i => rho * M i * (U' 0 * dU 0 1 + U 0 * dU' 0 1 + U' 1 * dU 1 1 + U 1 * dU' 1 1)
      + mu * dM 0 i * dU' 1 0 + mu * dM 0 i * dU' 0 1 + 2 * mu * dM 1 i * dU' 1 1 - dM 1 i * P')
    (fun i => N i * dU' 0 0 + N i * dU' 1 1)

theorem nsTangentF_expand (rho mu s : K) (U U' : Fin 2 → K) (dU dU' : Matrix (Fin 2) (Fin 2) K)
    (P P' : K) (M : Fin m → K) (dM : Matrix (Fin 2) (Fin m) K) (N : Fin n → K) :
    nsTangentF rho mu (U + s • U') (dU + s • dU') (P + s * P') M dM N
      = nsTangentF rho mu U dU P M dM N + s • nsLin rho mu U U' dU dU' P' M dM N
        + s ^ 2 • nsTangentF rho 0 U' dU' 0 M dM 0 := by
  ext r
  rcases r with (i | i) | i <;>
    simp only [nsTangentF, nsLin, fluV, Pi.add_apply, Pi.smul_apply, Matrix.add_apply,
      Matrix.smul_apply, smul_eq_mul, Pi.zero_apply] <;> ring

/-- Nodal velocities as a matrix, as in the code. -/
def nodalM (u v : Fin m → K) : Matrix (Fin m) (Fin 2) K := Matrix.of fun i => ![u i, v i]

variable {sfu : SF K 2 m} {sfp : SF K 2 n} {ic : IC K 2} {Xp : Matrix (Fin n) (Fin 2) K}

theorem nsForce_eq [DecidableEq K] {u v : Fin m → K} {p : Fin n → K} {rho mu : K} {F : Flu m n → K}
    (h : nsTangentForce sfu sfp ic Xp (nodalM u v) p rho mu = some F) :
    F = -∑ g, measure2 sfp ic Xp g • nsTangentF rho mu ((nodalM u v)ᵀ *ᵥ sfu.N (ic.points g))
      (gradMix sfu sfp Xp (ic.points g) * nodalM u v) (p ⬝ᵥ sfp.N (ic.points g)) (sfu.N (ic.points g))
      (gradMix sfu sfp Xp (ic.points g)) (sfp.N (ic.points g)) := by
  obtain ⟨-, rfl⟩ := loopF_some.1 h
  rw [← Finset.sum_neg_distrib]
  exact Finset.sum_congr rfl fun g _ => smul_neg _ _

theorem nodalM_add (u v u' v' : Fin m → K) (s : K) :
    nodalM (u + s • u') (v + s • v') = nodalM u v + s • nodalM u' v' := by
  ext i k
  fin_cases k <;> simp [nodalM]

/-- C39: the residual in the direction of an increment: its linear part, exactly. -/
theorem nsForce_expand [DecidableEq K] {rho mu : K} {F : (Flu m n → K) → Flu m n → K}
    (h : ∀ u v p, nsTangentForce sfu sfp ic Xp (nodalM u v) p rho mu = some (F (fluV u v p)))
    (u v u' v' : Fin m → K) (p p' : Fin n → K) :
    ∃ Q, ∀ s : K, F (fluV u v p + s • fluV u' v' p') = F (fluV u v p)
      + s • -(∑ g, measure2 sfp ic Xp g • nsLin rho mu ((nodalM u v)ᵀ *ᵥ sfu.N (ic.points g))
          ((nodalM u' v')ᵀ *ᵥ sfu.N (ic.points g)) (gradMix sfu sfp Xp (ic.points g) * nodalM u v)
          (gradMix sfu sfp Xp (ic.points g) * nodalM u' v') (p' ⬝ᵥ sfp.N (ic.points g))
          (sfu.N (ic.points g)) (gradMix sfu sfp Xp (ic.points g)) (sfp.N (ic.points g)))
      + s ^ 2 • Q := by
  refine ⟨-∑ g, measure2 sfp ic Xp g • nsTangentF rho 0 ((nodalM u' v')ᵀ *ᵥ sfu.N (ic.points g))
      (gradMix sfu sfp Xp (ic.points g) * nodalM u' v') 0 (sfu.N (ic.points g))
      (gradMix sfu sfp Xp (ic.points g)) 0, fun s => ?_⟩
  have e : fluV u v p + s • fluV u' v' p' = fluV (u + s • u') (v + s • v') (p + s • p') := by
    ext r; rcases r with (i | i) | i <;> rfl
  rw [e, nsForce_eq (h _ _ _), nsForce_eq (h u v p), nodalM_add]
  simp only [Matrix.transpose_add, Matrix.transpose_smul, Matrix.add_mulVec, Matrix.smul_mulVec,
    Matrix.mul_add, Matrix.mul_smul, add_dotProduct, smul_dotProduct, smul_eq_mul, nsTangentF_expand,
    smul_add, Finset.sum_add_distrib, neg_add, smul_neg, Finset.smul_sum]
  refine congrArg₂ (· + ·) (congrArg₂ (· + ·) rfl (congrArg _ ?_)) (congrArg _ ?_) <;>
    exact Finset.sum_congr rfl fun g _ => smul_comm _ _ _

end Expand

/-! ### The Jacobian -/

theorem hasDerivAt_quadratic {E : Type} [NormedAddCommGroup E] [NormedSpace ℝ E] (a b c : E) :
    HasDerivAt (fun s : ℝ => a + s • b + s ^ 2 • c) b 0 := by
  have h1 : HasDerivAt (fun s : ℝ => s • b) ((1 : ℝ) • b) 0 := (hasDerivAt_id (0 : ℝ)).smul_const b
  have h2 : HasDerivAt (fun s : ℝ => s ^ 2 • c) (((2 : ℕ) * (0 : ℝ) ^ (2 - 1)) • c) 0 :=
    (hasDerivAt_pow 2 (0 : ℝ)).smul_const c
  have h3 := (h1.const_add a).add h2
  rw [one_smul, show (((2 : ℕ) : ℝ) * (0 : ℝ) ^ (2 - 1)) = 0 by norm_num, zero_smul, add_zero] at h3
  exact h3

section Real
variable {sfu : SF ℝ 2 m} {sfp : SF ℝ 2 n} {ic : IC ℝ 2} {Xp : Matrix (Fin n) (Fin 2) ℝ}

/-- `NavierStokesTangent` as a function of the unknowns: `_Fe` for every state. -/
def IsNsForce (sfu : SF ℝ 2 m) (sfp : SF ℝ 2 n) (ic : IC ℝ 2) (Xp : Matrix (Fin n) (Fin 2) ℝ)
    (rho mu : ℝ) (F : (Flu m n → ℝ) → Flu m n → ℝ) : Prop :=
  ∀ u v p, nsTangentForce sfu sfp ic Xp (nodalM u v) p rho mu = some (F (fluV u v p))

/-- A matrix built at the integration points is minus the Jacobian of `_Fe` when it applies the
first-order change at every point. -/
theorem isJacobian_of_lin {rho mu : ℝ} {F : (Flu m n → ℝ) → Flu m n → ℝ}
    (hF : IsNsForce sfu sfp ic Xp rho mu F) {u v : Fin m → ℝ} {p : Fin n → ℝ}
    {A : Fin ic.N → Matrix (Flu m n) (Flu m n) ℝ}
    (hA : ∀ g (u' v' : Fin m → ℝ) (p' : Fin n → ℝ), A g *ᵥ fluV u' v' p' =
      nsLin rho mu ((nodalM u v)ᵀ *ᵥ sfu.N (ic.points g)) ((nodalM u' v')ᵀ *ᵥ sfu.N (ic.points g))
        (gradMix sfu sfp Xp (ic.points g) * nodalM u v) (gradMix sfu sfp Xp (ic.points g) * nodalM u' v')
        (p' ⬝ᵥ sfp.N (ic.points g)) (sfu.N (ic.points g)) (gradMix sfu sfp Xp (ic.points g))
        (sfp.N (ic.points g))) :
    IsJacobian F (fluV u v p) (-∑ g, measure2 sfp ic Xp g • A g) := by
  intro w
  obtain ⟨u', v', p', rfl⟩ : ∃ u' v' p', w = fluV u' v' p' := ⟨_, _, _, (fluV_eta w).symm⟩
  obtain ⟨Q, hQ⟩ := nsForce_expand hF u v u' v' p p'
  simp only [hQ]
  rw [Matrix.neg_mulVec, smul_sum_mulVec]
  simp only [hA]
  exact hasDerivAt_quadratic _ _ Q

theorem nodalM_mulVec (u v : Fin m → ℝ) (M : Fin m → ℝ) :
    ((nodalM u v)ᵀ *ᵥ M) 0 = ∑ i, M i * u i ∧ ((nodalM u v)ᵀ *ᵥ M) 1 = ∑ i, M i * v i := by
  constructor <;>
  · simp only [mulVec, dotProduct, nodalM, Matrix.transpose_apply, Matrix.of_apply]
    exact Finset.sum_congr rfl fun i _ => by simp [mul_comm]

theorem mul_nodalM (u v : Fin m → ℝ) (dM : Matrix (Fin 2) (Fin m) ℝ) (k : Fin 2) :
    (dM * nodalM u v) k 0 = ∑ i, dM k i * u i ∧ (dM * nodalM u v) k 1 = ∑ i, dM k i * v i := by
  constructor <;> · rw [Matrix.mul_apply]; exact Finset.sum_congr rfl fun i _ => by simp [nodalM]

/-- The Jacobian matrix of the residual at an integration point, entry by entry. -/
def nsJacK (rho mu : ℝ) (U : Fin 2 → ℝ) (dU : Matrix (Fin 2) (Fin 2) ℝ) (M : Fin m → ℝ)
    (dM : Matrix (Fin 2) (Fin m) ℝ) (N : Fin n → ℝ) : Matrix (Flu m n) (Flu m n) ℝ :=
  fluM
    (fun i j => rho * M i * (M j * dU 0 0 + dM 0 j * U 0 + dM 1 j * U 1)
      + mu * (2 * dM 0 i * dM 0 j + dM 1 i * dM 1 j))
    (fun i j => rho * M i * M j * dU 1 0 + mu * dM 1 i * dM 0 j)
    (fun i j => rho * M i * M j * dU 0 1 + mu * dM 0 i * dM 1 j)
    (fun i j => rho * M i * (M j * dU 1 1 + dM 0 j * U 0 + dM 1 j * U 1)
      + mu * (dM 0 i * dM 0 j + 2 * dM 1 i * dM 1 j))
    (fun i j => -dM 0 i * N j) (fun i j => -dM 1 i * N j)
    (fun j i => N j * dM 0 i) (fun j i => N j * dM 1 i) (fun _ _ => 0)

theorem nsJacK_mulVec (rho mu : ℝ) (U : Fin 2 → ℝ) (dU : Matrix (Fin 2) (Fin 2) ℝ) (M : Fin m → ℝ)
    (dM : Matrix (Fin 2) (Fin m) ℝ) (N : Fin n → ℝ) (u' v' : Fin m → ℝ) (p' : Fin n → ℝ) :
    nsJacK rho mu U dU M dM N *ᵥ fluV u' v' p' = nsLin rho mu U ((nodalM u' v')ᵀ *ᵥ M) dU
      (dM * nodalM u' v') (p' ⬝ᵥ N) M dM N := by
  rw [nsJacK, fluM_mulVec, nsLin]
  have hp : p' ⬝ᵥ N = ∑ j, N j * p' j := Finset.sum_congr rfl fun j _ => mul_comm _ _
  refine fluV_congr (fun i => ?_) (fun i => ?_) (fun i => ?_) <;>
    simp only [(nodalM_mulVec u' v' M).1, (nodalM_mulVec u' v' M).2, (mul_nodalM u' v' dM _).1,
      (mul_nodalM u' v' dM _).2, hp, zero_mul, Finset.sum_const_zero, add_zero]
  · have e1 : ∑ j, -dM 0 i * N j * p' j = -(dM 0 i * ∑ j, N j * p' j) := by
      rw [Finset.mul_sum, ← Finset.sum_neg_distrib]; exact Finset.sum_congr rfl fun j _ => by ring
    rw [e1, sub_eq_add_neg]
    congr 1
    simp only [Finset.mul_sum, Finset.sum_mul, ← Finset.sum_add_distrib]
    exact Finset.sum_congr rfl fun j _ => by ring
  · have e1 : ∑ j, -dM 1 i * N j * p' j = -(dM 1 i * ∑ j, N j * p' j) := by
      rw [Finset.mul_sum, ← Finset.sum_neg_distrib]; exact Finset.sum_congr rfl fun j _ => by ring
    rw [e1, sub_eq_add_neg]
    congr 1
    simp only [Finset.mul_sum, Finset.sum_mul, ← Finset.sum_add_distrib]
    exact Finset.sum_congr rfl fun j _ => by ring
  · simp only [Finset.mul_sum, mul_assoc]

theorem isJacobian_ns {rho mu : ℝ} {F : (Flu m n → ℝ) → Flu m n → ℝ}
    (hF : IsNsForce sfu sfp ic Xp rho mu F) (u v : Fin m → ℝ) (p : Fin n → ℝ) :
    IsJacobian F (fluV u v p) (-∑ g, measure2 sfp ic Xp g • nsJacK rho mu
      ((nodalM u v)ᵀ *ᵥ sfu.N (ic.points g)) (gradMix sfu sfp Xp (ic.points g) * nodalM u v)
      (sfu.N (ic.points g)) (gradMix sfu sfp Xp (ic.points g)) (sfp.N (ic.points g))) :=
  isJacobian_of_lin hF fun g u' v' p' => nsJacK_mulVec _ _ _ _ _ _ _ _ _ _

/-- The claim of C39: minus the returned matrix is the Jacobian of the returned vector. -/
def C39_claim (sfu : SF ℝ 2 m) (sfp : SF ℝ 2 n) (ic : IC ℝ 2) (Xp : Matrix (Fin n) (Fin 2) ℝ)
    (rho mu : ℝ) : Prop :=
  ∀ (F : (Flu m n → ℝ) → Flu m n → ℝ), IsNsForce sfu sfp ic Xp rho mu F → ∀ u v p Ke,
    nsTangent sfu sfp ic Xp (nodalM u v) rho mu = some Ke → IsJacobian F (fluV u v p) (-Ke)

/-- The terms missing from the matrix of `NavierStokesTangent` (and, with the other sign, in excess). -/
def nsMissing (sfu : SF ℝ 2 m) (sfp : SF ℝ 2 n) (ic : IC ℝ 2) (Xp : Matrix (Fin n) (Fin 2) ℝ) :
    Matrix (Flu m n) (Flu m n) ℝ :=
  ∑ g, measure2 sfp ic Xp g • (
    let dM := gradMix sfu sfp Xp (ic.points g)
    fluM (fun i j => -(dM 1 i * dM 0 j)) (fun i j => dM 1 i * dM 0 j) (fun i j => dM 0 i * dM 1 j)
      (fun i j => -(dM 0 i * dM 1 j)) (fun _ _ => 0) (fun _ _ => 0) (fun _ _ => 0) (fun _ _ => 0)
      (fun _ _ => 0))

/-- C39, with the correction: the Jacobian is the matrix of `NavierStokesTangent` with the misplaced
viscous terms moved. -/
theorem C39_corrected_partial {rho mu : ℝ} {F : (Flu m n → ℝ) → Flu m n → ℝ}
    (hF : IsNsForce sfu sfp ic Xp rho mu F) (u v : Fin m → ℝ) (p : Fin n → ℝ)
    {Ke : Matrix (Flu m n) (Flu m n) ℝ}
    (h : nsTangent sfu sfp ic Xp (nodalM u v) rho mu = some Ke) :
    IsJacobian F (fluV u v p) (-(Ke + mu • nsMissing sfu sfp ic Xp)) := by
  obtain ⟨-, rfl⟩ := loopF_some.1 h
  convert isJacobian_ns hF u v p using 2
  rw [nsMissing, Finset.smul_sum, ← Finset.sum_add_distrib]
  refine Finset.sum_congr rfl fun g _ => ?_
  rw [smul_comm, ← smul_add]
  congr 1
  ext r c
  rcases r with (i | i) | i <;> rcases c with (j | j) | j <;>
    simp only [nsTangentK, nsJacK, fluM, Matrix.add_apply, Matrix.smul_apply, smul_eq_mul,
      Matrix.of_apply] <;> ring

/-- C39 without viscosity. -/
theorem C39_inviscid_partial {rho : ℝ} : C39_claim sfu sfp ic Xp rho 0 := by
  intro F hF u v p Ke h
  simpa using C39_corrected_partial hF u v p h

/-- C39 is true exactly when the misplaced terms vanish. -/
theorem C39_iff_partial {rho mu : ℝ} (hr : Regular sfp ic Xp) :
    C39_claim sfu sfp ic Xp rho mu ↔ ∀ w, mu • nsMissing sfu sfp ic Xp *ᵥ w = 0 := by
  have hF : IsNsForce sfu sfp ic Xp rho mu fun z => (nsTangentForce sfu sfp ic Xp
      (nodalM (fun i => z (.inl (.inl i))) (fun i => z (.inl (.inr i)))) (fun j => z (.inr j)) rho mu).getD
        0 := by
    intro u v p
    show nsTangentForce sfu sfp ic Xp (nodalM u v) p rho mu =
      some ((nsTangentForce sfu sfp ic Xp (nodalM u v) p rho mu).getD 0)
    have hs : ∃ F, nsTangentForce sfu sfp ic Xp (nodalM u v) p rho mu = some F := by
      unfold nsTangentForce
      exact ⟨_, loopF_some.2 ⟨hr, rfl⟩⟩
    obtain ⟨F, hF⟩ := hs
    rw [hF]; rfl
  constructor
  · intro hc w
    obtain ⟨Ke, h⟩ : ∃ Ke, nsTangent sfu sfp ic Xp (nodalM 0 0) rho mu = some Ke := by
      unfold nsTangent
      exact ⟨_, loopF_some.2 ⟨hr, rfl⟩⟩
    have h1 := hc _ hF 0 0 0 Ke h
    have h2 := C39_corrected_partial hF 0 0 0 h
    have := h1.unique h2 w
    rw [neg_add, Matrix.add_mulVec, left_eq_add, Matrix.neg_mulVec, neg_eq_zero,
      Matrix.smul_mulVec] at this
    exact this
  · intro hz F hF u v p Ke h w
    have := C39_corrected_partial hF u v p h w
    rwa [neg_add, Matrix.add_mulVec, Matrix.neg_mulVec w (mu • _), Matrix.smul_mulVec, hz w,
      neg_zero, add_zero] at this

/-! ### The adjoint -/

/-- Reversal of the sign of the pressure. -/
def flipP : Flu m n → ℝ := fluV 1 1 (-1)

/-- C65: the matrix of `NavierStokesAdjoint` is the transposed Jacobian of the residual of
`NavierStokesTangent`, with the signs of the pressure unknowns and of the continuity rows reversed. -/
theorem C65_adjoint {rho mu : ℝ} {F : (Flu m n → ℝ) → Flu m n → ℝ}
    (hF : IsNsForce sfu sfp ic Xp rho mu F) (u v : Fin m → ℝ) (p : Fin n → ℝ)
    {Ka : Matrix (Flu m n) (Flu m n) ℝ}
    (h : nsAdjoint sfu sfp ic Xp (nodalM u v) rho mu = some Ka) :
    IsJacobian F (fluV u v p) (-(diagonal flipP * Kaᵀ * diagonal flipP)) := by
  obtain ⟨-, rfl⟩ := loopF_some.1 h
  convert isJacobian_ns hF u v p using 2
  rw [Matrix.transpose_sum, Matrix.mul_sum, Matrix.sum_mul]
  refine Finset.sum_congr rfl fun g _ => ?_
  rw [Matrix.transpose_smul, Matrix.mul_smul, Matrix.smul_mul]
  congr 1
  rw [fluM_transpose]
  ext r c
  rw [Matrix.mul_diagonal, Matrix.diagonal_mul]
  rcases r with (i | i) | i <;> rcases c with (j | j) | j <;>
    simp only [nsJacK, fluM, flipP, fluV, Matrix.of_apply, Pi.one_apply, Pi.neg_apply] <;> ring

end Real

/-! ### Residual and fixed-point matrices -/

section Picard
variable {K : Type} [Field K] {sfu : SF K 2 m} {sfp : SF K 2 n} {ic : IC K 2}
  {Xp : Matrix (Fin n) (Fin 2) K}

/-- C67: `ContinuityStiffness` is skew-symmetric, so the pressure does no work. -/
theorem C67_skew [DecidableEq K] {Ce : Matrix (Flu m n) (Flu m n) K}
    (h : continuity sfu sfp ic Xp = some Ce) : Ceᵀ = -Ce := by
  obtain ⟨-, rfl⟩ := loopF_some.1 h
  rw [Matrix.transpose_sum, ← Finset.sum_neg_distrib]
  refine Finset.sum_congr rfl fun g _ => ?_
  rw [Matrix.transpose_smul, ← smul_neg, fluM_transpose]
  congr 1
  ext r c
  rcases r with (i | i) | i <;> rcases c with (j | j) | j <;>
    simp only [fluM, Matrix.of_apply, Matrix.neg_apply] <;> ring

theorem C67_no_work [DecidableEq K] [CharZero K] {Ce : Matrix (Flu m n) (Flu m n) K}
    (h : continuity sfu sfp ic Xp = some Ce) (z : Flu m n → K) : z ⬝ᵥ (Ce *ᵥ z) = 0 := by
  have h1 : z ⬝ᵥ (Ce *ᵥ z) = -(z ⬝ᵥ (Ce *ᵥ z)) := by
    conv_lhs => rw [Matrix.dotProduct_mulVec, ← Matrix.mulVec_transpose, C67_skew h, Matrix.neg_mulVec,
      neg_dotProduct, dotProduct_comm]
  exact self_eq_neg.1 h1

/-- C67: at the advection velocity `ubar = u`, the matrices of `NavierStokesStiffness` and
`ContinuityStiffness` applied to the unknowns are the residual of `NavierStokesTangent`: the fixed points
of the Picard iteration are the roots of the Newton iteration. -/
theorem C67_picard [DecidableEq K] {u v : Fin m → K} {p : Fin n → K} {rho mu : K}
    {Ke Ce : Matrix (Flu m n) (Flu m n) K} {F : Flu m n → K}
    (hK : nsStiffness sfu sfp ic Xp (nodalM u v) rho mu = some Ke)
    (hC : continuity sfu sfp ic Xp = some Ce)
    (hF : nsTangentForce sfu sfp ic Xp (nodalM u v) p rho mu = some F) :
    (Ke + Ce) *ᵥ fluV u v p = -F := by
  rw [nsForce_eq hF, neg_neg]
  obtain ⟨-, rfl⟩ := loopF_some.1 hK
  obtain ⟨-, rfl⟩ := loopF_some.1 hC
  rw [Matrix.add_mulVec, smul_sum_mulVec, smul_sum_mulVec, ← Finset.sum_add_distrib]
  refine Finset.sum_congr rfl fun g _ => ?_
  rw [← smul_add]
  congr 1
  rw [fluM_mulVec, fluM_mulVec, nsTangentF]
  have hp : p ⬝ᵥ sfp.N (ic.points g) = ∑ j, sfp.N (ic.points g) j * p j :=
    Finset.sum_congr rfl fun j _ => mul_comm _ _
  have e0 : ∀ k, (gradMix sfu sfp Xp (ic.points g) * nodalM u v) k 0 =
      ∑ i, gradMix sfu sfp Xp (ic.points g) k i * u i := fun k => by
    rw [Matrix.mul_apply]; exact Finset.sum_congr rfl fun i _ => by simp [nodalM]
  have e1 : ∀ k, (gradMix sfu sfp Xp (ic.points g) * nodalM u v) k 1 =
      ∑ i, gradMix sfu sfp Xp (ic.points g) k i * v i := fun k => by
    rw [Matrix.mul_apply]; exact Finset.sum_congr rfl fun i _ => by simp [nodalM]
  ext r
  rcases r with (i | i) | i <;>
    simp only [fluV, Pi.add_apply, hp, e0, e1, zero_mul, Finset.sum_const_zero, add_zero, zero_add]
  · rw [sub_eq_add_neg]
    simp only [Finset.mul_sum, ← Finset.sum_neg_distrib, ← Finset.sum_add_distrib]
    refine congrArg₂ (· + ·) ?_ (Finset.sum_congr rfl fun j _ => by ring)
    exact Finset.sum_congr rfl fun j _ => by ring
  · rw [sub_eq_add_neg]
    simp only [Finset.mul_sum, ← Finset.sum_neg_distrib, ← Finset.sum_add_distrib]
    refine congrArg₂ (· + ·) ?_ (Finset.sum_congr rfl fun j _ => by ring)
    exact Finset.sum_congr rfl fun j _ => by ring
  · simp only [Finset.mul_sum, ← Finset.sum_add_distrib]
    exact Finset.sum_congr rfl fun j _ => by ring

/-- C67: the continuity rows integrate the divergence: they vanish for a velocity without divergence at
the integration points. -/
theorem C67_divergence [DecidableEq K] {Ce : Matrix (Flu m n) (Flu m n) K}
    (h : continuity sfu sfp ic Xp = some Ce) (u v : Fin m → K) (p : Fin n → K) (j : Fin n) :
    (Ce *ᵥ fluV u v p) (.inr j) = ∑ g, measure2 sfp ic Xp g * (sfp.N (ic.points g) j *
      (velGrad sfu sfp Xp (ic.points g) u 0 + velGrad sfu sfp Xp (ic.points g) v 1)) := by
  obtain ⟨-, rfl⟩ := loopF_some.1 h
  rw [smul_sum_mulVec, Finset.sum_apply]
  refine Finset.sum_congr rfl fun g _ => ?_
  rw [Pi.smul_apply, smul_eq_mul, fluM_mulVec]
  congr 1
  simp only [fluV, velGrad, zero_mul, Finset.sum_const_zero, add_zero, mul_add, Finset.mul_sum, mul_assoc]

end Picard

/-! ### Cases -/

/-- C39 is false: a triangle with unit viscosity and any density. -/
theorem C39_false (rho : ℝ) :
    ¬ C39_claim (SF.triangle3 : SF ℝ 2 3) (SF.triangle3 : SF ℝ 2 3) exRuleR exTriR rho 1 := by
  rw [C39_iff_partial exTriR_regular]
  intro h
  have h1 := congrFun (h (fluV ![1, 0, 0] 0 0)) (.inl (.inl 1))
  rw [one_smul, nsMissing, smul_sum_mulVec, Finset.sum_apply] at h1
  have hG : ∀ r, gradMix (SF.triangle3 : SF ℝ 2 3) (SF.triangle3 : SF ℝ 2 3) exTriR r
      = !![1 / 2, 0, -(1 / 2); 0, 1, -1] := fun r => by
    rw [gradMix, Matrix.inv_def, exTriR_det, Matrix.adjugate_fin_two]
    ext i j
    fin_cases i <;> fin_cases j <;>
      simp [Matrix.mul_apply, Fin.sum_univ_succ, SF.triangle3, exTriR]
  simp only [hG, fluM_mulVec, measure2, exTriR_det] at h1
  change (∑ g : Fin 1, _ : ℝ) = _ at h1
  rw [Fin.sum_univ_one] at h1
  simp [fluV, Fin.sum_univ_succ, exRuleR] at h1

/-- The hypotheses of the theorems on the Jacobian are met: `_Fe` is defined for every state, and so
are both matrices. -/
example : (∃ F, IsNsForce (SF.triangle3 : SF ℝ 2 3) (SF.triangle3 : SF ℝ 2 3) exRuleR exTriR 2 3 F) ∧
    ∀ u v, (∃ Ke, nsTangent (SF.triangle3 : SF ℝ 2 3) (SF.triangle3 : SF ℝ 2 3) exRuleR exTriR
      (nodalM u v) 2 3 = some Ke) ∧
      ∃ Ka, nsAdjoint (SF.triangle3 : SF ℝ 2 3) (SF.triangle3 : SF ℝ 2 3) exRuleR exTriR
      (nodalM u v) 2 3 = some Ka := by
  refine ⟨⟨fun z => -∑ g, measure2 SF.triangle3 exRuleR exTriR g • nsTangentF 2 3
    ((nodalM (fun i => z (.inl (.inl i))) (fun i => z (.inl (.inr i))))ᵀ *ᵥ SF.triangle3.N (exRuleR.points g))
    (gradMix SF.triangle3 SF.triangle3 exTriR (exRuleR.points g) *
      nodalM (fun i => z (.inl (.inl i))) (fun i => z (.inl (.inr i))))
    ((fun j => z (.inr j)) ⬝ᵥ SF.triangle3.N (exRuleR.points g)) (SF.triangle3.N (exRuleR.points g))
    (gradMix SF.triangle3 SF.triangle3 exTriR (exRuleR.points g)) (SF.triangle3.N (exRuleR.points g)),
    fun u v p => ?_⟩, fun u v => ⟨?_, ?_⟩⟩
  · unfold nsTangentForce
    refine loopF_some.2 ⟨exTriR_regular, ?_⟩
    dsimp only
    rw [← Finset.sum_neg_distrib]
    exact Finset.sum_congr rfl fun g _ => (smul_neg _ _).symm
  · unfold nsTangent
    exact ⟨_, loopF_some.2 ⟨exTriR_regular, rfl⟩⟩
  · unfold nsAdjoint
    exact ⟨_, loopF_some.2 ⟨exTriR_regular, rfl⟩⟩

/-- A case of C67 with non-zero velocity and pressure. -/
example : ∃ Ke Ce F, nsStiffness (SF.triangle3 : SF ℚ 2 3) SF.triangle3 exRule exTri
      (nodalM ![1, 2, 0] ![0, 1, 3]) 2 3 = some Ke ∧
    continuity (SF.triangle3 : SF ℚ 2 3) SF.triangle3 exRule exTri = some Ce ∧
    nsTangentForce (SF.triangle3 : SF ℚ 2 3) SF.triangle3 exRule exTri
      (nodalM ![1, 2, 0] ![0, 1, 3]) ![1, 1, 2] 2 3 = some F ∧
    (Ke + Ce) *ᵥ fluV ![1, 2, 0] ![0, 1, 3] ![1, 1, 2] = -F := by
  obtain ⟨Ke, hK⟩ := exNs_defined (sfu := SF.triangle3) exTri_regular (nodalM ![1, 2, 0] ![0, 1, 3])
    (2 : ℚ) 3
  obtain ⟨Ce, hC⟩ : ∃ Ce, continuity (SF.triangle3 : SF ℚ 2 3) SF.triangle3 exRule exTri = some Ce := by
    unfold continuity
    exact ⟨_, loopF_some.2 ⟨exTri_regular, rfl⟩⟩
  obtain ⟨F, hF⟩ : ∃ F, nsTangentForce (SF.triangle3 : SF ℚ 2 3) SF.triangle3 exRule exTri
      (nodalM ![1, 2, 0] ![0, 1, 3]) ![1, 1, 2] 2 3 = some F := by
    unfold nsTangentForce
    exact ⟨_, loopF_some.2 ⟨exTri_regular, rfl⟩⟩
  exact ⟨Ke, Ce, F, hK, hC, hF, C67_picard hK hC hF⟩

end Pansfem
