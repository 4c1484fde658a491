/-
C64, C32 (fluids): the viscous matrices.

`StokesStiffness` puts the products of derivatives of the off-diagonal blocks in the order
`dMdX(0, i)*dMdX(1, j)` (src/FEM/Equation/Stokes.h:60-61): its quadratic form is
`mu*(|grad u|^2 + (div u)^2)`, not the dissipation `2*mu*eps:eps`, and a rigid rotation has non-zero
forces.  `NavierStokesStiffness` has the right order.
-/
import Verif.Lemmas.Fluid
import Verif.Props.C32_Symmetry
import Verif.Props.C33_RigidMotions
import Verif.Props.C35_Splitting

noncomputable section

namespace Pansfem

open Matrix

variable {K : Type} [Field K] {m n : ℕ}
variable {sfu : SF K 2 m} {sfp : SF K 2 n} {ic : IC K 2} {Xp : Matrix (Fin n) (Fin 2) K}

/-! ### Symmetry -/

/-- C32: the Stokes matrix is symmetric. -/
theorem C32_stokes [DecidableEq K] {mu : K} {Ke : Matrix (Flu m n) (Flu m n) K}
    (h : stokesStiffness sfu sfp ic Xp mu = some Ke) : Keᵀ = Ke := by
  obtain ⟨-, rfl⟩ := loopF_some.1 h
  refine isSymm_smul_sum fun g => ?_
  rw [fluM_transpose]
  congr 1 <;> · funext i j; ring

/-- C32: the mass matrix of Stokes and Navier-Stokes is symmetric. -/
theorem C32_stokesMass {rho : K} {Me : Matrix (Flu m n) (Flu m n) K}
    (h : stokesMass sfu sfp ic Xp rho = some Me) : Meᵀ = Me := by
  rw [loop2J_eq_some.1 h]
  refine isSymm_smul_sum fun g => ?_
  rw [fluM_transpose]
  congr 1 <;> · funext i j; ring

/-- C32: the matrix of the Brinkman force is symmetric for a symmetric resistance. -/
theorem C32_brinkman {k : Matrix (Fin 2) (Fin 2) K} (hk : kᵀ = k) {Ke : Matrix (Flu m n) (Flu m n) K}
    (h : brinkman sfu sfp ic Xp k = some Ke) : Keᵀ = Ke := by
  have h01 : k 0 1 = k 1 0 := by conv_lhs => rw [← hk, Matrix.transpose_apply]
  rw [loop2J_eq_some.1 h]
  refine isSymm_smul_sum fun g => ?_
  rw [fluM_transpose]
  congr 1 <;> · funext i j; (try rw [h01]); ring

/-- C32: the matrix of the pressure equation is symmetric. -/
theorem C32_pressurePoisson [DecidableEq K] {Ke : Matrix (Fin n) (Fin n) K}
    (h : pressurePoissonK sfp ic Xp = some Ke) : Keᵀ = Ke := by
  obtain ⟨-, rfl⟩ := loop2_some.1 h
  refine isSymm_smul_sum fun g => ?_
  ext i j
  simp only [Matrix.transpose_apply, Matrix.of_apply]
  ring

/-! ### The quadratic forms -/

/-- The gradient of a velocity component at an integration point: derivative `k` of `sum_i u_i*M_i`. -/
def velGrad (sfu : SF K 2 m) (sfp : SF K 2 n) (Xp : Matrix (Fin n) (Fin 2) K) (r : Fin 2 → K)
    (u : Fin m → K) (k : Fin 2) : K :=
  ∑ i, gradMix sfu sfp Xp r k i * u i

theorem sum_mul_of {c : K} {f g u : Fin m → K} (h : ∀ j, f j = c * g j) :
    ∑ j, f j * u j = c * ∑ j, g j * u j := by
  rw [Finset.mul_sum]
  exact Finset.sum_congr rfl fun j _ => by rw [h j]; ring

theorem dot_mul_of {c : K} {f g u : Fin m → K} (h : ∀ j, f j = g j * c) :
    u ⬝ᵥ f = (∑ j, g j * u j) * c := by
  rw [Finset.sum_mul, dotProduct]
  exact Finset.sum_congr rfl fun j _ => by rw [h j]; ring

theorem dot_add_of {f g h u : Fin m → K} (e : ∀ j, f j = g j + h j) : u ⬝ᵥ f = u ⬝ᵥ g + u ⬝ᵥ h := by
  rw [show f = g + h from funext e, dotProduct_add]

/-- The rows of the viscous part of `StokesStiffness`, for velocities with zero pressure. -/
theorem C64_stokes_rows [DecidableEq K] {mu : K} {Ke : Matrix (Flu m n) (Flu m n) K}
    (h : stokesStiffness sfu sfp ic Xp mu = some Ke) (u v : Fin m → K) :
    Ke *ᵥ fluV u v 0 = ∑ g, measure2 sfp ic Xp g • (
      let D := velGrad sfu sfp Xp (ic.points g)
      let G := gradMix sfu sfp Xp (ic.points g)
      fluV (fun i => mu * (G 0 i * (2 * D u 0 + D v 1) + G 1 i * D u 1))
        (fun i => mu * (G 0 i * D v 0 + G 1 i * (D u 0 + 2 * D v 1)))
        (fun j => -(sfp.N (ic.points g) j * (D u 0 + D v 1)))) := by
  obtain ⟨-, rfl⟩ := loopF_some.1 h
  rw [smul_sum_mulVec]
  refine Finset.sum_congr rfl fun g _ => ?_
  rw [fluM_mulVec]
  congr 1
  have z : ∀ f : Fin n → K, ∑ j, f j * (0 : Fin n → K) j = 0 := fun f => by simp
  refine fluV_congr (fun i => ?_) (fun i => ?_) (fun i => ?_) <;>
  · rw [z]
    simp only [velGrad, Finset.mul_sum, add_zero, ← Finset.sum_add_distrib, ← Finset.sum_neg_distrib]
    refine Finset.sum_congr rfl fun j _ => by ring

/-- The rows of `NavierStokesStiffness` without advection, for velocities with zero pressure. -/
theorem C64_ns_rows [DecidableEq K] {rho mu : K} {Ke : Matrix (Flu m n) (Flu m n) K}
    (h : nsStiffness sfu sfp ic Xp 0 rho mu = some Ke) (u v : Fin m → K) (p : Fin n → K) :
    Ke *ᵥ fluV u v p = ∑ g, measure2 sfp ic Xp g • (
      let D := velGrad sfu sfp Xp (ic.points g)
      let G := gradMix sfu sfp Xp (ic.points g)
      fluV (fun i => mu * (G 0 i * (2 * D u 0) + G 1 i * (D u 1 + D v 0)))
        (fun i => mu * (G 0 i * (D u 1 + D v 0) + G 1 i * (2 * D v 1)))
        (fun _ => 0)) := by
  obtain ⟨-, rfl⟩ := loopF_some.1 h
  rw [smul_sum_mulVec]
  refine Finset.sum_congr rfl fun g _ => ?_
  dsimp only
  rw [fluM_mulVec]
  congr 1
  refine fluV_congr (fun i => ?_) (fun i => ?_) (fun i => ?_)
  all_goals
    simp only [velGrad, Finset.mul_sum, add_zero, zero_mul, Finset.sum_const_zero,
      ← Finset.sum_add_distrib, Matrix.transpose_zero, Matrix.zero_mulVec, Pi.zero_apply, mul_zero]
  all_goals exact Finset.sum_congr rfl fun j _ => by ring

/-- C64: the quadratic form of `StokesStiffness` for zero pressure. -/
theorem C64_stokes_form [DecidableEq K] {mu : K} {Ke : Matrix (Flu m n) (Flu m n) K}
    (h : stokesStiffness sfu sfp ic Xp mu = some Ke) (u v : Fin m → K) :
    fluV u v 0 ⬝ᵥ (Ke *ᵥ fluV u v 0) = ∑ g, measure2 sfp ic Xp g * (
      let D := velGrad sfu sfp Xp (ic.points g)
      mu * (D u 0 ^ 2 + D u 1 ^ 2 + D v 0 ^ 2 + D v 1 ^ 2 + (D u 0 + D v 1) ^ 2)) := by
  rw [C64_stokes_rows h, dotProduct_sum]
  refine Finset.sum_congr rfl fun g _ => ?_
  rw [dotProduct_smul, smul_eq_mul, fluV_dot]
  congr 1
  rw [zero_dotProduct, add_zero, dot_add_of (fun j => mul_add _ _ _), dot_add_of (fun j => mul_add _ _ _),
    dot_mul_of (fun j => mul_left_comm _ _ _), dot_mul_of (fun j => mul_left_comm _ _ _),
    dot_mul_of (fun j => mul_left_comm _ _ _), dot_mul_of (fun j => mul_left_comm _ _ _)]
  simp only [velGrad]
  ring

/-- C64: the quadratic form of `NavierStokesStiffness` without advection is the viscous dissipation
`2*mu*(e00^2 + e11^2 + 2*e01^2)` of the rate of strain. -/
theorem C64_ns_form [DecidableEq K] {rho mu : K} {Ke : Matrix (Flu m n) (Flu m n) K}
    (h : nsStiffness sfu sfp ic Xp 0 rho mu = some Ke) (u v : Fin m → K) (p : Fin n → K) :
    fluV u v p ⬝ᵥ (Ke *ᵥ fluV u v p) = ∑ g, measure2 sfp ic Xp g * (
      let D := velGrad sfu sfp Xp (ic.points g)
      mu * (2 * D u 0 ^ 2 + 2 * D v 1 ^ 2 + (D u 1 + D v 0) ^ 2)) := by
  rw [C64_ns_rows h, dotProduct_sum]
  refine Finset.sum_congr rfl fun g _ => ?_
  rw [dotProduct_smul, smul_eq_mul, fluV_dot]
  congr 1
  rw [show p ⬝ᵥ (fun _ => (0 : K)) = 0 from dotProduct_zero p, add_zero, dot_add_of (fun j => mul_add _ _ _),
    dot_add_of (fun j => mul_add _ _ _),
    dot_mul_of (fun j => mul_left_comm _ _ _), dot_mul_of (fun j => mul_left_comm _ _ _),
    dot_mul_of (fun j => mul_left_comm _ _ _), dot_mul_of (fun j => mul_left_comm _ _ _)]
  simp only [velGrad]
  ring

section Ordered
variable {K : Type} [Field K] [LinearOrder K] [IsStrictOrderedRing K]
variable {sfu : SF K 2 m} {sfp : SF K 2 n} {ic : IC K 2} {Xp : Matrix (Fin n) (Fin 2) K}

/-- C64: the viscous part of `StokesStiffness` does not produce energy. -/
theorem C64_stokes_nonneg {mu : K} (hmu : 0 ≤ mu) (hw : ∀ g, 0 ≤ measure2 sfp ic Xp g)
    {Ke : Matrix (Flu m n) (Flu m n) K} (h : stokesStiffness sfu sfp ic Xp mu = some Ke)
    (u v : Fin m → K) : 0 ≤ fluV u v 0 ⬝ᵥ (Ke *ᵥ fluV u v 0) := by
  rw [C64_stokes_form h]
  exact Finset.sum_nonneg fun g _ => mul_nonneg (hw g) (mul_nonneg hmu (by positivity))

/-- C64: the viscous part of `NavierStokesStiffness` does not produce energy. -/
theorem C64_ns_nonneg {rho mu : K} (hmu : 0 ≤ mu) (hw : ∀ g, 0 ≤ measure2 sfp ic Xp g)
    {Ke : Matrix (Flu m n) (Flu m n) K} (h : nsStiffness sfu sfp ic Xp 0 rho mu = some Ke)
    (u v : Fin m → K) (p : Fin n → K) : 0 ≤ fluV u v p ⬝ᵥ (Ke *ᵥ fluV u v p) := by
  rw [C64_ns_form h]
  exact Finset.sum_nonneg fun g _ => mul_nonneg (hw g) (mul_nonneg hmu (by positivity))

end Ordered

/-! ### Rigid velocities -/

theorem sum_gradMix (hc : Complete sfu) (r : Fin 2 → K) (k : Fin 2) :
    ∑ i, gradMix sfu sfp Xp r k i = 0 := by
  simp only [gradMix, Matrix.mul_apply]
  rw [Finset.sum_comm]
  simp only [← Finset.mul_sum, hc r, mul_zero, Finset.sum_const_zero]

/-- A uniform velocity has no gradient. -/
theorem velGrad_const (hc : Complete sfu) (r : Fin 2 → K) (a : K) (k : Fin 2) :
    velGrad sfu sfp Xp r (fun _ => a) k = 0 := by
  rw [velGrad, ← Finset.sum_mul, sum_gradMix hc, zero_mul]

/-- With the velocity nodes on the geometry of the element, the coordinates have gradient one. -/
theorem velGrad_coord {Xu : Matrix (Fin m) (Fin 2) K} {r : Fin 2 → K}
    (hX : sfu.dNdr r * Xu = sfp.dNdr r * Xp) (hr : (sfp.dNdr r * Xp).det ≠ 0) (l k : Fin 2) :
    velGrad sfu sfp Xp r (fun i => Xu i l) k = if k = l then 1 else 0 := by
  have : (gradMix sfu sfp Xp r * Xu) k l = velGrad sfu sfp Xp r (fun i => Xu i l) k := by
    rw [Matrix.mul_apply]; rfl
  rw [← this, gradMix, Matrix.mul_assoc, hX, Matrix.nonsing_inv_mul _ (isUnit_iff_ne_zero.2 hr),
    Matrix.one_apply]

/-- The rigid velocity with translation `a` and angular velocity `w`. -/
def rigidVel (Xu : Matrix (Fin m) (Fin 2) K) (a : Fin 2 → K) (w : K) : Flu m n → K :=
  fluV (fun i => a 0 - w * Xu i 1) (fun i => a 1 + w * Xu i 0) 0

theorem velGrad_rigid (hc : Complete sfu) {Xu : Matrix (Fin m) (Fin 2) K} {r : Fin 2 → K}
    (hX : sfu.dNdr r * Xu = sfp.dNdr r * Xp) (hr : (sfp.dNdr r * Xp).det ≠ 0) (a c : K) (l k : Fin 2) :
    velGrad sfu sfp Xp r (fun i => a + c * Xu i l) k = c * if k = l then 1 else 0 := by
  rw [← velGrad_coord hX hr l k, ← zero_add (c * _), ← velGrad_const (sfp := sfp) (Xp := Xp) hc r a k]
  simp only [velGrad, Finset.mul_sum, ← Finset.sum_add_distrib]
  exact Finset.sum_congr rfl fun i _ => by ring

/-- The claim of C64 for a viscous matrix: a rigid velocity has no viscous forces. -/
def NoForceOnRigid (Xu : Matrix (Fin m) (Fin 2) K) (Ke : Matrix (Flu m n) (Flu m n) K) : Prop :=
  ∀ a w, Ke *ᵥ rigidVel Xu a w = 0

/-- C64 for `NavierStokesStiffness` without advection. -/
theorem C64_ns_rigid_partial [DecidableEq K] (hc : Complete sfu) {Xu : Matrix (Fin m) (Fin 2) K}
    (hX : ∀ g, sfu.dNdr (ic.points g) * Xu = sfp.dNdr (ic.points g) * Xp) {rho mu : K}
    {Ke : Matrix (Flu m n) (Flu m n) K} (h : nsStiffness sfu sfp ic Xp 0 rho mu = some Ke) :
    NoForceOnRigid Xu Ke := by
  intro a w
  have hreg := (loopF_some.1 h).1
  rw [rigidVel, C64_ns_rows h]
  refine Finset.sum_eq_zero fun g _ => ?_
  simp only [sub_eq_add_neg, ← neg_mul]
  simp only [velGrad_rigid hc (hX g) (hreg g)]
  convert smul_zero _ using 2
  ext r
  rcases r with (i | i) | i <;> simp [fluV]

/-- C64 for `StokesStiffness`: uniform velocities have no forces (rotations do, see below). -/
theorem C64_stokes_translation_partial [DecidableEq K] (hc : Complete sfu)
    {Xu : Matrix (Fin m) (Fin 2) K} {mu : K}
    {Ke : Matrix (Flu m n) (Flu m n) K} (h : stokesStiffness sfu sfp ic Xp mu = some Ke) (a : Fin 2 → K) :
    Ke *ᵥ rigidVel Xu a 0 = 0 := by
  simp only [rigidVel, zero_mul, sub_zero, add_zero]
  rw [C64_stokes_rows h]
  refine Finset.sum_eq_zero fun g _ => ?_
  dsimp only
  simp only [velGrad_const hc]
  convert smul_zero _ using 2
  ext r
  rcases r with (i | i) | i <;> simp [fluV]

/-- C64 for `StokesStiffness`: what a rigid rotation is charged, `2*mu*w^2` per unit area. -/
theorem C64_stokes_rotation_partial [DecidableEq K] (hc : Complete sfu) {Xu : Matrix (Fin m) (Fin 2) K}
    (hX : ∀ g, sfu.dNdr (ic.points g) * Xu = sfp.dNdr (ic.points g) * Xp) {mu : K}
    {Ke : Matrix (Flu m n) (Flu m n) K} (h : stokesStiffness sfu sfp ic Xp mu = some Ke)
    (a : Fin 2 → K) (w : K) :
    (rigidVel Xu a w : Flu m n → K) ⬝ᵥ (Ke *ᵥ rigidVel Xu a w) = 2 * mu * w ^ 2 * area sfp ic Xp := by
  have hreg := (loopF_some.1 h).1
  rw [rigidVel, C64_stokes_form h, area_eq, Finset.mul_sum]
  refine Finset.sum_congr rfl fun g _ => ?_
  simp only [sub_eq_add_neg, ← neg_mul]
  simp only [velGrad_rigid hc (hX g) (hreg g)]
  simp
  ring

/-! ### Cases -/

theorem exStokes_defined {K : Type} [Field K] [DecidableEq K] {sfu : SF K 2 m} {sfp : SF K 2 n}
    {ic : IC K 2} {Xp : Matrix (Fin n) (Fin 2) K} (hr : Regular sfp ic Xp) (mu : K) :
    ∃ Ke, stokesStiffness sfu sfp ic Xp mu = some Ke := ⟨_, loopF_some.2 ⟨hr, rfl⟩⟩

theorem exNs_defined {K : Type} [Field K] [DecidableEq K] {sfu : SF K 2 m} {sfp : SF K 2 n}
    {ic : IC K 2} {Xp : Matrix (Fin n) (Fin 2) K} (hr : Regular sfp ic Xp)
    (ubar : Matrix (Fin m) (Fin 2) K) (rho mu : K) :
    ∃ Ke, nsStiffness sfu sfp ic Xp ubar rho mu = some Ke := by
  unfold nsStiffness
  exact ⟨_, loopF_some.2 ⟨hr, rfl⟩⟩

theorem exTri_area : area (SF.triangle3 : SF ℚ 2 3) exRule exTri = 1 := by
  rw [area]
  simp only [jac, exTri_det]
  show (∑ g : Fin 1, (2 : ℚ) * ![![(1 : ℚ), 1 / 2]] g 0 * ![![(1 : ℚ), 1 / 2]] g 1) = _
  simp

/-- C64 fails for `StokesStiffness`: a rotation of a triangle with unit viscosity needs forces. -/
theorem C64_stokes_false : ∃ Ke, stokesStiffness (SF.triangle3 : SF ℚ 2 3) SF.triangle3 exRule exTri 1
    = some Ke ∧ ¬ NoForceOnRigid exTri Ke := by
  obtain ⟨Ke, h⟩ := exStokes_defined (sfu := SF.triangle3) exTri_regular (1 : ℚ)
  refine ⟨Ke, h, fun hn => ?_⟩
  have := C64_stokes_rotation_partial complete_triangle3 (Xu := exTri) (fun _ => rfl) h 0 1
  rw [hn 0 1, dotProduct_zero, exTri_area] at this
  norm_num at this

/-- Six velocity nodes on the straight triangle of three pressure nodes. -/
def exTri6 : Matrix (Fin 6) (Fin 2) ℚ := !![2, 0; 0, 1; 0, 0; 1, 1 / 2; 0, 1 / 2; 1, 0]

theorem exTri6_geometry (r : Fin 2 → ℚ) :
    (SF.triangle6 : SF ℚ 2 6).dNdr r * exTri6 = (SF.triangle3 : SF ℚ 2 3).dNdr r * exTri := by
  ext k l
  fin_cases k <;> fin_cases l <;>
    simp [Matrix.mul_apply, Fin.sum_univ_succ, SF.triangle6, SF.triangle3, exTri6, exTri] <;> ring

/-- The Taylor-Hood triangle: `NavierStokesStiffness` has no force on rigid velocities. -/
example : ∃ Ke, nsStiffness (SF.triangle6 : SF ℚ 2 6) (SF.triangle3 : SF ℚ 2 3) exRule exTri 0 1 3
    = some Ke ∧ NoForceOnRigid exTri6 Ke := by
  obtain ⟨Ke, h⟩ := exNs_defined (sfu := SF.triangle6) exTri_regular 0 (1 : ℚ) 3
  exact ⟨Ke, h, C64_ns_rigid_partial complete_triangle6 (fun g => exTri6_geometry _) h⟩

/-- and `StokesStiffness` is symmetric, without negative energies. -/
example : ∃ Ke, stokesStiffness (SF.triangle6 : SF ℚ 2 6) (SF.triangle3 : SF ℚ 2 3) exRule exTri 3
    = some Ke ∧ Keᵀ = Ke ∧ ∀ u v, 0 ≤ fluV u v 0 ⬝ᵥ (Ke *ᵥ fluV u v 0) := by
  obtain ⟨Ke, h⟩ := exStokes_defined (sfu := SF.triangle6) exTri_regular (3 : ℚ)
  refine ⟨Ke, h, C32_stokes h, C64_stokes_nonneg (by norm_num) (fun g => ?_) h⟩
  obtain rfl : g = ⟨0, Nat.one_pos⟩ := Subsingleton.elim (α := Fin 1) _ _
  rw [measure2, exTri_det]
  simp [exRule]

end Pansfem
