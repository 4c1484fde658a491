/-
The element matrices of the programs with velocities and pressure in one system as integrals.
-/
import Verif.Lemmas.ProgramFlow

noncomputable section

open Matrix

namespace Pansfem

variable {m n : ℕ}

/-! ### Products of vectors -/

section
variable {K : Type} [Field K]

/-- Factors of velocity `a`. -/
def uvec (n : ℕ) (a : Fin 2) (f : Fin m → K) : Flu m n → K := if a = 0 then fluV f 0 0 else fluV 0 f 0

/-- Factors of the pressure. -/
def pvec (m : ℕ) (f : Fin n → K) : Flu m n → K := fluV 0 0 f

theorem dot_rank {ι : Type} [Fintype ι] (y r s z : ι → K) : y ⬝ᵥ (vecMulVec r s *ᵥ z) = (r ⬝ᵥ y) * (s ⬝ᵥ z) := by
  rw [Matrix.vecMulVec_mulVec, dotProduct_comm r]
  simp [dotProduct_smul, mul_comm]

theorem uvec_dot (e : List ℕ × List ℕ) (w : ℕ → ℕ → K) (a : Fin 2) (f : Fin m → K) :
    uvec n a f ⬝ᵥ mixField m n e w = interp f fun i => w (e.1[(i : ℕ)]?.getD 0) a := by
  unfold uvec mixField interp dotProduct
  rw [Fintype.sum_sum_type, Fintype.sum_sum_type]
  match a with
  | 0 => simp [fluV, mixNode, mixComp]
  | 1 => simp [fluV, mixNode, mixComp]

theorem pvec_dot (e : List ℕ × List ℕ) (w : ℕ → ℕ → K) (f : Fin n → K) :
    pvec m f ⬝ᵥ mixField m n e w = interp f fun j => w (e.2[(j : ℕ)]?.getD 0) 2 := by
  unfold pvec mixField interp dotProduct
  rw [Fintype.sum_sum_type, Fintype.sum_sum_type]
  simp [fluV, mixNode, mixComp]

theorem fluM_mass (rho : K) (M : Fin m → K) :
    fluM (n := n) (fun i j => rho * M i * M j) (fun _ _ => 0) (fun _ _ => 0) (fun i j => rho * M i * M j) (fun _ _ => 0)
      (fun _ _ => 0) (fun _ _ => 0) (fun _ _ => 0) (fun _ _ => 0) = rho • ∑ a, vecMulVec (uvec n a M) (uvec n a M) := by
  ext r c
  rw [Fin.sum_univ_two]
  rcases r with (i | i) | i <;> rcases c with (j | j) | j <;>
    simp [fluM, uvec, vecMulVec, fluV, Matrix.add_apply, Matrix.smul_apply] <;> ring

theorem fluM_ns [CharZero K] (rho mu : K) (U : Fin 2 → K) (M : Fin m → K) (dM : Matrix (Fin 2) (Fin m) K) :
    fluM (n := n) (fun i j => rho * (M i * dM 0 j * U 0 + M i * dM 1 j * U 1) + mu * (2 * dM 0 i * dM 0 j + dM 1 i * dM 1 j))
      (fun i j => mu * dM 1 i * dM 0 j) (fun i j => mu * dM 0 i * dM 1 j)
      (fun i j => rho * (M i * dM 1 j * U 1 + M i * dM 0 j * U 0) + mu * (dM 0 i * dM 0 j + 2 * dM 1 i * dM 1 j))
      (fun _ _ => 0) (fun _ _ => 0) (fun _ _ => 0) (fun _ _ => 0) (fun _ _ => 0) =
    rho • ∑ a, vecMulVec (uvec n a M) (∑ k, U k • uvec n a (dM k)) +
      (mu / 2) • ∑ a, ∑ k, vecMulVec (uvec n a (dM k) + uvec n k (dM a)) (uvec n a (dM k) + uvec n k (dM a)) := by
  ext r c
  simp only [Fin.sum_univ_two]
  rcases r with (i | i) | i <;> rcases c with (j | j) | j <;>
    simp [fluM, uvec, vecMulVec, fluV, Matrix.add_apply, Matrix.smul_apply] <;> ring

theorem fluM_continuity (N : Fin n → K) (dM : Matrix (Fin 2) (Fin m) K) :
    fluM (fun _ _ => 0) (fun _ _ => 0) (fun _ _ => 0) (fun _ _ => 0) (fun i j => -dM 0 i * N j) (fun i j => -dM 1 i * N j)
      (fun j i => N j * dM 0 i) (fun j i => N j * dM 1 i) (fun _ _ => 0) =
    vecMulVec (pvec m N) (∑ k, uvec n k (dM k)) - vecMulVec (∑ k, uvec n k (dM k)) (pvec m N) := by
  ext r c
  simp only [Fin.sum_univ_two]
  rcases r with (i | i) | i <;> rcases c with (j | j) | j <;>
    simp [fluM, uvec, pvec, vecMulVec, fluV, Matrix.sub_apply]

theorem fluM_stokes (mu : K) (N : Fin n → K) (dM : Matrix (Fin 2) (Fin m) K) :
    fluM (fun i j => 2 * mu * dM 0 i * dM 0 j + mu * dM 1 i * dM 1 j) (fun i j => mu * dM 0 i * dM 1 j)
      (fun i j => mu * dM 1 i * dM 0 j) (fun i j => mu * dM 0 i * dM 0 j + 2 * mu * dM 1 i * dM 1 j)
      (fun i j => -N j * dM 0 i) (fun i j => -N j * dM 1 i) (fun j i => -N j * dM 0 i) (fun j i => -N j * dM 1 i)
      (fun _ _ => 0) =
    mu • ((∑ a, ∑ k, vecMulVec (uvec n a (dM k)) (uvec n a (dM k))) +
      vecMulVec (∑ k, uvec n k (dM k)) (∑ k, uvec n k (dM k))) -
      vecMulVec (pvec m N) (∑ k, uvec n k (dM k)) - vecMulVec (∑ k, uvec n k (dM k)) (pvec m N) := by
  ext r c
  simp only [Fin.sum_univ_two]
  rcases r with (i | i) | i <;> rcases c with (j | j) | j <;>
    simp [fluM, uvec, pvec, vecMulVec, fluV, Matrix.sub_apply, Matrix.add_apply, Matrix.smul_apply] <;> ring

/-- The factors of the test functions of the stabilisation. -/
def testVec (U : Fin 2 → K) (dM : Matrix (Fin 2) (Fin m) K) (dN : Matrix (Fin 2) (Fin n) K) (a : Fin 2) : Flu m n → K :=
  (∑ k, U k • uvec n a (dM k)) + pvec m (dN a)

theorem fluM_supgK (rho : K) (U : Fin 2 → K) (dM : Matrix (Fin 2) (Fin m) K) (dN : Matrix (Fin 2) (Fin n) K) :
    fluM (fun i j => rho * (U 0 * U 0 * dM 0 i * dM 0 j + U 1 * U 0 * dM 1 i * dM 0 j
        + U 0 * U 1 * dM 0 i * dM 1 j + U 1 * U 1 * dM 1 i * dM 1 j))
      (fun _ _ => 0) (fun _ _ => 0)
      (fun i j => rho * (U 0 * U 0 * dM 0 i * dM 0 j + U 1 * U 0 * dM 1 i * dM 0 j
        + U 0 * U 1 * dM 0 i * dM 1 j + U 1 * U 1 * dM 1 i * dM 1 j))
      (fun _ _ => 0) (fun _ _ => 0)
      (fun j i => rho * (U 0 * dN 0 j * dM 0 i + U 1 * dN 0 j * dM 1 i))
      (fun j i => rho * (U 0 * dN 1 j * dM 0 i + U 1 * dN 1 j * dM 1 i))
      (fun _ _ => 0) = rho • ∑ a, vecMulVec (testVec U dM dN a) (∑ k, U k • uvec n a (dM k)) := by
  ext r c
  simp only [Fin.sum_univ_two]
  rcases r with (i | i) | i <;> rcases c with (j | j) | j <;>
    simp [fluM, uvec, pvec, testVec, vecMulVec, fluV, Matrix.add_apply, Matrix.smul_apply, -mul_eq_mul_left_iff] <;> ring

theorem fluM_supgM (rho : K) (U : Fin 2 → K) (M : Fin m → K) (dM : Matrix (Fin 2) (Fin m) K) (dN : Matrix (Fin 2) (Fin n) K) :
    fluM (fun i j => rho * (U 0 * dM 0 i * M j + U 1 * dM 1 i * M j))
      (fun _ _ => 0) (fun _ _ => 0)
      (fun i j => rho * (U 0 * dM 0 i * M j + U 1 * dM 1 i * M j))
      (fun _ _ => 0) (fun _ _ => 0)
      (fun j i => rho * dN 0 j * M i)
      (fun j i => rho * dN 1 j * M i)
      (fun _ _ => 0) = rho • ∑ a, vecMulVec (testVec U dM dN a) (uvec n a M) := by
  ext r c
  simp only [Fin.sum_univ_two]
  rcases r with (i | i) | i <;> rcases c with (j | j) | j <;>
    simp [fluM, uvec, pvec, testVec, vecMulVec, fluV, Matrix.add_apply, Matrix.smul_apply, -mul_eq_mul_left_iff] <;> ring

theorem fluM_supgC (U : Fin 2 → K) (dM : Matrix (Fin 2) (Fin m) K) (dN : Matrix (Fin 2) (Fin n) K) :
    fluM (fun _ _ => 0) (fun _ _ => 0) (fun _ _ => 0) (fun _ _ => 0)
      (fun j i => U 0 * dM 0 j * dN 0 i + U 1 * dM 1 j * dN 0 i)
      (fun j i => U 0 * dM 0 j * dN 1 i + U 1 * dM 1 j * dN 1 i)
      (fun _ _ => 0) (fun _ _ => 0)
      (fun i j => dN 0 i * dN 0 j + dN 1 i * dN 1 j) = ∑ a, vecMulVec (testVec U dM dN a) (pvec m (dN a)) := by
  ext r c
  simp only [Fin.sum_univ_two]
  rcases r with (i | i) | i <;> rcases c with (j | j) | j <;>
    simp [fluM, uvec, pvec, testVec, vecMulVec, fluV, Matrix.add_apply] <;> ring

end

/-! ### The element matrices -/

theorem mul_eq_of {c a b : ℝ} (h : a = b) : c * a = c * b := by rw [h]

namespace FlowMesh
variable (G : FlowMesh m n)

theorem dot_vel (e : List ℕ × List ℕ) (w : ℕ → ℕ → ℝ) (g : Fin G.ic.N) (a : Fin 2) :
    uvec n a (G.sfu.N (G.ic.points g)) ⬝ᵥ mixField m n e w = G.vel e w g a := uvec_dot e w a _

theorem dot_dvel (e : List ℕ × List ℕ) (w : ℕ → ℕ → ℝ) (g : Fin G.ic.N) (k a : Fin 2) :
    uvec n a (gradMix G.sfu G.sfp (G.coords e) (G.ic.points g) k) ⬝ᵥ mixField m n e w = G.dvel e w g k a := uvec_dot e w a _

theorem dot_pres (e : List ℕ × List ℕ) (w : ℕ → ℕ → ℝ) (g : Fin G.ic.N) :
    pvec m (G.sfp.N (G.ic.points g)) ⬝ᵥ mixField m n e w = G.pres e w g := pvec_dot e w _

theorem dot_dpres (e : List ℕ × List ℕ) (w : ℕ → ℕ → ℝ) (g : Fin G.ic.N) (k : Fin 2) :
    pvec m (gradAt G.sfp (G.coords e) (G.ic.points g) k) ⬝ᵥ mixField m n e w = G.dpres e w g k := pvec_dot e w _

theorem mass_form {rho : ℝ} {e : List ℕ × List ℕ} {A : Matrix (Flu m n) (Flu m n) ℝ}
    (h : stokesMass G.sfu G.sfp G.ic (G.coords e) rho = some A) (w v : ℕ → ℕ → ℝ) :
    mixField m n e w ⬝ᵥ (A *ᵥ mixField m n e v) = ∑ g, measure2 G.sfp G.ic (G.coords e) g *
      (rho * ∑ a : Fin 2, G.vel e w g a * G.vel e v g a) := by
  rw [loop2J_eq_some.1 h, dot_smul_sum_mulVec]
  refine Finset.sum_congr rfl fun g _ => mul_eq_of ?_
  rw [fluM_mass, Matrix.smul_mulVec, dotProduct_smul, smul_eq_mul, Matrix.sum_mulVec, dotProduct_sum]
  refine mul_eq_of (Finset.sum_congr rfl fun a _ => ?_)
  rw [dot_rank, G.dot_vel, G.dot_vel]

/-- The advection velocity at an integration point. -/
theorem vel_gather {e : List ℕ × List ℕ} {ubar : List (Vec ℝ)} {U : Matrix (Fin m) (Fin 2) ℝ}
    (h : gather ubar e.1 m 2 = some U) (g : Fin G.ic.N) :
    Uᵀ *ᵥ G.sfu.N (G.ic.points g) = fun k : Fin 2 => G.vel e (valOf ubar) g k := by
  funext k
  unfold vel interp
  simp only [Matrix.mulVec, dotProduct, Matrix.transpose_apply]
  refine Finset.sum_congr rfl fun i _ => ?_
  show _ = _ * (nodal ubar (e.1[(i : ℕ)]?.getD 0) k).getD 0
  rw [gather_entry h i k]
  exact mul_comm _ _

theorem ns_form {rho mu : ℝ} {e : List ℕ × List ℕ} {ubar : List (Vec ℝ)} {U : Matrix (Fin m) (Fin 2) ℝ}
    {A : Matrix (Flu m n) (Flu m n) ℝ} (hU : gather ubar e.1 m 2 = some U)
    (h : nsStiffness G.sfu G.sfp G.ic (G.coords e) U rho mu = some A) (w v : ℕ → ℕ → ℝ) :
    mixField m n e w ⬝ᵥ (A *ᵥ mixField m n e v) = ∑ g, measure2 G.sfp G.ic (G.coords e) g *
      (rho * (∑ a : Fin 2, G.vel e w g a * ∑ k : Fin 2, G.vel e (valOf ubar) g k * G.dvel e v g k a) +
        2 * mu * ∑ a : Fin 2, ∑ k : Fin 2,
          ((G.dvel e w g k a + G.dvel e w g a k) / 2) * ((G.dvel e v g k a + G.dvel e v g a k) / 2)) := by
  obtain ⟨-, rfl⟩ := loopF_some.1 h
  rw [dot_smul_sum_mulVec]
  refine Finset.sum_congr rfl fun g _ => mul_eq_of ?_
  show _ ⬝ᵥ (fluM _ _ _ _ _ _ _ _ _ *ᵥ _) = _
  rw [G.vel_gather hU, fluM_ns rho mu (fun k : Fin 2 => G.vel e (valOf ubar) g k) (G.sfu.N (G.ic.points g))
    (gradMix G.sfu G.sfp (G.coords e) (G.ic.points g)), Matrix.add_mulVec, dotProduct_add, Matrix.smul_mulVec, Matrix.smul_mulVec, dotProduct_smul,
    dotProduct_smul, smul_eq_mul, smul_eq_mul]
  simp only [Matrix.sum_mulVec, dotProduct_sum, dot_rank, add_dotProduct, sum_dotProduct,
    smul_dotProduct, G.dot_vel, G.dot_dvel, smul_eq_mul]
  simp only [Fin.sum_univ_two]
  ring

theorem continuity_form {e : List ℕ × List ℕ} {A : Matrix (Flu m n) (Flu m n) ℝ}
    (h : continuity G.sfu G.sfp G.ic (G.coords e) = some A) (w v : ℕ → ℕ → ℝ) :
    mixField m n e w ⬝ᵥ (A *ᵥ mixField m n e v) = ∑ g, measure2 G.sfp G.ic (G.coords e) g *
      (G.pres e w g * (∑ k : Fin 2, G.dvel e v g k k) - G.pres e v g * ∑ k : Fin 2, G.dvel e w g k k) := by
  obtain ⟨-, rfl⟩ := loopF_some.1 h
  rw [dot_smul_sum_mulVec]
  refine Finset.sum_congr rfl fun g _ => mul_eq_of ?_
  rw [fluM_continuity, Matrix.sub_mulVec, dotProduct_sub]
  simp only [dot_rank, sum_dotProduct, G.dot_dvel, G.dot_pres]
  ring

theorem stokes_form {mu : ℝ} {e : List ℕ × List ℕ} {A : Matrix (Flu m n) (Flu m n) ℝ}
    (h : stokesStiffness G.sfu G.sfp G.ic (G.coords e) mu = some A) (w v : ℕ → ℕ → ℝ) :
    mixField m n e w ⬝ᵥ (A *ᵥ mixField m n e v) = ∑ g, measure2 G.sfp G.ic (G.coords e) g *
      (mu * ((∑ a : Fin 2, ∑ k : Fin 2, G.dvel e w g k a * G.dvel e v g k a) +
        (∑ k : Fin 2, G.dvel e w g k k) * ∑ k : Fin 2, G.dvel e v g k k) -
        G.pres e v g * (∑ k : Fin 2, G.dvel e w g k k) - G.pres e w g * ∑ k : Fin 2, G.dvel e v g k k) := by
  obtain ⟨-, rfl⟩ := loopF_some.1 h
  rw [dot_smul_sum_mulVec]
  refine Finset.sum_congr rfl fun g _ => mul_eq_of ?_
  rw [fluM_stokes, Matrix.sub_mulVec, Matrix.sub_mulVec, dotProduct_sub, dotProduct_sub, Matrix.smul_mulVec, dotProduct_smul,
    smul_eq_mul, Matrix.add_mulVec, dotProduct_add]
  simp only [Matrix.sum_mulVec, dotProduct_sum, dot_rank, sum_dotProduct, G.dot_dvel,
    G.dot_pres]
  ring

/-- The test functions of the stabilisation at an integration point. -/
theorem dot_test (b w : ℕ → ℕ → ℝ) (e : List ℕ × List ℕ) (g : Fin G.ic.N) (a : Fin 2) :
    testVec (fun k : Fin 2 => G.vel e b g k) (gradMix G.sfu G.sfp (G.coords e) (G.ic.points g))
      (gradAt G.sfp (G.coords e) (G.ic.points g)) a ⬝ᵥ mixField m n e w =
      (∑ k : Fin 2, G.vel e b g k * G.dvel e w g k a) + G.dpres e w g a := by
  unfold testVec
  rw [add_dotProduct, sum_dotProduct, G.dot_dpres]
  simp only [smul_dotProduct, G.dot_dvel, smul_eq_mul]

section
variable {rho mu dt : ℝ} {e : List ℕ × List ℕ} {ubar : List (Vec ℝ)} {U : Matrix (Fin m) (Fin 2) ℝ}
  {A : Matrix (Flu m n) (Flu m n) ℝ}

/-- A loop with the stabilisation parameter. -/
theorem supg_loop (hU : gather ubar e.1 m 2 = some U)
    {B : (Fin 2 → ℝ) → (Fin m → ℝ) → Matrix (Fin 2) (Fin m) ℝ → Matrix (Fin 2) (Fin n) ℝ → Matrix (Flu m n) (Flu m n) ℝ}
    (h : loopF G.sfu G.sfp G.ic (G.coords e) (fun M dM _ dN => do
      let tau ← supgTau (Uᵀ *ᵥ M) dM (area G.sfp G.ic (G.coords e)) rho mu dt
      return tau • B (Uᵀ *ᵥ M) M dM dN) = some A) (w v : ℕ → ℕ → ℝ) :
    mixField m n e w ⬝ᵥ (A *ᵥ mixField m n e v) = ∑ g, measure2 G.sfp G.ic (G.coords e) g *
      (G.tau rho mu dt (valOf ubar) e g * (mixField m n e w ⬝ᵥ (B (fun k => G.vel e (valOf ubar) g k)
        (G.sfu.N (G.ic.points g)) (gradMix G.sfu G.sfp (G.coords e) (G.ic.points g))
        (gradAt G.sfp (G.coords e) (G.ic.points g)) *ᵥ mixField m n e v))) := by
  obtain ⟨-, V, hV, rfl⟩ := loopF_eq_some.1 h
  rw [dot_smul_sum_mulVec]
  refine Finset.sum_congr rfl fun g _ => mul_eq_of ?_
  have := hV g
  simp only [Option.bind_eq_bind, Option.bind_eq_some_iff, Option.pure_def, Option.some.injEq] at this
  obtain ⟨tau, h1, h2⟩ := this
  rw [← h2, G.vel_gather hU, Matrix.smul_mulVec, dotProduct_smul, smul_eq_mul]
  unfold FlowMesh.tau
  rw [G.vel_gather hU] at h1
  rw [h1]
  rfl

theorem supgK_form (hU : gather ubar e.1 m 2 = some U)
    (h : supgStiffness G.sfu G.sfp G.ic (G.coords e) U rho mu dt = some A) (w v : ℕ → ℕ → ℝ) :
    mixField m n e w ⬝ᵥ (A *ᵥ mixField m n e v) = ∑ g, measure2 G.sfp G.ic (G.coords e) g *
      (G.tau rho mu dt (valOf ubar) e g * (rho * ∑ a : Fin 2,
        ((∑ k : Fin 2, G.vel e (valOf ubar) g k * G.dvel e w g k a) + G.dpres e w g a) *
          ∑ k : Fin 2, G.vel e (valOf ubar) g k * G.dvel e v g k a)) := by
  rw [G.supg_loop (B := fun U _ dM dN => fluM
      (fun i j => rho * (U 0 * U 0 * dM 0 i * dM 0 j + U 1 * U 0 * dM 1 i * dM 0 j
        + U 0 * U 1 * dM 0 i * dM 1 j + U 1 * U 1 * dM 1 i * dM 1 j))
      (fun _ _ => 0) (fun _ _ => 0)
      (fun i j => rho * (U 0 * U 0 * dM 0 i * dM 0 j + U 1 * U 0 * dM 1 i * dM 0 j
        + U 0 * U 1 * dM 0 i * dM 1 j + U 1 * U 1 * dM 1 i * dM 1 j))
      (fun _ _ => 0) (fun _ _ => 0)
      (fun j i => rho * (U 0 * dN 0 j * dM 0 i + U 1 * dN 0 j * dM 1 i))
      (fun j i => rho * (U 0 * dN 1 j * dM 0 i + U 1 * dN 1 j * dM 1 i))
      (fun _ _ => 0)) hU h]
  refine Finset.sum_congr rfl fun g _ => mul_eq_of (mul_eq_of ?_)
  rw [fluM_supgK rho (fun k : Fin 2 => G.vel e (valOf ubar) g k) (gradMix G.sfu G.sfp (G.coords e) (G.ic.points g))
    (gradAt G.sfp (G.coords e) (G.ic.points g)), Matrix.smul_mulVec, dotProduct_smul, smul_eq_mul, Matrix.sum_mulVec, dotProduct_sum]
  refine mul_eq_of (Finset.sum_congr rfl fun a _ => ?_)
  rw [dot_rank, G.dot_test, sum_dotProduct]
  simp only [smul_dotProduct, G.dot_dvel, smul_eq_mul]

theorem supgM_form (hU : gather ubar e.1 m 2 = some U)
    (h : supgMass G.sfu G.sfp G.ic (G.coords e) U rho mu dt = some A) (w v : ℕ → ℕ → ℝ) :
    mixField m n e w ⬝ᵥ (A *ᵥ mixField m n e v) = ∑ g, measure2 G.sfp G.ic (G.coords e) g *
      (G.tau rho mu dt (valOf ubar) e g * (rho * ∑ a : Fin 2,
        ((∑ k : Fin 2, G.vel e (valOf ubar) g k * G.dvel e w g k a) + G.dpres e w g a) * G.vel e v g a)) := by
  rw [G.supg_loop (B := fun U M dM dN => fluM
      (fun i j => rho * (U 0 * dM 0 i * M j + U 1 * dM 1 i * M j))
      (fun _ _ => 0) (fun _ _ => 0)
      (fun i j => rho * (U 0 * dM 0 i * M j + U 1 * dM 1 i * M j))
      (fun _ _ => 0) (fun _ _ => 0)
      (fun j i => rho * dN 0 j * M i)
      (fun j i => rho * dN 1 j * M i)
      (fun _ _ => 0)) hU h]
  refine Finset.sum_congr rfl fun g _ => mul_eq_of (mul_eq_of ?_)
  rw [fluM_supgM rho (fun k : Fin 2 => G.vel e (valOf ubar) g k) (G.sfu.N (G.ic.points g))
    (gradMix G.sfu G.sfp (G.coords e) (G.ic.points g)) (gradAt G.sfp (G.coords e) (G.ic.points g)), Matrix.smul_mulVec, dotProduct_smul, smul_eq_mul, Matrix.sum_mulVec, dotProduct_sum]
  refine mul_eq_of (Finset.sum_congr rfl fun a _ => ?_)
  rw [dot_rank, G.dot_test, G.dot_vel]

theorem supgC_form (hU : gather ubar e.1 m 2 = some U)
    (h : supgContinuity G.sfu G.sfp G.ic (G.coords e) U rho mu dt = some A) (w v : ℕ → ℕ → ℝ) :
    mixField m n e w ⬝ᵥ (A *ᵥ mixField m n e v) = ∑ g, measure2 G.sfp G.ic (G.coords e) g *
      (G.tau rho mu dt (valOf ubar) e g * ∑ a : Fin 2,
        ((∑ k : Fin 2, G.vel e (valOf ubar) g k * G.dvel e w g k a) + G.dpres e w g a) * G.dpres e v g a) := by
  rw [G.supg_loop (B := fun U _ dM dN => fluM (fun _ _ => 0) (fun _ _ => 0) (fun _ _ => 0) (fun _ _ => 0)
      (fun j i => U 0 * dM 0 j * dN 0 i + U 1 * dM 1 j * dN 0 i)
      (fun j i => U 0 * dM 0 j * dN 1 i + U 1 * dM 1 j * dN 1 i)
      (fun _ _ => 0) (fun _ _ => 0)
      (fun i j => dN 0 i * dN 0 j + dN 1 i * dN 1 j)) hU h]
  refine Finset.sum_congr rfl fun g _ => mul_eq_of (mul_eq_of ?_)
  rw [fluM_supgC (fun k : Fin 2 => G.vel e (valOf ubar) g k) (gradMix G.sfu G.sfp (G.coords e) (G.ic.points g))
    (gradAt G.sfp (G.coords e) (G.ic.points g)), Matrix.sum_mulVec, dotProduct_sum]
  refine Finset.sum_congr rfl fun a _ => ?_
  rw [dot_rank, G.dot_test, G.dot_dpres]

end

/-! ### The equations element by element -/

theorem coords_gather {e : List ℕ × List ℕ} {X : Matrix (Fin n) (Fin 2) ℝ} (h : gather G.x e.2 n 2 = some X) :
    X = G.coords e := by
  ext j k
  show _ = (nodal G.x (e.2[(j : ℕ)]?.getD 0) k).getD 0
  rw [gather_entry h j k]
  rfl

theorem integral_add (f g : List ℕ × List ℕ → Fin G.ic.N → ℝ) :
    G.integral f + G.integral g = G.integral fun e i => f e i + g e i := by
  unfold integral
  rw [← List.sum_map_add]
  refine congrArg List.sum (List.map_congr_left fun e _ => ?_)
  rw [← Finset.sum_add_distrib]
  exact Finset.sum_congr rfl fun i _ => by ring

theorem integral_sub (f g : List ℕ × List ℕ → Fin G.ic.N → ℝ) :
    G.integral f - G.integral g = G.integral fun e i => f e i - g e i := by
  unfold integral
  rw [← list_sum_sub]
  refine congrArg List.sum (List.map_congr_left fun e _ => ?_)
  rw [← Finset.sum_sub_distrib]
  exact Finset.sum_congr rfl fun i _ => by ring

theorem integral_smul (c : ℝ) (f : List ℕ × List ℕ → Fin G.ic.N → ℝ) :
    c * G.integral f = G.integral fun e i => c * f e i := by
  unfold integral
  rw [list_sum_mul_left]
  refine congrArg List.sum (List.map_congr_left fun e _ => ?_)
  rw [Finset.mul_sum]
  exact Finset.sum_congr rfl fun i _ => by ring

/-- The equation of `galerkin` at an integration point. -/
def galerkinAt (rho mu dt theta : ℝ) (b : ℕ → ℕ → ℝ) (e : List ℕ × List ℕ) (u v w : ℕ → ℕ → ℝ) (g : Fin G.ic.N) : ℝ :=
  rho * (∑ a : Fin 2, G.vel e w g a * G.vel e (dt⁻¹ • (v - u)) g a) +
  rho * (∑ a : Fin 2, G.vel e w g a * ∑ k : Fin 2, G.vel e b g k * G.dvel e (theta • v + (1 - theta) • u) g k a) +
  2 * mu * (∑ a : Fin 2, ∑ k : Fin 2, ((G.dvel e w g k a + G.dvel e w g a k) / 2) *
    ((G.dvel e (theta • v + (1 - theta) • u) g k a + G.dvel e (theta • v + (1 - theta) • u) g a k) / 2)) -
  G.pres e v g * (∑ k : Fin 2, G.dvel e w g k k) + G.pres e w g * ∑ k : Fin 2, G.dvel e v g k k

theorem galerkin_eq (rho mu dt theta : ℝ) (b u v w : ℕ → ℕ → ℝ) :
    G.galerkin rho mu dt theta b u v w = G.integral fun e g => G.galerkinAt rho mu dt theta b e u v w g := by
  unfold galerkin kinetic convect viscous expand
  rw [integral_add, integral_add, integral_sub, integral_add]
  rfl

theorem vel_congr {b b' : ℕ → ℕ → ℝ} (h : ∀ a, ∀ d < 2, b a d = b' a d) (e : List ℕ × List ℕ) (g : Fin G.ic.N) (k : Fin 2) :
    G.vel e b g k = G.vel e b' g k := by
  unfold vel
  simp only [h _ k k.2]

theorem tau_congr {b b' : ℕ → ℕ → ℝ} (h : ∀ a, ∀ d < 2, b a d = b' a d) (rho mu dt : ℝ) (e : List ℕ × List ℕ)
    (g : Fin G.ic.N) : G.tau rho mu dt b e g = G.tau rho mu dt b' e g := by
  unfold tau
  simp only [G.vel_congr h]

theorem mixElemM_some {core : Matrix (Fin n) (Fin 2) ℝ → Option (Matrix (Flu m n) (Flu m n) ℝ)} {e : List ℕ × List ℕ}
    {A : Mat ℝ} {nteu ntep : List (List (ℕ × ℕ))} (h : mixElemM core e [0, 1, 2] G.x = some (A, nteu, ntep)) :
    e.1.length = m ∧ e.2.length = n ∧ (∀ a ∈ e.2, a < G.x.length) ∧ nteu = blockTable m ∧ ntep = pressTable m n ∧
      ∃ B, core (G.coords e) = some B ∧ A = mixM B := by
  unfold mixElemM at h
  split_ifs at h with h1
  rw [blocked_eq] at h
  simp only [Option.bind_eq_bind, Option.bind_some, Option.bind_eq_some_iff, Option.pure_def, Option.some.injEq,
    Prod.mk.injEq] at h
  obtain ⟨X, hX, B, hB, rfl, rfl, rfl⟩ := h
  have h2 := gather_length hX
  obtain rfl := G.coords_gather hX
  refine ⟨h1, h2, fun a ha => ?_, by rw [h1], by rw [h1, h2], B, hB, rfl⟩
  obtain ⟨j, hj, rfl⟩ := List.getElem_of_mem ha
  have := gather_entry hX ⟨j, by omega⟩ 0
  simp only [List.getElem?_eq_getElem hj, Option.getD_some] at this
  by_contra hc
  simp [nodal, List.getElem?_eq_none (Nat.not_lt.1 hc)] at this

theorem nodes_gather {e : List ℕ} {ubar : List (Vec ℝ)} {U : Matrix (Fin m) (Fin 2) ℝ}
    (h : gather ubar e m 2 = some U) {nodes : ℕ} (hb : ∀ a d, (nodal ubar a d).isSome → a < nodes) : ∀ a ∈ e, a < nodes := by
  intro a ha
  obtain ⟨j, hj, rfl⟩ := List.getElem_of_mem ha
  have := gather_entry h ⟨j, by rw [← gather_length h]; exact hj⟩ 0
  simp only [List.getElem?_eq_getElem hj, Option.getD_some] at this
  exact hb _ _ (Option.isSome_iff_exists.2 ⟨_, this⟩)

variable {rho mu dt theta : ℝ} {e : List ℕ × List ℕ} {ubar : List (Vec ℝ)} {it : FlowItem}

/-- The routines of an element of sample_navierstokes_dynamic.cpp. -/
def galerkinItem (rho mu : ℝ) (ubar : List (Vec ℝ)) (e : List ℕ × List ℕ) : Option FlowItem := do
  let U ← gather ubar e.1 m 2
  let (Ke, _) ← mixElemM (fun X => nsStiffness G.sfu G.sfp G.ic X U rho mu) e [0, 1, 2] G.x
  let (Me, _) ← mixElemM (fun X => stokesMass G.sfu G.sfp G.ic X rho) e [0, 1, 2] G.x
  let (Ce, nteu, ntep) ← mixElemM (fun X => continuity G.sfu G.sfp G.ic X) e [0, 1, 2] G.x
  return ⟨Me, Ke, some Ce, nteu, ntep, e.1, e.2⟩

theorem galerkin_sound (hb : ∀ a d, (nodal ubar a d).isSome → a < G.x.length) (h : G.galerkinItem rho mu ubar e = some it) :
    FlowSound m n G.x.length dt theta e it fun u v w => ∑ g, measure2 G.sfp G.ic (G.coords e) g *
      G.galerkinAt rho mu dt theta (valOf ubar) e u v w g := by
  unfold galerkinItem at h
  simp only [Option.bind_eq_bind, Option.bind_eq_some_iff, Option.pure_def, Option.some.injEq, Prod.exists] at h
  obtain ⟨U, hU, Ke, _, _, hK, Me, _, _, hM, Ce, nteu, ntep, hC, rfl⟩ := h
  obtain ⟨l1, l2, l3, -, -, K, hK', rfl⟩ := G.mixElemM_some hK
  obtain ⟨-, -, -, -, -, M, hM', rfl⟩ := G.mixElemM_some hM
  obtain ⟨-, -, -, rfl, rfl, C, hC', rfl⟩ := G.mixElemM_some hC
  refine ⟨l1, l2, nodes_gather hU hb, l3, M, K, some C, rfl, fun u v w => ?_⟩
  rw [G.mass_form hM', G.ns_form hU hK', Option.getD_some, G.continuity_form hC', ← Finset.sum_add_distrib,
    ← Finset.sum_add_distrib]
  refine Finset.sum_congr rfl fun g _ => ?_
  unfold galerkinAt
  ring

/-- The equation of `stabilised` at an integration point. -/
def stabilisedAt (rho mu dt theta : ℝ) (b : ℕ → ℕ → ℝ) (e : List ℕ × List ℕ) (u v w : ℕ → ℕ → ℝ) (g : Fin G.ic.N) : ℝ :=
  G.galerkinAt rho mu dt theta b e u v w g + G.tau rho mu dt b e g * ∑ a : Fin 2,
    ((∑ k : Fin 2, G.vel e b g k * G.dvel e w g k a) + G.dpres e w g a) * G.momentum rho dt theta b u v e g a

theorem stabilised_eq (rho mu dt theta : ℝ) (b u v w : ℕ → ℕ → ℝ) :
    G.stabilised rho mu dt theta b u v w = G.integral fun e g => G.stabilisedAt rho mu dt theta b e u v w g := by
  unfold stabilised
  rw [galerkin_eq, integral_add]
  rfl

/-- The routines of an element of sample_navierstokesSUPG_dynamic.cpp. -/
def supgItem (rho mu dt : ℝ) (ubar : List (Vec ℝ)) (e : List ℕ × List ℕ) : Option FlowItem := do
  let U ← gather ubar e.1 m 2
  let (Ke, _) ← mixElemM (fun X => nsStiffness G.sfu G.sfp G.ic X U rho mu) e [0, 1, 2] G.x
  let (Me, _) ← mixElemM (fun X => stokesMass G.sfu G.sfp G.ic X rho) e [0, 1, 2] G.x
  let (Ce, _) ← mixElemM (fun X => continuity G.sfu G.sfp G.ic X) e [0, 1, 2] G.x
  let (Ks, _) ← mixElemM (fun X => supgStiffness G.sfu G.sfp G.ic X U rho mu dt) e [0, 1, 2] G.x
  let (Ms, _) ← mixElemM (fun X => supgMass G.sfu G.sfp G.ic X U rho mu dt) e [0, 1, 2] G.x
  let (Cs, nteu, ntep) ← mixElemM (fun X => supgContinuity G.sfu G.sfp G.ic X U rho mu dt) e [0, 1, 2] G.x
  return ⟨← Me.add Ms, ← Ke.add Ks, some (← Ce.add Cs), nteu, ntep, e.1, e.2⟩

theorem mixM_add (A B : Matrix (Flu m n) (Flu m n) ℝ) : (mixM A).add (mixM B) = some (mixM (A + B)) := by
  rw [mixM_dense, mixM_dense, C01_mat_add]
  rfl

theorem supg_sound (hb : ∀ a d, (nodal ubar a d).isSome → a < G.x.length) (h : G.supgItem rho mu dt ubar e = some it) :
    FlowSound m n G.x.length dt theta e it fun u v w => ∑ g, measure2 G.sfp G.ic (G.coords e) g *
      G.stabilisedAt rho mu dt theta (valOf ubar) e u v w g := by
  unfold supgItem at h
  simp only [Option.bind_eq_bind, Option.bind_eq_some_iff, Option.pure_def, Option.some.injEq, Prod.exists] at h
  obtain ⟨U, hU, Ke, _, _, hK, Me, _, _, hM, Ce, _, _, hC, Ks, _, _, hKs, Ms, _, _, hMs, Cs, nteu, ntep, hCs, h⟩ := h
  obtain ⟨l1, l2, l3, -, -, K, hK', rfl⟩ := G.mixElemM_some hK
  obtain ⟨-, -, -, -, -, M, hM', rfl⟩ := G.mixElemM_some hM
  obtain ⟨-, -, -, -, -, C, hC', rfl⟩ := G.mixElemM_some hC
  obtain ⟨-, -, -, -, -, K', hK'', rfl⟩ := G.mixElemM_some hKs
  obtain ⟨-, -, -, -, -, M', hM'', rfl⟩ := G.mixElemM_some hMs
  obtain ⟨-, -, -, rfl, rfl, C', hC'', rfl⟩ := G.mixElemM_some hCs
  simp only [mixM_add, Option.some.injEq, exists_eq_left'] at h
  subst h
  refine ⟨l1, l2, nodes_gather hU hb, l3, M + M', K + K', some (C + C'), rfl, fun u v w => ?_⟩
  simp only [Matrix.add_mulVec, dotProduct_add, Option.getD_some]
  rw [G.mass_form hM', G.ns_form hU hK', G.continuity_form hC', G.supgM_form hU hM'', G.supgK_form hU hK'',
    G.supgC_form hU hC'']
  simp only [← Finset.sum_add_distrib]
  refine Finset.sum_congr rfl fun g _ => ?_
  unfold stabilisedAt galerkinAt momentum
  simp only [Fin.sum_univ_two]
  ring

/-- The equation of `stokes` at an integration point without loads. -/
def stokesAt (rho mu dt theta : ℝ) (e : List ℕ × List ℕ) (u v w : ℕ → ℕ → ℝ) (g : Fin G.ic.N) : ℝ :=
  rho * (∑ a : Fin 2, G.vel e w g a * G.vel e (dt⁻¹ • (v - u)) g a) +
  mu * ((∑ a : Fin 2, ∑ k : Fin 2, G.dvel e w g k a * G.dvel e (theta • v + (1 - theta) • u) g k a) +
    (∑ k : Fin 2, G.dvel e w g k k) * ∑ k : Fin 2, G.dvel e (theta • v + (1 - theta) • u) g k k) -
  G.pres e (theta • v + (1 - theta) • u) g * (∑ k : Fin 2, G.dvel e w g k k) -
  G.pres e w g * ∑ k : Fin 2, G.dvel e (theta • v + (1 - theta) • u) g k k

theorem stokes_eq (rho mu dt theta : ℝ) (load : (ℕ → ℕ → ℝ) → ℝ) (u v w : ℕ → ℕ → ℝ) :
    G.stokes rho mu dt theta load u v w = (G.integral fun e g => G.stokesAt rho mu dt theta e u v w g) - load w := by
  unfold stokes kinetic laplace expand
  rw [integral_add, integral_sub, integral_sub]
  rfl

/-- The routines of an element of sample_stokes_dynamic.cpp. -/
def stokesItem (rho mu : ℝ) (e : List ℕ × List ℕ) : Option FlowItem := do
  let _ ← gather G.x e.1 m 2
  let (Ke, _) ← mixElemM (fun X => stokesStiffness G.sfu G.sfp G.ic X mu) e [0, 1, 2] G.x
  let (Me, nteu, ntep) ← mixElemM (fun X => stokesMass G.sfu G.sfp G.ic X rho) e [0, 1, 2] G.x
  return ⟨Me, Ke, none, nteu, ntep, e.1, e.2⟩

theorem stokes_sound (h : G.stokesItem rho mu e = some it) :
    FlowSound m n G.x.length dt theta e it fun u v w => ∑ g, measure2 G.sfp G.ic (G.coords e) g *
      G.stokesAt rho mu dt theta e u v w g := by
  unfold stokesItem at h
  simp only [Option.bind_eq_bind, Option.bind_eq_some_iff, Option.pure_def, Option.some.injEq, Prod.exists] at h
  obtain ⟨X, hX, Ke, _, _, hK, Me, nteu, ntep, hM, rfl⟩ := h
  obtain ⟨l1, l2, l3, -, -, K, hK', rfl⟩ := G.mixElemM_some hK
  obtain ⟨-, -, -, rfl, rfl, M, hM', rfl⟩ := G.mixElemM_some hM
  refine ⟨l1, l2, nodes_gather hX (fun a d hd => ?_), l3, M, K, none, rfl, fun u v w => ?_⟩
  · by_contra hc
    simp [nodal, List.getElem?_eq_none (Nat.not_lt.1 hc)] at hd
  · rw [G.mass_form hM', G.stokes_form hK', Option.getD_none, Matrix.zero_mulVec, dotProduct_zero, add_zero,
      ← Finset.sum_add_distrib]
    refine Finset.sum_congr rfl fun g _ => ?_
    unfold stokesAt
    ring

end FlowMesh

end Pansfem
