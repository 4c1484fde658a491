/-
C18: the Lanczos process.  C19: the tridiagonal solves of inverse iteration.
-/
import Verif.Lemmas.Lanczos
import Verif.Lemmas.KrylovExamples
import Mathlib.LinearAlgebra.Matrix.Notation
import Mathlib.Tactic.NormNum
import Mathlib.Tactic.IntervalCases
import Mathlib.Tactic.Module

namespace Pansfem

variable {n : ℕ}

/-- The tridiagonal matrix with diagonal `alpha` and off-diagonals `beta`. -/
def tridiag (m : ℕ) (alpha beta : ℕ → ℝ) : Matrix (Fin m) (Fin m) ℝ :=
  Matrix.of fun i j => if (i : ℕ) = j then alpha i else if (i : ℕ) + 1 = j then beta i
    else if (j : ℕ) + 1 = i then beta j else 0

theorem lanczosProcess_inv {A : CSR ℝ} {K : Matrix (Fin n) (Fin n) ℝ} (hA : IsCSR n A K)
    (hn : n ≠ 0) {m : ℕ} {s : LanState n} (h : lanczosProcess A m = some s) :
    ∃ q0, q0 ⬝ᵥ q0 = 1 ∧ LanInv (csrMul A) m q0 m s := by
  unfold lanczosProcess at h
  obtain ⟨d, -, h⟩ := Option.bind_eq_some_iff.1 h
  obtain ⟨h1, h2⟩ := lanczos_inv (csrMul A) hn h
  exact ⟨_, unit_self h1, h2⟩

/-- **C18**: the three-term recurrence of the vectors and coefficients computed by `Lanczos`; no
symmetry is needed. -/
theorem C18_recurrence (A : CSR ℝ) (K : Matrix (Fin n) (Fin n) ℝ) (hA : IsCSR n A K) (hn : n ≠ 0)
    (m : ℕ) (s : LanState n) (h : lanczosProcess A m = some s) (j : ℕ) (hj : j + 1 < m) :
    K.mulVec (s.q j) = (if j = 0 then 0 else s.beta (j - 1) • s.q (j - 1)) + s.alpha j • s.q j
      + s.beta j • s.q (j + 1) := by
  obtain ⟨q0, -, hI⟩ := lanczosProcess_inv hA hn h
  obtain ⟨w, p, h1, h2, -, h4, h5⟩ := hI.2 j (by omega)
  rw [csrMul_eq hA] at h1
  obtain ⟨h6, h7⟩ := h5 (by omega)
  rw [Option.some.inj h1, h2, h7, smul_smul, mul_inv_cancel₀ h6, one_smul]
  rfl

/-- **C18**: the last step leaves a remainder of norm `beta`. -/
theorem C18_last (A : CSR ℝ) (K : Matrix (Fin n) (Fin n) ℝ) (hA : IsCSR n A K) (hn : n ≠ 0)
    (m : ℕ) (s : LanState n) (h : lanczosProcess A m = some s) (hm : 0 < m) :
    ∃ p, vnorm p = s.beta (m - 1) ∧ K.mulVec (s.q (m - 1))
      = (if m - 1 = 0 then 0 else s.beta (m - 1 - 1) • s.q (m - 1 - 1))
        + s.alpha (m - 1) • s.q (m - 1) + p := by
  obtain ⟨q0, -, hI⟩ := lanczosProcess_inv hA hn h
  obtain ⟨w, p, h1, h2, -, h4, -⟩ := hI.2 (m - 1) (by omega)
  rw [csrMul_eq hA] at h1
  exact ⟨p, h4.symm, by rw [Option.some.inj h1, h2]; rfl⟩

/-- **C18**: for a symmetric matrix the vectors are orthonormal. -/
theorem C18_orthonormal (A : CSR ℝ) (K : Matrix (Fin n) (Fin n) ℝ) (hA : IsCSR n A K)
    (hK : ∀ i j, K i j = K j i) (hn : n ≠ 0) (m : ℕ) (s : LanState n)
    (h : lanczosProcess A m = some s) (i j : ℕ) (hi : i < m) (hj : j < m) :
    s.q i ⬝ᵥ s.q j = if i = j then 1 else 0 := by
  obtain ⟨q0, h0, hI⟩ := lanczosProcess_inv hA hn h
  exact lan_orth hK (csrMul_eq hA) h0 (show m - 1 < m by omega)
    ⟨hI.1, fun j hj => hI.2 j (by omega)⟩ i j (by omega) (by omega)

/-- **C18**: the vectors are distinct members of an orthonormal family, so at most `n` steps can be
made without a vanishing coefficient. -/
theorem C18_at_most_n (A : CSR ℝ) (K : Matrix (Fin n) (Fin n) ℝ) (hA : IsCSR n A K)
    (hK : ∀ i j, K i j = K j i) (hn : n ≠ 0) (m : ℕ) (s : LanState n)
    (h : lanczosProcess A m = some s) : m ≤ n := by
  have ho := C18_orthonormal A K hA hK hn m s h
  refine orth_bound (P := (1 : Matrix (Fin n) (Fin n) ℝ)) (fun i j => ?_) m s.q ?_ ?_
  · rw [Matrix.one_apply, Matrix.one_apply]; simp only [eq_comm]
  · intro i j hij hj
    rw [Matrix.one_mulVec, ho i j (by omega) hj, if_neg (by omega)]
  · intro i hi
    rw [Matrix.one_mulVec, ho i i hi hi, if_pos rfl]
    exact one_ne_zero

/-- **C18**: `RestartLanczos` runs the same process: for a symmetric matrix the components it
removes are zero. -/
theorem C18_restart (A : CSR ℝ) (K : Matrix (Fin n) (Fin n) ℝ) (hA : IsCSR n A K)
    (hK : ∀ i j, K i j = K j i) (hn : n ≠ 0) (m : ℕ) :
    (restartLanczosProcess A m : Option (LanState n)) = lanczosProcess A m := by
  unfold restartLanczosProcess lanczosProcess lanczos
  cases hd : getDiagonal n A with
  | none => rfl
  | some d =>
    simp only [Option.bind_eq_bind, Option.bind_some]
    cases hq : vdiv d (vnorm d) with
    | none => rfl
    | some q0 =>
      simp only [Option.bind_some]
      obtain ⟨hne, rfl⟩ := vdiv_some hq hn
      have key : ∀ k ≤ m,
          forUpM 0 k (reLanStep (csrMul A) m)
            ⟨upd1 (fun _ => 0) 0 ((vnorm d)⁻¹ • d), fun _ => 0, fun _ => 0⟩
          = forUpM 0 k (lanStep (csrMul A) m)
            ⟨upd1 (fun _ => 0) 0 ((vnorm d)⁻¹ • d), fun _ => 0, fun _ => 0⟩ := by
        intro k hk
        induction k with
        | zero => simp [forUpM_same]
        | succ k ih =>
          rw [forUpM_succ (Nat.zero_le _), forUpM_succ (Nat.zero_le _), ih (by omega)]
          cases hs : forUpM 0 k (lanStep (csrMul A) m)
            (⟨upd1 (fun _ => 0) 0 ((vnorm d)⁻¹ • d), fun _ => 0, fun _ => 0⟩ : LanState n) with
          | none => rfl
          | some s =>
            simp only [Option.bind_some]
            have hI : LanInv (csrMul A) m ((vnorm d)⁻¹ • d) k s :=
              forUpM_inv (Nat.zero_le k) _ _ _
                (fun k s => LanInv (csrMul A) m ((vnorm d)⁻¹ • d) k s)
                ⟨by simp, fun j hj => absurd hj (Nat.not_lt_zero _)⟩
                (fun i u v _ _ hu hv => lanStep_inv (csrMul A) hn hu hv) hs
            have ho := lan_orth hK (csrMul_eq hA) (unit_self hne) (show k < m by omega) hI
            unfold reLanStep lanStep
            rw [csrMul_eq hA]
            simp only [Option.bind_eq_bind, Option.bind_some]
            rw [reorth_id]
            intro i hi
            obtain ⟨w, p, g1, g2, -, -, g5⟩ := hI.2 i (by omega)
            obtain ⟨g6, g7⟩ := g5 (by omega)
            rw [csrMul_eq hA] at g1
            rw [dotProduct_comm, dot_mulVec_symm hK, Option.some.inj g1, g2]
            have hp : p = s.beta i • s.q (i + 1) := by
              rw [g7, smul_smul, mul_inv_cancel₀ g6, one_smul]
            rw [hp, dotProduct_add, dotProduct_add, dotProduct_smul, dotProduct_smul,
              ho k i le_rfl (by omega), ho k (i + 1) le_rfl (by omega), if_neg (by omega),
              if_neg (by omega)]
            have : s.q k ⬝ᵥ prevTerm s i = 0 := by
              unfold prevTerm
              split
              · simp
              · rw [dotProduct_smul, ho k (i - 1) le_rfl (by omega), if_neg (by omega), smul_zero]
            rw [this]; simp
      exact key m le_rfl

theorem reconvert_eq (m : ℕ) (y : ℕ → ℝ) (q : ℕ → Fin n → ℝ) :
    reconvert m y q = ∑ k ∈ Finset.range m, y k • q k := by
  unfold reconvert
  refine forUp_inv (Nat.zero_le m) _ _ (fun k x => x = ∑ l ∈ Finset.range k, y l • q l)
    (by simp) ?_
  intro i t _ _ ht
  rw [Finset.sum_range_succ, ht]
  funext l
  simp [mul_comm]

/-- **C18**: what the reconstruction of an eigenvector gives.  If `(T - lambda) y = r` for the
tridiagonal matrix of the process then `A x - lambda x`, for the reconstructed `x`, is the
reconstruction of `r` plus the last component of `y` times the remainder of norm `beta`. -/
theorem C18_ritz (A : CSR ℝ) (K : Matrix (Fin n) (Fin n) ℝ) (hA : IsCSR n A K) (hn : n ≠ 0)
    (m : ℕ) (hm : 0 < m) (s : LanState n) (h : lanczosProcess A m = some s) (y r : ℕ → ℝ) (lam : ℝ)
    (hy : ∀ i < m, (s.alpha i - lam) * y i + (if i = 0 then 0 else s.beta (i - 1) * y (i - 1))
      + (if i + 1 = m then 0 else s.beta i * y (i + 1)) = r i) :
    ∃ p, vnorm p = s.beta (m - 1) ∧
      K.mulVec (reconvert m y s.q) - lam • reconvert m y s.q
        = reconvert m r s.q + y (m - 1) • p := by
  obtain ⟨p, hp, hl⟩ := C18_last A K hA hn m s h hm
  refine ⟨p, hp, ?_⟩
  simp only [reconvert_eq]
  -- value of `K q_j` for every `j`
  have hrec : ∀ j < m, K.mulVec (s.q j) = (if j = 0 then 0 else s.beta (j - 1) • s.q (j - 1))
      + s.alpha j • s.q j + (if j + 1 = m then p else s.beta j • s.q (j + 1)) := by
    intro j hj
    by_cases e : j + 1 = m
    · rw [if_pos e]
      obtain rfl : j = m - 1 := by omega
      exact hl
    · rw [if_neg e]; exact C18_recurrence A K hA hn m s h j (by omega)
  have hm' : ∃ m', m = m' + 1 := ⟨m - 1, by omega⟩
  obtain ⟨m', rfl⟩ := hm'
  have hK : K.mulVec (∑ k ∈ Finset.range (m' + 1), y k • s.q k)
      = ∑ k ∈ Finset.range (m' + 1), y k • K.mulVec (s.q k) := by
    rw [← Matrix.mulVecLin_apply, map_sum]
    simp
  rw [hK]
  have e1 : ∑ k ∈ Finset.range (m' + 1), y k • K.mulVec (s.q k)
      = (∑ k ∈ Finset.range m', (y (k + 1) * s.beta k) • s.q k)
        + (∑ k ∈ Finset.range (m' + 1), (y k * s.alpha k) • s.q k)
        + ((∑ k ∈ Finset.range m', (y k * s.beta k) • s.q (k + 1)) + y m' • p) := by
    rw [Finset.sum_congr rfl fun k hk => by rw [hrec k (Finset.mem_range.1 hk)]]
    simp only [smul_add, Finset.sum_add_distrib, smul_smul]
    congr 1
    · congr 1
      rw [Finset.sum_range_succ']
      simp [smul_smul]
    · rw [Finset.sum_range_succ, if_pos rfl]
      congr 1
      apply Finset.sum_congr rfl
      intro k hk
      have := Finset.mem_range.1 hk
      rw [if_neg (by omega), smul_smul]
  rw [e1]
  have e2 : ∑ k ∈ Finset.range (m' + 1), r k • s.q k
      = (∑ k ∈ Finset.range (m' + 1), ((s.alpha k - lam) * y k) • s.q k)
        + (∑ k ∈ Finset.range m', (s.beta k * y k) • s.q (k + 1))
        + (∑ k ∈ Finset.range m', (s.beta k * y (k + 1)) • s.q k) := by
    rw [Finset.sum_congr rfl fun k hk => by rw [← hy k (Finset.mem_range.1 hk)]]
    simp only [add_smul, Finset.sum_add_distrib]
    congr 1
    · congr 1
      rw [Finset.sum_range_succ']
      simp
    · rw [Finset.sum_range_succ, if_pos rfl, zero_smul, add_zero]
      apply Finset.sum_congr rfl
      intro k hk
      have := Finset.mem_range.1 hk
      rw [if_neg (by omega)]
  rw [e2, Nat.add_sub_cancel]
  have e3 : lam • ∑ k ∈ Finset.range (m' + 1), y k • s.q k
      = (∑ k ∈ Finset.range (m' + 1), (y k * s.alpha k) • s.q k)
        - ∑ k ∈ Finset.range (m' + 1), ((s.alpha k - lam) * y k) • s.q k := by
    rw [Finset.smul_sum, ← Finset.sum_sub_distrib]
    apply Finset.sum_congr rfl
    intro k _
    module
  rw [e3]
  have e4 : ∀ k, (y (k + 1) * s.beta k) • s.q k = (s.beta k * y (k + 1)) • s.q k := by
    intro k; rw [mul_comm]
  have e5 : ∀ k, (y k * s.beta k) • s.q (k + 1) = (s.beta k * y k) • s.q (k + 1) := by
    intro k; rw [mul_comm]
  simp only [e4, e5]
  abel

/-- The process runs for two steps on `[[1, 1], [1, 3]]`. -/
theorem lanczos_example : ∃ s : LanState 2, lanczosProcess (fullCSR !![1, 1; 1, 3]) 2 = some s := by
  have hA := fullCSR_isCSR !![(1 : ℝ), 1; 1, 3]
  have hd : getDiagonal 2 (fullCSR !![(1 : ℝ), 1; 1, 3]) = some ![1, 3] := by
    unfold getDiagonal
    rw [if_pos hA.rows, range_mapM (g := fun i : Fin 2 => !![(1 : ℝ), 1; 1, 3] i i)
      (fun i => hA.entries i i)]
    simp
    funext i; fin_cases i <;> rfl
  have hv : ![(1 : ℝ), 3] ⬝ᵥ ![1, 3] = 10 := by
    simp [dotProduct, Fin.sum_univ_two]; norm_num
  have hvn : vnorm ![(1 : ℝ), 3] ≠ 0 := by
    intro e
    have := vnorm_sq ![(1 : ℝ), 3]
    rw [e, hv] at this
    norm_num at this
  set c := (vnorm ![(1 : ℝ), 3])⁻¹ with hc
  have hc0 : c ≠ 0 := inv_ne_zero hvn
  have hcc : c * c = 1 / 10 := by
    have := vnorm_sq ![(1 : ℝ), 3]
    rw [hv] at this
    rw [hc, ← mul_inv, this]; norm_num
  unfold lanczosProcess lanczos
  rw [hd]
  have h0 : vdiv ![(1 : ℝ), 3] (vnorm ![(1 : ℝ), 3]) = some ![c, 3 * c] := by
    unfold vdiv
    rw [if_neg (by rintro ⟨h, -⟩; exact hvn h)]
    congr 1
    funext i
    fin_cases i <;> simp [hc, div_eq_mul_inv]
  simp only [Option.bind_eq_bind, Option.bind_some, h0]
  rw [forUpM_succ (Nat.zero_le 1), forUpM_succ (Nat.zero_le 0), forUpM_same]
  simp only [Option.bind_some]
  have hK : ∀ v, (!![(1 : ℝ), 1; 1, 3]).mulVec v = ![v 0 + v 1, v 0 + 3 * v 1] := by
    intro v; funext i; fin_cases i <;> simp [Matrix.mulVec, dotProduct, Fin.sum_univ_two]
  have h1 : ∃ t, lanStep (csrMul (fullCSR !![(1 : ℝ), 1; 1, 3])) 2 0
      ⟨upd1 (fun _ => 0) 0 ![c, 3 * c], fun _ => 0, fun _ => 0⟩ = some t := by
    unfold lanStep
    simp only [csrMul_eq hA, hK, upd1_self, Option.bind_eq_bind, Option.bind_some, ne_eq,
      not_true_eq_false, if_false]
    have ha : ![c, 3 * c] ⬝ᵥ ![![c, 3 * c] 0 + ![c, 3 * c] 1, ![c, 3 * c] 0 + 3 * ![c, 3 * c] 1]
        = 34 / 10 := by
      simp [dotProduct, Fin.sum_univ_two]
      linear_combination 34 * hcc
    rw [ha]
    generalize hp : ![![c, 3 * c] 0 + ![c, 3 * c] 1, ![c, 3 * c] 0 + 3 * ![c, 3 * c] 1]
      + (-(34 / 10 : ℝ)) • ![c, 3 * c] = p
    have hpn : vnorm p ≠ 0 := by
      have : p ≠ 0 := by
        intro e
        have := congrFun (hp.trans e) 0
        simp at this
        apply hc0
        linarith
      exact (vnorm_pos this).ne'
    unfold storeNext vdiv
    rw [if_pos (by norm_num), if_neg (by rintro ⟨h, -⟩; exact hpn h)]
    exact ⟨_, rfl⟩
  obtain ⟨t, ht⟩ := h1
  rw [ht]
  simp only [Option.bind_some]
  unfold lanStep
  rw [csrMul_eq hA]
  simp only [Option.bind_eq_bind, Option.bind_some, storeNext]
  rw [if_neg (by norm_num)]
  exact ⟨_, rfl⟩

example : ∃ s : LanState 2, lanczosProcess (fullCSR !![1, 1; 1, 3]) 2 = some s ∧
    s.q 0 ⬝ᵥ s.q 1 = 0 ∧ s.q 1 ⬝ᵥ s.q 1 = 1 := by
  obtain ⟨s, hs⟩ := lanczos_example
  have hsym : ∀ i j, !![(1 : ℝ), 1; 1, 3] i j = !![(1 : ℝ), 1; 1, 3] j i := by
    intro i j; fin_cases i <;> fin_cases j <;> rfl
  exact ⟨s, hs, C18_orthonormal _ _ (fullCSR_isCSR _) hsym (by norm_num) 2 s hs 0 1 (by norm_num)
    (by norm_num), C18_orthonormal _ _ (fullCSR_isCSR _) hsym (by norm_num) 2 s hs 1 1
    (by norm_num) (by norm_num)⟩

/-! ### C19 -/

theorem tridiag_mulVec (m : ℕ) (alpha beta y : ℕ → ℝ) (lam : ℝ) (i : Fin m) :
    (tridiag m alpha beta - lam • (1 : Matrix (Fin m) (Fin m) ℝ)).mulVec (fun j : Fin m => y j) i
      = (alpha i - lam) * y i + (if (i : ℕ) = 0 then 0 else beta (i - 1) * y (i - 1))
        + (if (i : ℕ) + 1 = m then 0 else beta i * y (i + 1)) := by
  rw [Matrix.sub_mulVec, Matrix.smul_mulVec, Matrix.one_mulVec]
  simp only [Pi.sub_apply, Pi.smul_apply, smul_eq_mul]
  have e : (tridiag m alpha beta).mulVec (fun j : Fin m => y j) i
      = ∑ j ∈ Finset.range m, ((if j = (i : ℕ) then alpha i * y i else 0)
        + (if j + 1 = (i : ℕ) then beta (i - 1) * y (i - 1) else 0)
        + (if j = (i : ℕ) + 1 then beta i * y (i + 1) else 0)) := by
    rw [← Fin.sum_univ_eq_sum_range (fun j => ((if j = (i : ℕ) then alpha i * y i else 0)
        + (if j + 1 = (i : ℕ) then beta (i - 1) * y (i - 1) else 0)
        + (if j = (i : ℕ) + 1 then beta i * y (i + 1) else 0)))]
    unfold Matrix.mulVec dotProduct tridiag
    apply Finset.sum_congr rfl
    intro j _
    simp only [Matrix.of_apply]
    by_cases h1 : (i : ℕ) = j
    · rw [if_pos h1, if_pos h1.symm, if_neg (by omega), if_neg (by omega), ← h1]; ring
    · rw [if_neg h1, if_neg (Ne.symm h1)]
      by_cases h2 : (i : ℕ) + 1 = j
      · rw [if_pos h2, if_neg (by omega), if_pos h2.symm, h2]; ring
      · rw [if_neg h2]
        by_cases h3 : (j : ℕ) + 1 = i
        · rw [if_pos h3, if_pos h3, if_neg (by omega), show (i : ℕ) - 1 = j by omega]; ring
        · rw [if_neg h3, if_neg h3, if_neg (Ne.symm h2)]; ring
  rw [e, Finset.sum_add_distrib, Finset.sum_add_distrib]
  have s1 : ∑ j ∈ Finset.range m, (if j = (i : ℕ) then alpha i * y i else 0) = alpha i * y i := by
    rw [Finset.sum_ite_eq', if_pos (Finset.mem_range.2 i.2)]
  have s2 : ∑ j ∈ Finset.range m, (if j + 1 = (i : ℕ) then beta (i - 1) * y (i - 1) else 0)
      = if (i : ℕ) = 0 then 0 else beta (i - 1) * y (i - 1) := by
    by_cases h : (i : ℕ) = 0
    · rw [if_pos h]
      exact Finset.sum_eq_zero fun j _ => if_neg (by omega)
    · rw [if_neg h, Finset.sum_eq_single ((i : ℕ) - 1)]
      · rw [if_pos (by omega)]
      · intro j _ hj; exact if_neg (by omega)
      · intro hj; exact absurd (Finset.mem_range.2 (by have := i.2; omega)) hj
  have s3 : ∑ j ∈ Finset.range m, (if j = (i : ℕ) + 1 then beta i * y (i + 1) else 0)
      = if (i : ℕ) + 1 = m then 0 else beta i * y (i + 1) := by
    rw [Finset.sum_ite_eq']
    have := i.2
    by_cases h : (i : ℕ) + 1 = m
    · rw [if_pos h, if_neg (by simp [h])]
    · rw [if_neg h, if_pos (Finset.mem_range.2 (by omega))]
  rw [s1, s2, s3]; ring

/-- **C19**: whenever the elimination of `InversePowerMethod` meets no zero pivot, its result solves
`(T - lambda I) y' = y`. -/
theorem C19_solve (alpha beta : ℕ → ℝ) (lam : ℝ) (m : ℕ) (hm : 0 < m) (y : ℕ → ℝ)
    (s0 s : (ℕ → ℝ) × (ℕ → ℝ)) (h : thomasFwd alpha beta lam m y s0 = some s) :
    (tridiag m alpha beta - lam • (1 : Matrix (Fin m) (Fin m) ℝ)).mulVec
      (fun j : Fin m => thomasBwd m s y j) = fun j : Fin m => y j := by
  funext i
  rw [tridiag_mulVec]
  exact thomas_solve hm h i i.2

/-- **C19**: it meets none if the pivots of Gaussian elimination do not vanish. -/
theorem C19_defined (alpha beta : ℕ → ℝ) (lam : ℝ) (m : ℕ) (hm : 0 < m) (y : ℕ → ℝ)
    (s0 : (ℕ → ℝ) × (ℕ → ℝ)) (piv : ℕ → ℝ) (h0 : piv 0 = alpha 0 - lam)
    (hs : ∀ i, i + 1 < m → piv (i + 1) * piv i = (alpha (i + 1) - lam) * piv i - beta i * beta i)
    (hne : ∀ i < m, piv i ≠ 0) : ∃ s, thomasFwd alpha beta lam m y s0 = some s :=
  thomas_total hm y s0 piv h0 hs hne

/-- **C19**: every iteration of `InversePowerMethod` turns `y` into a unit vector `y'` with
`(T - lambda I) y' = c y` for some `c > 0`. -/
theorem C19_iteration (alpha beta : ℕ → ℝ) (lam : ℝ) (m : ℕ) (hm : 0 < m)
    (st st' : (ℕ → ℝ) × ((ℕ → ℝ) × (ℕ → ℝ)))
    (h : invPowStep alpha beta lam m st = some st') :
    (∑ i ∈ Finset.range m, st'.1 i * st'.1 i = 1) ∧ ∃ c : ℝ, 0 < c ∧
      (tridiag m alpha beta - lam • (1 : Matrix (Fin m) (Fin m) ℝ)).mulVec
        (fun j : Fin m => st'.1 j) = c • fun j : Fin m => st.1 j := by
  unfold invPowStep at h
  obtain ⟨s, hs, h⟩ := Option.bind_eq_some_iff.1 h
  have hsol := C19_solve alpha beta lam m hm st.1 st.2 s hs
  set z := thomasBwd m s st.1 with hz
  set nrm := Real.sqrt (∑ i ∈ Finset.range m, z i * z i) with hnrm
  by_cases h0 : nrm = 0
  · simp only [← hz, ← hnrm, if_pos h0] at h
    cases h
  · simp only [← hz, ← hnrm, if_neg h0] at h
    obtain rfl := Option.some.inj h
    have hpos : 0 < nrm := lt_of_le_of_ne (Real.sqrt_nonneg _) (Ne.symm h0)
    refine ⟨?_, nrm⁻¹, inv_pos.2 hpos, ?_⟩
    · simp only
      have : ∀ i, z i / nrm * (z i / nrm) = (z i * z i) * (nrm * nrm)⁻¹ := by
        intro i; field_simp
      simp only [this, ← Finset.sum_mul]
      rw [hnrm, Real.mul_self_sqrt (Finset.sum_nonneg fun i _ => mul_self_nonneg _),
        mul_inv_cancel₀]
      intro e
      rw [e, Real.sqrt_zero] at hnrm
      exact h0 hnrm
    · rw [← hsol, ← Matrix.mulVec_smul]
      congr 1
      funext j
      simp [div_eq_inv_mul]

example : ∃ s, thomasFwd (fun _ => 3) (fun _ => 1) 1 3 (fun _ => 1) (fun _ => 0, fun _ => 0)
    = some s := by
  refine C19_defined _ _ _ 3 (by norm_num) _ _
    (fun i => if i = 0 then 2 else if i = 1 then 3 / 2 else 4 / 3) ?_ ?_ ?_
  · norm_num
  · intro i hi
    have hi : i < 2 := by omega
    interval_cases i <;> norm_num
  · intro i hi
    interval_cases i <;> norm_num

end Pansfem
