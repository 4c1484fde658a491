/-
Helper lemmas for the iterative solvers.
-/
import Verif.Spec.Krylov
import Verif.Props.C07_SparseOps
import Mathlib.LinearAlgebra.Matrix.DotProduct
import Mathlib.LinearAlgebra.LinearIndependent.Basic
import Mathlib.LinearAlgebra.Dimension.StrongRankCondition
import Mathlib.LinearAlgebra.Dimension.Constructions
import Mathlib.Tactic.LinearCombination
import Mathlib.Tactic.FieldSimp
import Mathlib.LinearAlgebra.Dimension.Finite
import Mathlib.LinearAlgebra.FiniteDimensional.Basic
import Mathlib.Tactic.Module

namespace Pansfem

variable {n : ℕ}

theorem csrMul_eq {A : CSR ℝ} {M : Matrix (Fin n) (Fin n) ℝ} (h : IsCSR n A M) (v : Fin n → ℝ) :
    csrMul A v = some (M.mulVec v) := by
  obtain ⟨hwf, hinb, hr, hc, he⟩ := h
  have key := C08_csr_mulVec A hwf hinb (fun j => v (Fin.cast hc j))
  have e : (List.ofFn fun j => v (Fin.cast hc j)) = List.ofFn v := by
    rw [List.ofFn_inj']
    subst hc
    rfl
  rw [e] at key
  unfold csrMul
  rw [key]
  simp only [Option.bind_eq_bind, Option.bind_some]
  rw [dif_pos (by simp [hr])]
  congr 1
  funext i
  simp only [List.getElem_ofFn]
  unfold Matrix.mulVec dotProduct
  subst hr
  have : ∀ j : Fin A.cols, A.toMatrix i j = M i (Fin.cast hc j) := by
    intro j
    have := he i (Fin.cast hc j)
    simp only [Fin.val_cast] at this
    simp [CSR.toMatrix, this]
  simp only [Fin.eta, this]
  exact Fintype.sum_equiv (finCongr hc) _ _ fun j => rfl

theorem sdivide_some {a b c : ℝ} (h : sdivide a b = some c) : b ≠ 0 ∧ c = a / b := by
  unfold sdivide at h
  split at h
  · exact absurd h (by simp)
  · next hb => exact ⟨hb, (Option.some.inj h).symm⟩

theorem sdivide_eq {a b : ℝ} (h : b ≠ 0) : sdivide a b = some (a / b) := by
  unfold sdivide; rw [if_neg h]

/-! ### Residual identities of single steps -/

theorem pcgStep_residual {A : CSR ℝ} {K : Matrix (Fin n) (Fin n) ℝ} (hA : IsCSR n A K)
    (M : (Fin n → ℝ) → Option (Fin n → ℝ)) (b : Fin n → ℝ) {s t : CGState n}
    (hs : s.r = b - K.mulVec s.x) (ht : pcgStep A M s = some t) : t.r = b - K.mulVec t.x := by
  unfold pcgStep at ht
  simp only [csrMul_eq hA, Option.bind_eq_bind, Option.bind_some, Option.bind_eq_some_iff] at ht
  obtain ⟨alpha, -, Mr, -, beta, -, ht⟩ := ht
  rw [← Option.some.inj ht]
  simp only [Matrix.mulVec_add, Matrix.mulVec_smul, hs]
  module

theorem cgStep_residual {A : CSR ℝ} {K : Matrix (Fin n) (Fin n) ℝ} (hA : IsCSR n A K)
    (b : Fin n → ℝ) {s t : CGState n}
    (hs : s.r = b - K.mulVec s.x) (ht : cgStep A s = some t) :
    t.r = b - K.mulVec t.x ∧ t.rr = t.r ⬝ᵥ t.r := by
  unfold cgStep at ht
  simp only [csrMul_eq hA, Option.bind_eq_bind, Option.bind_some, Option.bind_eq_some_iff] at ht
  obtain ⟨alpha, -, beta, -, ht⟩ := ht
  rw [← Option.some.inj ht]
  refine ⟨?_, rfl⟩
  simp only [Matrix.mulVec_add, Matrix.mulVec_smul, hs]
  module

theorem biStep_residual {A : CSR ℝ} {K : Matrix (Fin n) (Fin n) ℝ} (hA : IsCSR n A K)
    (b : Fin n → ℝ) {s t : BiState n}
    (hs : s.r = b - K.mulVec s.x) (ht : biStep A s = some t) : t.r = b - K.mulVec t.x := by
  unfold biStep at ht
  simp only [csrMul_eq hA, Option.bind_eq_bind, Option.bind_some, Option.bind_eq_some_iff] at ht
  obtain ⟨alpha, -, omega, -, ao, -, beta, -, ht⟩ := ht
  rw [← Option.some.inj ht]
  simp only [Matrix.mulVec_add, Matrix.mulVec_smul, hs]
  module

theorem pbiStep_residual {A : CSR ℝ} {K : Matrix (Fin n) (Fin n) ℝ} (hA : IsCSR n A K)
    (M : (Fin n → ℝ) → Option (Fin n → ℝ)) (b : Fin n → ℝ) {s t : BiState n}
    (hs : s.r = b - K.mulVec s.x) (ht : pbiStep A M s = some t) : t.r = b - K.mulVec t.x := by
  unfold pbiStep at ht
  simp only [csrMul_eq hA, Option.bind_eq_bind, Option.bind_some, Option.bind_eq_some_iff] at ht
  obtain ⟨Mp, -, alpha, -, Ms, -, omega, -, ao, -, beta, -, ht⟩ := ht
  rw [← Option.some.inj ht]
  simp only [Matrix.mulVec_add, Matrix.mulVec_smul, hs]
  module

/-- Invariant of `BiCGSTAB2`: besides the residual, after the first iteration the auxiliary vectors
satisfy `A z = t - r` and `w = A t + beta A p`. -/
structure Bi2Inv (K : Matrix (Fin n) (Fin n) ℝ) (b : Fin n → ℝ) (k : ℕ) (s : Bi2State n) :
    Prop where
  res : s.r = b - K.mulVec s.x
  z : k ≠ 0 → K.mulVec s.z = s.tm - s.r
  w : k ≠ 0 → s.w = K.mulVec s.tm + s.beta • K.mulVec s.p

theorem bi2Step_inv {A : CSR ℝ} {K : Matrix (Fin n) (Fin n) ℝ} (hA : IsCSR n A K)
    (b : Fin n → ℝ) {k : ℕ} {s t : Bi2State n}
    (hs : Bi2Inv K b k s) (ht : bi2Step A k s = some t) : Bi2Inv K b (k + 1) t := by
  unfold bi2Step at ht
  simp only [csrMul_eq hA, Option.bind_eq_bind, Option.bind_some, Option.bind_eq_some_iff] at ht
  obtain ⟨alpha, -, ⟨zeta, ita⟩, hco, beta, -, ht⟩ := ht
  have hita : k = 0 → ita = 0 := by
    rintro rfl
    unfold bi2Coef at hco
    simp only [Nat.zero_mod, if_true, Option.bind_eq_bind, Option.bind_eq_some_iff] at hco
    obtain ⟨z, -, hz⟩ := hco
    exact ((Prod.mk.inj (Option.some.inj hz)).2).symm
  rw [← Option.some.inj ht]
  obtain ⟨hr, hz, hw⟩ := hs
  have key : ita • (K.mulVec s.z) = ita • (s.tm - s.r) ∧
      ita • s.w = ita • (K.mulVec s.tm + s.beta • K.mulVec s.p) := by
    by_cases hk : k = 0
    · rw [hita hk]; simp
    · rw [hz hk, hw hk]; exact ⟨rfl, rfl⟩
  obtain ⟨k1, k2⟩ := key
  refine ⟨?_, fun _ => ?_, fun _ => ?_⟩
  · funext i
    have e1 := congrFun k1 i
    have e2 := congrFun k2 i
    have e3 := congrFun hr i
    simp only [Matrix.mulVec_add, Matrix.mulVec_smul, Matrix.mulVec_sub, Pi.add_apply,
      Pi.sub_apply, Pi.smul_apply, smul_eq_mul] at e1 e2 e3 ⊢
    linear_combination e3 + e1 + alpha * e2
  · funext i
    have e1 := congrFun k1 i
    have e2 := congrFun k2 i
    simp only [Matrix.mulVec_add, Matrix.mulVec_smul, Matrix.mulVec_sub, Pi.add_apply,
      Pi.sub_apply, Pi.smul_apply, smul_eq_mul] at e1 e2 ⊢
    linear_combination e1 + alpha * e2
  · simp

/-! ### Conjugacy -/

theorem dot_mulVec_symm {K : Matrix (Fin n) (Fin n) ℝ} (h : ∀ i j, K i j = K j i)
    (u v : Fin n → ℝ) : u ⬝ᵥ K.mulVec v = v ⬝ᵥ K.mulVec u := by
  have : K.transpose = K := by ext i j; exact h j i
  rw [Matrix.dotProduct_mulVec, ← Matrix.mulVec_transpose, this, dotProduct_comm]

/-- History of a preconditioned CG run of `k` steps: residuals `r 0 .. r k`, directions
`p 0 .. p k`. -/
structure PCGHist (K P : Matrix (Fin n) (Fin n) ℝ) (k : ℕ) (r p : ℕ → Fin n → ℝ) : Prop where
  p0 : p 0 = P.mulVec (r 0)
  rrec : ∀ j, j < k → ∃ α : ℝ, α ≠ 0 ∧ r (j + 1) = r j - α • K.mulVec (p j)
  prec : ∀ j, j < k → ∃ β : ℝ, p (j + 1) = P.mulVec (r (j + 1)) + β • p j
  orth : ∀ i j, i < j → j ≤ k → r i ⬝ᵥ P.mulVec (r j) = 0
  conj : ∀ i j, i < j → j ≤ k → p i ⬝ᵥ K.mulVec (p j) = 0
  pr : ∀ i, i < k → p i ⬝ᵥ r k = 0
  prk : p k ⬝ᵥ r k = r k ⬝ᵥ P.mulVec (r k)

theorem PCGHist.step {K P : Matrix (Fin n) (Fin n) ℝ} (hK : ∀ i j, K i j = K j i)
    (hP : ∀ i j, P i j = P j i) {k : ℕ} {r p : ℕ → Fin n → ℝ} (h : PCGHist K P k r p)
    (hr : r k ⬝ᵥ P.mulVec (r k) ≠ 0) (hp : p k ⬝ᵥ K.mulVec (p k) ≠ 0)
    (hr' : r (k + 1) = r k - ((r k ⬝ᵥ P.mulVec (r k)) / (p k ⬝ᵥ K.mulVec (p k))) • K.mulVec (p k))
    (hp' : p (k + 1) = P.mulVec (r (k + 1))
      + ((r (k + 1) ⬝ᵥ P.mulVec (r (k + 1))) / (r k ⬝ᵥ P.mulVec (r k))) • p k) :
    PCGHist K P (k + 1) r p := by
  set α := (r k ⬝ᵥ P.mulVec (r k)) / (p k ⬝ᵥ K.mulVec (p k)) with hα
  set β := (r (k + 1) ⬝ᵥ P.mulVec (r (k + 1))) / (r k ⬝ᵥ P.mulVec (r k)) with hβ
  have hα0 : α ≠ 0 := div_ne_zero hr hp
  have hαp : α * (p k ⬝ᵥ K.mulVec (p k)) = r k ⬝ᵥ P.mulVec (r k) := by rw [hα]; field_simp
  have hβr : β * (r k ⬝ᵥ P.mulVec (r k)) = r (k + 1) ⬝ᵥ P.mulVec (r (k + 1)) := by
    rw [hβ]; field_simp
  have rrec : ∀ j, j < k + 1 → ∃ α : ℝ, α ≠ 0 ∧ r (j + 1) = r j - α • K.mulVec (p j) := by
    intro j hj
    rcases Nat.lt_succ_iff_lt_or_eq.1 hj with hlt | rfl
    · exact h.rrec j hlt
    · exact ⟨α, hα0, hr'⟩
  have prec : ∀ j, j < k + 1 → ∃ β : ℝ, p (j + 1) = P.mulVec (r (j + 1)) + β • p j := by
    intro j hj
    rcases Nat.lt_succ_iff_lt_or_eq.1 hj with hlt | rfl
    · exact h.prec j hlt
    · exact ⟨β, hp'⟩
  -- directions against the new residual
  have pr : ∀ i, i < k + 1 → p i ⬝ᵥ r (k + 1) = 0 := by
    intro i hi
    rw [hr', dotProduct_sub, dotProduct_smul, smul_eq_mul]
    rcases Nat.lt_succ_iff_lt_or_eq.1 hi with hlt | rfl
    · rw [h.pr i hlt, h.conj i k hlt le_rfl]; ring
    · rw [h.prk, hαp]; ring
  -- `(K p_k) · (P r_i)` vanishes for `i < k`, and is `p_k K p_k` for `i = k`
  have zi : ∀ i, i ≤ k → P.mulVec (r i) ⬝ᵥ K.mulVec (p k)
      = if i = k then p k ⬝ᵥ K.mulVec (p k) else 0 := by
    intro i hi
    have hpi : ∃ q : Fin n → ℝ, P.mulVec (r i) = p i - q ∧ q ⬝ᵥ K.mulVec (p k) = 0 := by
      cases i with
      | zero => exact ⟨0, by rw [h.p0]; simp, by simp⟩
      | succ j =>
        obtain ⟨b, hb⟩ := h.prec j (by omega)
        exact ⟨b • p j, by rw [hb]; simp, by
          rw [smul_dotProduct, h.conj j k (by omega) le_rfl, smul_zero]⟩
    obtain ⟨q, hq1, hq2⟩ := hpi
    rw [hq1, sub_dotProduct, hq2, sub_zero]
    split
    · next e => rw [e]
    · exact h.conj i k (by omega) le_rfl
  have newres : ∀ i, i ≤ k → r (k + 1) ⬝ᵥ P.mulVec (r i) = 0 := by
    intro i hi
    rw [hr', sub_dotProduct, smul_dotProduct, dotProduct_comm (K.mulVec (p k)), zi i hi,
      smul_eq_mul]
    split
    · next e => subst e; rw [hαp]; ring
    · next e =>
      rw [dot_mulVec_symm hP, h.orth i k (by omega) le_rfl]; ring
  have orth : ∀ i j, i < j → j ≤ k + 1 → r i ⬝ᵥ P.mulVec (r j) = 0 := by
    intro i j hij hj
    rcases Nat.lt_or_ge j (k + 1) with hlt | hge
    · exact h.orth i j hij (by omega)
    · have : j = k + 1 := by omega
      subst this
      rw [dot_mulVec_symm hP]; exact newres i (by omega)
  have conj : ∀ i j, i < j → j ≤ k + 1 → p i ⬝ᵥ K.mulVec (p j) = 0 := by
    intro i j hij hj
    rcases Nat.lt_or_ge j (k + 1) with hlt | hge
    · exact h.conj i j hij (by omega)
    · have : j = k + 1 := by omega
      subst this
      obtain ⟨a, ha, hra⟩ := rrec i hij
      -- K p_i = (r_i - r_{i+1}) / a
      have hKp : K.mulVec (p i) = a⁻¹ • (r i - r (i + 1)) := by
        rw [hra]; simp [smul_smul, inv_mul_cancel₀ ha]
      rw [dot_mulVec_symm hK, hp', add_dotProduct, smul_dotProduct, smul_eq_mul]
      rcases Nat.lt_succ_iff_lt_or_eq.1 hij with hlt | rfl
      · rw [hKp, dotProduct_smul, dotProduct_sub, dotProduct_comm _ (r i),
          dotProduct_comm _ (r (i + 1)), orth i (k + 1) (by omega) le_rfl,
          orth (i + 1) (k + 1) (by omega) le_rfl, ← hKp, dot_mulVec_symm hK,
          h.conj i k hlt le_rfl]
        simp
      · have e1 : α * (P.mulVec (r (i + 1)) ⬝ᵥ K.mulVec (p i))
            = - (r (i + 1) ⬝ᵥ P.mulVec (r (i + 1))) := by
          have : α • K.mulVec (p i) = r i - r (i + 1) := by rw [hr']; simp
          rw [← smul_eq_mul, ← dotProduct_smul, this, dotProduct_sub, dotProduct_comm _ (r i),
            orth i (i + 1) (by omega) le_rfl, dotProduct_comm]
          ring
        have e2 : α * (β * (p i ⬝ᵥ K.mulVec (p i))) = r (i + 1) ⬝ᵥ P.mulVec (r (i + 1)) := by
          rw [← hβr, ← hαp]; ring
        refine mul_left_cancel₀ hα0 ?_
        rw [mul_add, e1, e2]; ring
  refine ⟨h.p0, rrec, prec, orth, conj, pr, ?_⟩
  rw [hp', add_dotProduct, smul_dotProduct, pr k (by omega), dotProduct_comm]
  simp

/-- Non-zero pairwise `P`-orthogonal vectors: at most `n` of them. -/
theorem orth_bound {P : Matrix (Fin n) (Fin n) ℝ} (hP : ∀ i j, P i j = P j i) (k : ℕ)
    (r : ℕ → Fin n → ℝ) (h : ∀ i j, i < j → j < k → r i ⬝ᵥ P.mulVec (r j) = 0)
    (hne : ∀ i, i < k → r i ⬝ᵥ P.mulVec (r i) ≠ 0) : k ≤ n := by
  have hli : LinearIndependent ℝ fun i : Fin k => r i := by
    rw [Fintype.linearIndependent_iff]
    intro g hg i
    have h0 : (∑ j, g j • r j) ⬝ᵥ P.mulVec (r i) = 0 := by rw [hg]; simp
    rw [sum_dotProduct, Finset.sum_eq_single i] at h0
    · rw [smul_dotProduct, smul_eq_mul] at h0
      exact (mul_eq_zero.1 h0).resolve_right (hne i i.2)
    · intro j _ hji
      rw [smul_dotProduct]
      have : r j ⬝ᵥ P.mulVec (r i) = 0 := by
        rcases lt_or_gt_of_ne (fun e => hji (Fin.ext e) : (j : ℕ) ≠ i) with hlt | hgt
        · exact h j i hlt i.2
        · rw [dot_mulVec_symm hP]; exact h i j hgt j.2
      rw [this, smul_zero]
    · simp
  have := LinearIndependent.fintype_card_le_finrank hli
  simpa using this

end Pansfem
