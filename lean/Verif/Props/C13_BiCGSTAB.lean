/-
C13: the residuals kept by `BiCGSTAB`, `BiCGSTAB2` and their preconditioned variants are the true
residuals, and a convergence return certifies the solution.
-/
import Verif.Lemmas.KrylovExamples
import Mathlib.LinearAlgebra.Matrix.Notation
import Mathlib.Tactic.NormNum

namespace Pansfem

variable {n : ℕ}

/-- **C13** for `BiCGSTAB`: after any number of iterations the residual is `b - A x`. -/
theorem C13_residual (A : CSR ℝ) (K : Matrix (Fin n) (Fin n) ℝ) (hA : IsCSR n A K)
    (b : Fin n → ℝ) (k : ℕ) (s0 s : BiState n) (h0 : biInit A b = some s0)
    (h : iterM (biStep A) k s0 = some s) : s.r = b - K.mulVec s.x := by
  refine iterM_inv (biStep A) (fun s => s.r = b - K.mulVec s.x)
    (fun s t hs ht => biStep_residual hA b hs ht) ?_ h
  rw [biInit_eq hA] at h0
  rw [← Option.some.inj h0]; simp

/-- **C13** for `ILU0BiCGSTAB` and `ScalingBiCGSTAB`: the residual is `b - A x` whatever the first
direction `p` and the preconditioner `M` are. -/
theorem C13_preconditioned_residual (A : CSR ℝ) (K : Matrix (Fin n) (Fin n) ℝ)
    (hA : IsCSR n A K) (M : (Fin n → ℝ) → Option (Fin n → ℝ)) (b p : Fin n → ℝ) (k : ℕ)
    (s0 s : BiState n) (h0 : biInit A b = some s0)
    (h : iterM (pbiStep A M) k { s0 with p := p } = some s) : s.r = b - K.mulVec s.x := by
  refine iterM_inv (pbiStep A M) (fun s => s.r = b - K.mulVec s.x)
    (fun s t hs ht => pbiStep_residual hA M b hs ht) ?_ h
  rw [biInit_eq hA] at h0
  rw [← Option.some.inj h0]; simp

/-- The first `k` iterations of `BiCGSTAB2`, whose step depends on the iteration number. -/
noncomputable def bi2Iter (A : CSR ℝ) : ℕ → Bi2State n → Option (Bi2State n)
  | 0, s => some s
  | k + 1, s => (bi2Iter A k s).bind (bi2Step A k)

/-- **C13** for `BiCGSTAB2`. -/
theorem C13_residual2 (A : CSR ℝ) (K : Matrix (Fin n) (Fin n) ℝ) (hA : IsCSR n A K)
    (b : Fin n → ℝ) (k : ℕ) (s0 s : Bi2State n) (h0 : bi2Init A b = some s0)
    (h : bi2Iter A k s0 = some s) : s.r = b - K.mulVec s.x := by
  have : Bi2Inv K b k s := by
    induction k generalizing s with
    | zero =>
      rw [← Option.some.inj h]
      rw [bi2Init_eq hA] at h0
      rw [← Option.some.inj h0]
      exact ⟨by simp, fun h => absurd rfl h, fun h => absurd rfl h⟩
    | succ k ih =>
      obtain ⟨t, ht, h⟩ := Option.bind_eq_some_iff.1 h
      exact bi2Step_inv hA b (ih t ht) h
  exact this.res

/-- **C13** for `BiCGSTAB`: the message tells whether the returned vector meets the tolerance. -/
theorem C13_bicgstab (A : CSR ℝ) (K : Matrix (Fin n) (Fin n) ℝ) (hA : IsCSR n A K)
    (b : Fin n → ℝ) (itrmax : ℕ) (eps : ℝ) (x : Fin n → ℝ) (conv : Bool) (hi : 0 < itrmax)
    (h : bicgstab A b itrmax eps = some (x, conv)) :
    conv = true ↔ vnorm (b - K.mulVec x) < eps * vnorm b := by
  unfold bicgstab at h
  rw [biInit_eq hA] at h
  exact biLoop_flag hA b eps _ itrmax (by simp) hi h

/-- **C13** for `BiCGSTAB2`. -/
theorem C13_bicgstab2 (A : CSR ℝ) (K : Matrix (Fin n) (Fin n) ℝ) (hA : IsCSR n A K)
    (b : Fin n → ℝ) (itrmax : ℕ) (eps : ℝ) (x : Fin n → ℝ) (conv : Bool) (hi : 0 < itrmax)
    (h : bicgstab2 A b itrmax eps = some (x, conv)) :
    conv = true ↔ vnorm (b - K.mulVec x) < eps * vnorm b := by
  unfold bicgstab2 at h
  rw [bi2Init_eq hA] at h
  exact bi2Loop_flag hA b eps _ itrmax 0
    ⟨by simp, fun h => absurd rfl h, fun h => absurd rfl h⟩ hi h

/-- **C13** for `ILU0BiCGSTAB`, for any factor `F` passed to it. -/
theorem C13_ilu0BiCGSTAB (A F : CSR ℝ) (K : Matrix (Fin n) (Fin n) ℝ) (hA : IsCSR n A K)
    (b : Fin n → ℝ) (itrmax : ℕ) (eps : ℝ) (x : Fin n → ℝ) (conv : Bool) (hi : 0 < itrmax)
    (h : ilu0BiCGSTAB A F b itrmax eps = some (x, conv)) :
    conv = true ↔ vnorm (b - K.mulVec x) < eps * vnorm b := by
  unfold ilu0BiCGSTAB at h
  rw [biInit_eq hA] at h
  exact pbiLoop_flag hA _ b eps _ itrmax (by simp) hi h

/-- **C13** for `ScalingBiCGSTAB`. -/
theorem C13_scalingBiCGSTAB (A : CSR ℝ) (K : Matrix (Fin n) (Fin n) ℝ) (hA : IsCSR n A K)
    (b : Fin n → ℝ) (itrmax : ℕ) (eps : ℝ) (x : Fin n → ℝ) (conv : Bool) (hi : 0 < itrmax)
    (h : scalingBiCGSTAB A b itrmax eps = some (x, conv)) :
    conv = true ↔ vnorm (b - K.mulVec x) < eps * vnorm b := by
  unfold scalingBiCGSTAB at h
  obtain ⟨D, -, h⟩ := Option.bind_eq_some_iff.1 h
  rw [biInit_eq hA] at h
  simp only [Option.bind_eq_bind, Option.bind_some] at h
  obtain ⟨p, -, h⟩ := Option.bind_eq_some_iff.1 h
  exact pbiLoop_flag hA _ b eps _ itrmax (by simp) hi h

/-- A run satisfying the hypotheses: `diag(1, 2) x = (1, 1)` converges in one iteration with
`eps = 1/2`. -/
theorem bicgstab_example :
    bicgstab (fullCSR (Matrix.diagonal ![1, 2])) ![1, 1] 3 (1 / 2)
      = some (![13 / 15, 7 / 15], true) := by
  have hA := fullCSR_isCSR (Matrix.diagonal ![(1 : ℝ), 2])
  unfold bicgstab
  rw [biInit_eq hA]
  have hs : biStep (fullCSR (Matrix.diagonal ![(1 : ℝ), 2]))
      ⟨0, ![1, 1], ![1, 1], ![1, 1], ![(1 : ℝ), 1] ⬝ᵥ ![1, 1]⟩
      = some ⟨![13 / 15, 7 / 15], ![2 / 15, 1 / 15], ![1, 1], ![8 / 45, 2 / 45], 1 / 5⟩ := by
    have hd : ∀ v, (Matrix.diagonal ![(1 : ℝ), 2]).mulVec v = ![v 0, 2 * v 1] := by
      intro v; funext i; rw [Matrix.mulVec_diagonal]; fin_cases i <;> simp
    simp only [biStep, csrMul_eq hA, hd, sdivide, Option.bind_eq_bind, Option.bind_some]
    simp [dotProduct, Fin.sum_univ_two]
    norm_num
  simp only [Option.bind_eq_bind, Option.bind_some, biLoop, hs]
  rw [if_pos]
  · rfl
  · unfold vnorm
    have h1 : ![(2 : ℝ) / 15, 1 / 15] ⬝ᵥ ![2 / 15, 1 / 15] = 1 / 45 := by
      simp [dotProduct, Fin.sum_univ_two]; norm_num
    have h2 : ![(1 : ℝ), 1] ⬝ᵥ ![1, 1] = 2 := by
      simp [dotProduct, Fin.sum_univ_two]; norm_num
    rw [h1, h2]
    have : (1 : ℝ) / 2 * √2 = √(1 / 2) := by
      rw [Real.sqrt_div (by norm_num), Real.sqrt_one]
      have h := Real.sq_sqrt (show (0 : ℝ) ≤ 2 by norm_num)
      have h0 : √(2 : ℝ) ≠ 0 := by intro e; rw [e] at h; norm_num at h
      field_simp; linarith
    rw [this]
    exact Real.sqrt_lt_sqrt (by norm_num) (by norm_num)

example : vnorm (![1, 1] - (Matrix.diagonal ![(1 : ℝ), 2]).mulVec ![13 / 15, 7 / 15])
    < 1 / 2 * vnorm ![1, 1] :=
  (C13_bicgstab _ _ (fullCSR_isCSR _) _ 3 _ _ _ (by norm_num) bicgstab_example).1 rfl

end Pansfem
