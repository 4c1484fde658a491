/-
C11: the residual kept by `CG` is the true residual and a convergence return certifies it.
C12: for symmetric positive definite matrices CG is conjugate, well defined and finite.
C14: the preconditioned variants keep the true residual whatever the preconditioner does.
-/
import Verif.Lemmas.KrylovExamples
import Mathlib.LinearAlgebra.Matrix.Notation
import Mathlib.Tactic.NormNum
import Mathlib.Tactic.Positivity

namespace Pansfem

variable {n : ℕ}

/-- A symmetric positive definite matrix for the examples. -/
def exK : Matrix (Fin 2) (Fin 2) ℝ := !![2, 1; 1, 2]

theorem exK_spd : SPD exK := by
  refine ⟨?_, ?_⟩
  · intro i j; fin_cases i <;> fin_cases j <;> simp [exK]
  · intro v hv
    have e : v ⬝ᵥ exK.mulVec v = v 0 ^ 2 + v 1 ^ 2 + (v 0 + v 1) ^ 2 := by
      simp [dotProduct, Matrix.mulVec, exK, Fin.sum_univ_two]; ring
    rw [e]
    by_cases h0 : v 0 = 0
    · have h1 : v 1 ≠ 0 := by
        intro h1; apply hv; funext i; fin_cases i <;> simp [h0, h1]
      positivity
    · positivity

/-! ### C11 -/

/-- **C11**: after any number of iterations the residual vector kept by `CG` is `b - A x`. -/
theorem C11_residual (A : CSR ℝ) (K : Matrix (Fin n) (Fin n) ℝ) (hA : IsCSR n A K)
    (b : Fin n → ℝ) (k : ℕ) (s0 s : CGState n) (h0 : cgInit A b = some s0)
    (h : iterM (cgStep A) k s0 = some s) : s.r = b - K.mulVec s.x := by
  refine iterM_inv (cgStep A) (fun s => s.r = b - K.mulVec s.x)
    (fun s t hs ht => (cgStep_residual hA b hs ht).1) ?_ h
  rw [cgInit_eq hA] at h0
  rw [← Option.some.inj h0]; simp

/-- **C11**: the message printed by `CG` tells whether the returned vector meets the tolerance; in
particular a return through the convergence test certifies `‖b - A x‖ < eps ‖b‖`. -/
theorem C11_certificate (A : CSR ℝ) (K : Matrix (Fin n) (Fin n) ℝ) (hA : IsCSR n A K)
    (b : Fin n → ℝ) (itrmax : ℕ) (eps : ℝ) (x : Fin n → ℝ) (conv : Bool) (hi : 0 < itrmax)
    (h : cg A b itrmax eps = some (x, conv)) :
    conv = true ↔ vnorm (b - K.mulVec x) < eps * vnorm b := by
  rw [cg_eq_pcg] at h
  unfold pcg at h
  rw [pcgInit_eq hA] at h
  exact pcgLoop_flag hA some b eps (vnorm b) itrmax (by simp) hi h

/-- With no iteration allowed `CG` returns the zero vector and reports failure. -/
theorem C11_no_iteration (A : CSR ℝ) (K : Matrix (Fin n) (Fin n) ℝ) (hA : IsCSR n A K)
    (b : Fin n → ℝ) (eps : ℝ) : cg A b 0 eps = some (0, false) := by
  unfold cg; rw [cgInit_eq hA]; rfl

/-! ### C12 -/

/-- **C12**: residuals of different iterations are orthogonal, directions are conjugate. -/
theorem C12_conjugate (A : CSR ℝ) (K : Matrix (Fin n) (Fin n) ℝ) (hA : IsCSR n A K)
    (hK : ∀ i j, K i j = K j i) (b : Fin n → ℝ) (s0 si sj : CGState n)
    (h0 : cgInit A b = some s0) (i j : ℕ) (hij : i < j) (hi : iterM (cgStep A) i s0 = some si)
    (hj : iterM (cgStep A) j s0 = some sj) :
    si.r ⬝ᵥ sj.r = 0 ∧ si.p ⬝ᵥ K.mulVec sj.p = 0 := by
  have hf : cgStep A (n := n) = pcgStep A some := funext (cgStep_eq_pcgStep A)
  rw [hf] at hi hj
  rw [cgInit_eq hA] at h0
  have h0 := Option.some.inj h0
  obtain ⟨r, p, hh, -, -, hu⟩ := pcg_hist hA hK (P := 1)
    (fun i j => by simp only [Matrix.one_apply, eq_comm]) (M := some)
    (fun v => by simp) s0 (by rw [← h0]; simp) (by rw [← h0]; simp) j sj hj
  obtain ⟨e1, e2⟩ := hu i si hij.le hi
  obtain ⟨e3, e4⟩ := hu j sj le_rfl hj
  have o := hh.orth i j hij le_rfl
  have c := hh.conj i j hij le_rfl
  rw [Matrix.one_mulVec, e1, e3] at o
  rw [e2, e4] at c
  exact ⟨o, c⟩

theorem spd_one : SPD (1 : Matrix (Fin n) (Fin n) ℝ) := by
  refine ⟨fun i j => by simp only [Matrix.one_apply, eq_comm], fun v hv => ?_⟩
  rw [Matrix.one_mulVec]
  refine lt_of_le_of_ne (Finset.sum_nonneg fun i _ => mul_self_nonneg _) fun e =>
    hv (dotProduct_self_eq_zero.1 e.symm)

/-- **C12**: no division by zero occurs before the residual vanishes. -/
theorem C12_defined (A : CSR ℝ) (K : Matrix (Fin n) (Fin n) ℝ) (hA : IsCSR n A K) (hK : SPD K)
    (b : Fin n → ℝ) (s0 s : CGState n) (h0 : cgInit A b = some s0) (k : ℕ)
    (h : iterM (cgStep A) k s0 = some s) (hr : s.r ≠ 0) :
    k < n ∧ ∃ t, cgStep A s = some t := by
  have hf : cgStep A (n := n) = pcgStep A some := funext (cgStep_eq_pcgStep A)
  rw [hf] at h ⊢
  rw [cgInit_eq hA] at h0
  have h0 := Option.some.inj h0
  exact pcg_next hA hK spd_one (M := some) (fun v => by simp) s0 (by rw [← h0]; simp)
    (by rw [← h0]; simp) k s h hr

/-- **C12**: after at most `n` iterations the iterate is the exact solution. -/
theorem C12_finite (A : CSR ℝ) (K : Matrix (Fin n) (Fin n) ℝ) (hA : IsCSR n A K) (hK : SPD K)
    (b : Fin n → ℝ) : ∃ s0 k s, cgInit A b = some s0 ∧ k ≤ n ∧ iterM (cgStep A) k s0 = some s ∧
      K.mulVec s.x = b := by
  have hf : cgStep A (n := n) = pcgStep A some := funext (cgStep_eq_pcgStep A)
  obtain ⟨k, t, hk, ht, hr⟩ := pcg_exact hA hK spd_one (M := some) (fun v => by simp)
    ⟨0, b, b, b ⬝ᵥ b⟩ (by simp) (by simp)
  refine ⟨_, k, t, cgInit_eq hA b, hk, by rw [hf]; exact ht, ?_⟩
  rw [← hf] at ht
  have := C11_residual A K hA b k _ t (cgInit_eq hA b) ht
  rw [hr] at this
  exact (sub_eq_zero.1 this.symm).symm

/-- **C12**: with a positive tolerance and a non-zero right-hand side `CG` never fails, and with
`itrmax ≥ n` it returns through the convergence test. -/
theorem C12_converges (A : CSR ℝ) (K : Matrix (Fin n) (Fin n) ℝ) (hA : IsCSR n A K) (hK : SPD K)
    (b : Fin n → ℝ) (hb : b ≠ 0) (eps : ℝ) (heps : 0 < eps) (itrmax : ℕ) :
    ∃ x conv, cg A b itrmax eps = some (x, conv) ∧ (n ≤ itrmax → conv = true) := by
  rw [cg_eq_pcg]
  unfold pcg
  rw [pcgInit_eq hA]
  obtain ⟨x, f, hx, hf⟩ := pcgLoop_converges hA hK spd_one (M := some) (fun v => by simp)
    ⟨0, b, b, b ⬝ᵥ b⟩ (by simp) (by simp) eps (vnorm b) (mul_pos heps (vnorm_pos hb)) itrmax 0
    _ rfl hb
  exact ⟨x, f, hx, fun h => hf (by omega)⟩

/-- **C12**, boundary of the claim: a zero right-hand side makes the first iteration divide zero by
zero. -/
theorem C12_zero_rhs (A : CSR ℝ) (K : Matrix (Fin n) (Fin n) ℝ) (hA : IsCSR n A K) (itrmax : ℕ)
    (eps : ℝ) (hi : 0 < itrmax) : cg A (0 : Fin n → ℝ) itrmax eps = none := by
  obtain ⟨m, rfl⟩ := Nat.exists_eq_succ_of_ne_zero hi.ne'
  unfold cg
  rw [cgInit_eq hA]
  simp [cgLoop, cgStep, csrMul_eq hA, sdivide]

/-- The hypotheses are met by `[[2, 1], [1, 2]] x = (1, 0)`, with two iterations. -/
example : ∃ x, cg (fullCSR exK) ![1, 0] 2 (1 / 100) = some (x, true) ∧
    vnorm (![1, 0] - exK.mulVec x) < 1 / 100 * vnorm ![1, 0] := by
  have hb : (![1, 0] : Fin 2 → ℝ) ≠ 0 := fun h => by simpa using congrFun h 0
  obtain ⟨x, f, hx, hf⟩ := C12_converges _ _ (fullCSR_isCSR exK) exK_spd ![1, 0] hb (1 / 100)
    (by norm_num) 2
  obtain rfl := hf le_rfl
  exact ⟨x, hx, (C11_certificate _ _ (fullCSR_isCSR exK) _ 2 _ x true (by norm_num) hx).1 rfl⟩

/-! ### C14 -/

/-- **C14**: after any number of iterations of `ILU0CG`, `ScalingCG` or `SORCG` the residual vector
is `b - A x`, whatever the preconditioner `M` returns. -/
theorem C14_residual (A : CSR ℝ) (K : Matrix (Fin n) (Fin n) ℝ) (hA : IsCSR n A K)
    (M : (Fin n → ℝ) → Option (Fin n → ℝ))
    (b : Fin n → ℝ) (k : ℕ) (s0 s : CGState n) (h0 : pcgInit A M b = some s0)
    (h : iterM (pcgStep A M) k s0 = some s) : s.r = b - K.mulVec s.x := by
  refine iterM_inv (pcgStep A M) (fun s => s.r = b - K.mulVec s.x)
    (fun s t hs ht => pcgStep_residual hA M b hs ht) ?_ h
  rw [pcgInit_eq hA] at h0
  obtain ⟨p, -, rfl⟩ := Option.map_eq_some_iff.1 h0
  simp

theorem pcg_flag (A : CSR ℝ) (K : Matrix (Fin n) (Fin n) ℝ) (hA : IsCSR n A K)
    (M : (Fin n → ℝ) → Option (Fin n → ℝ)) (b : Fin n → ℝ) (itrmax : ℕ) (eps : ℝ)
    (x : Fin n → ℝ) (conv : Bool) (hi : 0 < itrmax)
    (h : pcg A M b itrmax eps = some (x, conv)) :
    conv = true ↔ vnorm (b - K.mulVec x) < eps * vnorm b := by
  unfold pcg at h
  obtain ⟨s, hs, h⟩ := Option.bind_eq_some_iff.1 h
  rw [pcgInit_eq hA] at hs
  obtain ⟨p, -, rfl⟩ := Option.map_eq_some_iff.1 hs
  exact pcgLoop_flag hA M b eps (vnorm b) itrmax (by simp) hi h

/-- **C14** for `ILU0CG`: the message tells whether the returned vector meets the tolerance. -/
theorem C14_ilu0CG (A F : CSR ℝ) (K : Matrix (Fin n) (Fin n) ℝ) (hA : IsCSR n A K)
    (b : Fin n → ℝ) (itrmax : ℕ) (eps : ℝ) (x : Fin n → ℝ) (conv : Bool) (hi : 0 < itrmax)
    (h : ilu0CG A F b itrmax eps = some (x, conv)) :
    conv = true ↔ vnorm (b - K.mulVec x) < eps * vnorm b :=
  pcg_flag A K hA _ b itrmax eps x conv hi h

/-- **C14** for `ScalingCG`. -/
theorem C14_scalingCG (A : CSR ℝ) (K : Matrix (Fin n) (Fin n) ℝ) (hA : IsCSR n A K)
    (b : Fin n → ℝ) (itrmax : ℕ) (eps : ℝ) (x : Fin n → ℝ) (conv : Bool) (hi : 0 < itrmax)
    (h : scalingCG A b itrmax eps = some (x, conv)) :
    conv = true ↔ vnorm (b - K.mulVec x) < eps * vnorm b := by
  obtain ⟨D, -, h⟩ := Option.bind_eq_some_iff.1 h
  exact pcg_flag A K hA _ b itrmax eps x conv hi h

/-- **C14** for `SORCG`. -/
theorem C14_sorCG (A : CSR ℝ) (K : Matrix (Fin n) (Fin n) ℝ) (hA : IsCSR n A K)
    (b : Fin n → ℝ) (itrmax : ℕ) (eps w : ℝ) (si : ℕ) (se : ℝ) (x : Fin n → ℝ) (conv : Bool)
    (hi : 0 < itrmax) (h : sorCG A b itrmax eps w si se = some (x, conv)) :
    conv = true ↔ vnorm (b - K.mulVec x) < eps * vnorm b :=
  pcg_flag A K hA _ b itrmax eps x conv hi h

theorem getDiagonal_eq (A : CSR ℝ) (K : Matrix (Fin n) (Fin n) ℝ) (hA : IsCSR n A K) :
    getDiagonal n A = some fun i => K i i := by
  unfold getDiagonal
  rw [if_pos hA.rows, range_mapM (g := fun i : Fin n => K i i) (fun i => hA.entries i i)]
  simp

/-- **C14**: for symmetric positive definite matrices `ScalingCG` never divides by zero, and with
`itrmax ≥ n` it returns through the convergence test. -/
theorem C14_scalingCG_converges (A : CSR ℝ) (K : Matrix (Fin n) (Fin n) ℝ) (hA : IsCSR n A K)
    (hK : SPD K) (b : Fin n → ℝ) (hb : b ≠ 0) (eps : ℝ) (heps : 0 < eps) (itrmax : ℕ) :
    ∃ x conv, scalingCG A b itrmax eps = some (x, conv) ∧ (n ≤ itrmax → conv = true) := by
  have hd : ∀ i, 0 < K i i := by
    intro i
    have := hK.2 (Pi.single i 1) (by intro h; simpa using congrFun h i)
    simpa using this
  have hM : ∀ v : Fin n → ℝ, scaling (fun i => K i i) v
      = some ((Matrix.diagonal fun i => (K i i)⁻¹).mulVec v) := by
    intro v
    unfold scaling
    rw [if_neg (by rintro ⟨i, hi⟩; exact (hd i).ne' hi)]
    congr 1
    funext i
    rw [Matrix.mulVec_diagonal]; field_simp
  have hP : SPD (Matrix.diagonal fun i => (K i i)⁻¹) := by
    refine ⟨fun i j => ?_, fun v hv => ?_⟩
    · by_cases h : i = j
      · subst h; rfl
      · rw [Matrix.diagonal_apply_ne _ h, Matrix.diagonal_apply_ne _ (Ne.symm h)]
    · obtain ⟨i, hi⟩ : ∃ i, v i ≠ 0 := by
        by_contra hcon; push Not at hcon; exact hv (funext hcon)
      refine Finset.sum_pos' (fun j _ => ?_) ⟨i, Finset.mem_univ _, ?_⟩
      · rw [Matrix.mulVec_diagonal]
        have := hd j
        have : 0 ≤ (K j j)⁻¹ * (v j * v j) :=
          mul_nonneg (inv_nonneg.2 this.le) (mul_self_nonneg _)
        linarith
      · rw [Matrix.mulVec_diagonal]
        have := hd i
        have : 0 < (K i i)⁻¹ * (v i * v i) :=
          mul_pos (inv_pos.2 this) (mul_self_pos.2 hi)
        linarith
  unfold scalingCG
  rw [getDiagonal_eq A K hA]
  simp only [Option.bind_eq_bind, Option.bind_some]
  unfold pcg
  rw [pcgInit_eq hA, hM]
  obtain ⟨x, f, hx, hf⟩ := pcgLoop_converges hA hK hP hM
    ⟨0, b, (Matrix.diagonal fun i => (K i i)⁻¹).mulVec b, _⟩ rfl
    (by simp only; rw [dotProduct_comm]) eps (vnorm b) (mul_pos heps (vnorm_pos hb)) itrmax 0
    _ rfl hb
  exact ⟨x, f, hx, fun h => hf (by omega)⟩

example : ∃ x, scalingCG (fullCSR exK) ![1, 0] 5 (1 / 100) = some (x, true) ∧
    vnorm (![1, 0] - exK.mulVec x) < 1 / 100 * vnorm ![1, 0] := by
  have hb : (![1, 0] : Fin 2 → ℝ) ≠ 0 := fun h => by simpa using congrFun h 0
  obtain ⟨x, f, hx, hf⟩ := C14_scalingCG_converges _ _ (fullCSR_isCSR exK) exK_spd ![1, 0] hb
    (1 / 100) (by norm_num) 5
  obtain rfl := hf (by norm_num)
  exact ⟨x, hx, (C14_scalingCG _ _ (fullCSR_isCSR exK) _ 5 _ x true (by norm_num) hx).1 rfl⟩

end Pansfem
