/-
C116: CG and ScalingCG on singular systems that have a solution.
-/
import Verif.Props.C11_CG
import Verif.Props.C81_Homogenization

namespace Pansfem

open Matrix

variable {n : ℕ}

/-- Symmetric positive semidefinite, in elementary terms. -/
def SPSD (M : Matrix (Fin n) (Fin n) ℝ) : Prop :=
  (∀ i j, M i j = M j i) ∧ ∀ v : Fin n → ℝ, 0 ≤ v ⬝ᵥ M.mulVec v

theorem SPSD.kernel {K : Matrix (Fin n) (Fin n) ℝ} (hK : SPSD K) {w : Fin n → ℝ} (hw : w ⬝ᵥ K.mulVec w = 0) :
    K.mulVec w = 0 :=
  mulVec_eq_zero_of_form (Matrix.ext fun i j => hK.1 j i) hK.2 hw

/-- Along the run the residuals stay in the range of the matrix, and the directions in its image under the
preconditioner. -/
theorem PCGHist.range {K P : Matrix (Fin n) (Fin n) ℝ} {k : ℕ} {r p : ℕ → Fin n → ℝ} (h : PCGHist K P k r p)
    {z₀ : Fin n → ℝ} (h0 : r 0 = K.mulVec z₀) : ∀ j ≤ k, (∃ z, r j = K.mulVec z) ∧ ∃ z, p j = P.mulVec (K.mulVec z) := by
  intro j
  induction j with
  | zero => exact fun _ => ⟨⟨z₀, h0⟩, z₀, by rw [h.p0, h0]⟩
  | succ j ih =>
    intro hj
    obtain ⟨⟨z, hz⟩, w, hw⟩ := ih (by omega)
    obtain ⟨a, -, ha⟩ := h.rrec j (by omega)
    obtain ⟨b, hb⟩ := h.prec j (by omega)
    have hr : r (j + 1) = K.mulVec (z - a • p j) := by rw [ha, hz, Matrix.mulVec_sub, Matrix.mulVec_smul]
    refine ⟨⟨_, hr⟩, z - a • p j + b • w, ?_⟩
    rw [hb, hr, hw, Matrix.mulVec_add, Matrix.mulVec_add, Matrix.mulVec_smul K b, Matrix.mulVec_smul P b]

/-- The next step is defined while the residual is not zero. -/
theorem pcg_next_semi {A : CSR ℝ} {K P : Matrix (Fin n) (Fin n) ℝ} (hA : IsCSR n A K) (hK : SPSD K) (hP : SPD P)
    {M : (Fin n → ℝ) → Option (Fin n → ℝ)} (hM : ∀ v, M v = some (P.mulVec v)) (s0 : CGState n)
    (h0 : s0.p = P.mulVec s0.r) (h0' : s0.rr = s0.r ⬝ᵥ P.mulVec s0.r) {z₀ : Fin n → ℝ} (hz : s0.r = K.mulVec z₀)
    (k : ℕ) (t : CGState n) (ht : iterM (pcgStep A M) k s0 = some t) (hr : t.r ≠ 0) :
    k < n ∧ ∃ u, pcgStep A M t = some u := by
  obtain ⟨r, p, hh, hne, hrr, hu⟩ := pcg_hist hA hK.1 hP.1 hM s0 h0 h0' k t ht
  obtain ⟨erk, epk⟩ := hu k t le_rfl ht
  have hpos : 0 < t.r ⬝ᵥ P.mulVec t.r := hP.2 _ hr
  have hp0 : t.p ≠ 0 := by
    intro e
    have := hh.prk
    rw [erk, epk, e, zero_dotProduct] at this
    exact hpos.ne this
  have hKp : t.p ⬝ᵥ K.mulVec t.p ≠ 0 := by
    intro e
    obtain ⟨-, w, hw⟩ := hh.range (z₀ := z₀) (by rw [(hu 0 s0 (Nat.zero_le _) rfl).1, hz]) k le_rfl
    rw [epk] at hw
    have h1 := hK.kernel e
    have h2 : K.mulVec w ⬝ᵥ P.mulVec (K.mulVec w) = 0 := by
      rw [← hw, dotProduct_comm, dot_mulVec_symm hK.1, h1, dotProduct_zero]
    refine hp0 ?_
    rw [hw]
    by_contra hne
    exact (hP.2 (K.mulVec w) fun e => hne (by rw [e, Matrix.mulVec_zero])).ne' h2
  refine ⟨?_, (pcgStep_data hA hM t).2 hKp (by rw [hrr]; exact hpos.ne')⟩
  have := orth_bound hP.1 (k + 1) r (fun i j hij hj => hh.orth i j hij (by omega)) (by
    intro i hi
    rcases Nat.lt_succ_iff_lt_or_eq.1 hi with hlt | rfl
    · exact hne i hlt
    · rw [erk]; exact hpos.ne')
  omega

theorem pcgLoop_converges_semi {A : CSR ℝ} {K P : Matrix (Fin n) (Fin n) ℝ} (hA : IsCSR n A K) (hK : SPSD K)
    (hP : SPD P) {M : (Fin n → ℝ) → Option (Fin n → ℝ)} (hM : ∀ v, M v = some (P.mulVec v)) (s0 : CGState n)
    (h0 : s0.p = P.mulVec s0.r) (h0' : s0.rr = s0.r ⬝ᵥ P.mulVec s0.r) {z₀ : Fin n → ℝ} (hz : s0.r = K.mulVec z₀)
    (eps bn : ℝ) (heps : 0 < eps * bn) (m k : ℕ) (t : CGState n) (ht : iterM (pcgStep A M) k s0 = some t)
    (hr : t.r ≠ 0) : ∃ x f, pcgLoop A M eps bn m t = some (x, f) ∧ (n ≤ k + m → f = true) := by
  induction m generalizing k t with
  | zero =>
    have := (pcg_next_semi hA hK hP hM s0 h0 h0' hz k t ht hr).1
    exact ⟨t.x, false, rfl, fun h => by omega⟩
  | succ m ih =>
    obtain ⟨-, u, hu⟩ := pcg_next_semi hA hK hP hM s0 h0 h0' hz k t ht hr
    simp only [pcgLoop, hu, Option.bind_eq_bind, Option.bind_some]
    split
    · exact ⟨_, _, rfl, fun _ => rfl⟩
    · next hge =>
      have hur : u.r ≠ 0 := by
        intro e; rw [e, vnorm_zero] at hge; exact hge heps
      obtain ⟨x, f, hx, hf⟩ := ih (k + 1) u (by simp [iterM, ht, hu]) hur
      exact ⟨x, f, hx, fun h => hf (by omega)⟩

theorem pcg_exact_semi {A : CSR ℝ} {K P : Matrix (Fin n) (Fin n) ℝ} (hA : IsCSR n A K) (hK : SPSD K) (hP : SPD P)
    {M : (Fin n → ℝ) → Option (Fin n → ℝ)} (hM : ∀ v, M v = some (P.mulVec v)) (s0 : CGState n)
    (h0 : s0.p = P.mulVec s0.r) (h0' : s0.rr = s0.r ⬝ᵥ P.mulVec s0.r) {z₀ : Fin n → ℝ} (hz : s0.r = K.mulVec z₀) :
    ∃ k t, k ≤ n ∧ iterM (pcgStep A M) k s0 = some t ∧ t.r = 0 := by
  by_contra hcon
  push Not at hcon
  have : ∀ k, k ≤ n → ∃ t, iterM (pcgStep A M) k s0 = some t := by
    intro k
    induction k with
    | zero => exact fun _ => ⟨s0, rfl⟩
    | succ k ih =>
      intro hk
      obtain ⟨t, ht⟩ := ih (by omega)
      obtain ⟨-, u, hu⟩ := pcg_next_semi hA hK hP hM s0 h0 h0' hz k t ht (hcon k t (by omega) ht)
      exact ⟨u, by simp [iterM, ht, hu]⟩
  obtain ⟨t, ht⟩ := this n le_rfl
  have := (pcg_next_semi hA hK hP hM s0 h0 h0' hz n t ht (hcon n t le_rfl ht)).1
  omega

/-- **C116** for `CG`: if the matrix is symmetric and semidefinite and the system has a solution, `CG` meets no
division by zero before the residual vanishes, and reaches a solution after at most `n` iterations. -/
theorem C116_finite (A : CSR ℝ) (K : Matrix (Fin n) (Fin n) ℝ) (hA : IsCSR n A K) (hK : SPSD K) (z : Fin n → ℝ) :
    ∃ s0 k s, cgInit A (K.mulVec z) = some s0 ∧ k ≤ n ∧ iterM (cgStep A) k s0 = some s ∧
      K.mulVec s.x = K.mulVec z := by
  have hf : cgStep A (n := n) = pcgStep A some := funext (cgStep_eq_pcgStep A)
  obtain ⟨k, t, hk, ht, hr⟩ := pcg_exact_semi hA hK spd_one (M := some) (fun v => by simp)
    ⟨0, K.mulVec z, K.mulVec z, K.mulVec z ⬝ᵥ K.mulVec z⟩ (by simp) (by simp) rfl
  refine ⟨_, k, t, cgInit_eq hA _, hk, by rw [hf]; exact ht, ?_⟩
  rw [← hf] at ht
  have := C11_residual A K hA _ k _ t (cgInit_eq hA _) ht
  rw [hr] at this
  exact (sub_eq_zero.1 this.symm).symm

/-- **C116** for `CG`: it returns, with `itrmax ≥ n` through the convergence test. -/
theorem C116_converges (A : CSR ℝ) (K : Matrix (Fin n) (Fin n) ℝ) (hA : IsCSR n A K) (hK : SPSD K) (z : Fin n → ℝ)
    (hb : K.mulVec z ≠ 0) (eps : ℝ) (heps : 0 < eps) (itrmax : ℕ) :
    ∃ x conv, cg A (K.mulVec z) itrmax eps = some (x, conv) ∧ (n ≤ itrmax → conv = true) := by
  rw [cg_eq_pcg]
  unfold pcg
  rw [pcgInit_eq hA]
  obtain ⟨x, f, hx, hf⟩ := pcgLoop_converges_semi hA hK spd_one (M := some) (fun v => by simp)
    ⟨0, K.mulVec z, K.mulVec z, K.mulVec z ⬝ᵥ K.mulVec z⟩ (by simp) (by simp) rfl eps (vnorm (K.mulVec z))
    (mul_pos heps (vnorm_pos hb)) itrmax 0 _ rfl hb
  exact ⟨x, f, hx, fun h => hf (by omega)⟩

theorem scaling_diagonal {D : Fin n → ℝ} (hd : ∀ i, 0 < D i) (v : Fin n → ℝ) :
    scaling D v = some ((Matrix.diagonal fun i => (D i)⁻¹).mulVec v) := by
  unfold scaling
  rw [if_neg (by rintro ⟨i, hi⟩; exact (hd i).ne' hi)]
  congr 1
  funext i
  rw [Matrix.mulVec_diagonal]; field_simp

theorem spd_diagonal {D : Fin n → ℝ} (hd : ∀ i, 0 < D i) : SPD (Matrix.diagonal fun i => (D i)⁻¹) := by
  refine ⟨fun i j => ?_, fun v hv => ?_⟩
  · by_cases h : i = j
    · subst h; rfl
    · rw [Matrix.diagonal_apply_ne _ h, Matrix.diagonal_apply_ne _ (Ne.symm h)]
  · obtain ⟨i, hi⟩ : ∃ i, v i ≠ 0 := by
      by_contra hcon; push Not at hcon; exact hv (funext hcon)
    refine Finset.sum_pos' (fun j _ => ?_) ⟨i, Finset.mem_univ _, ?_⟩
    · rw [Matrix.mulVec_diagonal]
      have : 0 ≤ (D j)⁻¹ * (v j * v j) := mul_nonneg (inv_nonneg.2 (hd j).le) (mul_self_nonneg _)
      linarith
    · rw [Matrix.mulVec_diagonal]
      have : 0 < (D i)⁻¹ * (v i * v i) := mul_pos (inv_pos.2 (hd i)) (mul_self_pos.2 hi)
      linarith

/-- **C116** for `ScalingCG`: the same if no diagonal entry is zero. -/
theorem C116_scalingCG (A : CSR ℝ) (K : Matrix (Fin n) (Fin n) ℝ) (hA : IsCSR n A K) (hK : SPSD K)
    (hd : ∀ i, K i i ≠ 0) (z : Fin n → ℝ) (hb : K.mulVec z ≠ 0) (eps : ℝ) (heps : 0 < eps) (itrmax : ℕ) :
    ∃ x conv, scalingCG A (K.mulVec z) itrmax eps = some (x, conv) ∧ (n ≤ itrmax → conv = true) := by
  have hd' : ∀ i, 0 < K i i := by
    intro i
    have := hK.2 (Pi.single i 1)
    refine lt_of_le_of_ne ?_ (hd i).symm
    simpa using this
  unfold scalingCG
  rw [getDiagonal_eq A K hA]
  simp only [Option.bind_eq_bind, Option.bind_some]
  unfold pcg
  rw [pcgInit_eq hA, scaling_diagonal hd']
  obtain ⟨x, f, hx, hf⟩ := pcgLoop_converges_semi hA hK (spd_diagonal hd') (scaling_diagonal hd')
    ⟨0, K.mulVec z, (Matrix.diagonal fun i => (K i i)⁻¹).mulVec (K.mulVec z),
      (Matrix.diagonal fun i => (K i i)⁻¹).mulVec (K.mulVec z) ⬝ᵥ K.mulVec z⟩ (by simp)
    (by simp only; rw [dotProduct_comm]) rfl eps (vnorm (K.mulVec z)) (mul_pos heps (vnorm_pos hb)) itrmax 0 _ rfl hb
  exact ⟨x, f, hx, fun h => hf (by omega)⟩

/-- **C116**: a zero on the diagonal of a semidefinite matrix makes `ScalingCG` divide by zero, whether or not the
system has a solution. -/
theorem C116_diagonal (A : CSR ℝ) (K : Matrix (Fin n) (Fin n) ℝ) (hA : IsCSR n A K) (i : Fin n) (hi : K i i = 0)
    (b : Fin n → ℝ) (eps : ℝ) (itrmax : ℕ) : scalingCG A b itrmax eps = none := by
  unfold scalingCG
  rw [getDiagonal_eq A K hA]
  simp only [Option.bind_eq_bind, Option.bind_some]
  unfold pcg
  rw [pcgInit_eq hA]
  unfold scaling
  rw [if_pos ⟨i, hi⟩]
  rfl

/-- **C116**, why a solution is needed: without one no message of convergence can come with an exact solution. -/
theorem C116_unsolvable (K : Matrix (Fin n) (Fin n) ℝ) (hK : SPSD K) (b w : Fin n → ℝ) (hw : K.mulVec w = 0)
    (hb : w ⬝ᵥ b ≠ 0) (x : Fin n → ℝ) : w ⬝ᵥ (b - K.mulVec x) = w ⬝ᵥ b ∧ K.mulVec x ≠ b := by
  have h : w ⬝ᵥ K.mulVec x = 0 := by rw [dot_mulVec_symm hK.1, hw, dotProduct_zero]
  refine ⟨by rw [dotProduct_sub, h, sub_zero], fun e => hb ?_⟩
  rw [← e, h]

/-- A bar without supports. -/
def freeBar : Matrix (Fin 2) (Fin 2) ℝ := !![1, -1; -1, 1]

theorem freeBar_spsd : SPSD freeBar := by
  refine ⟨fun i j => ?_, fun v => ?_⟩
  · fin_cases i <;> fin_cases j <;> simp [freeBar]
  · have : v ⬝ᵥ freeBar.mulVec v = (v 0 - v 1) ^ 2 := by
      simp [freeBar, Matrix.mulVec, dotProduct, Fin.sum_univ_two]
      ring
    rw [this]
    positivity

theorem freeBar_load : freeBar.mulVec ![1, 0] = ![1, -1] := by
  funext i
  fin_cases i <;> simp [freeBar, Matrix.mulVec, dotProduct, Fin.sum_univ_two]

theorem freeBar_load_ne : freeBar.mulVec ![1, 0] ≠ 0 := by
  rw [freeBar_load]
  intro e
  simpa using congrFun e 0

/-- The hypotheses are met by `[[1, -1], [-1, 1]] x = (1, -1)`, which is singular; two iterations are enough. -/
example : (∃ x, cg (fullCSR freeBar) (freeBar.mulVec ![1, 0]) 2 (1 / 100) = some (x, true)) ∧
    (∃ x, scalingCG (fullCSR freeBar) (freeBar.mulVec ![1, 0]) 2 (1 / 100) = some (x, true)) ∧
    freeBar.mulVec ![1, 1] = 0 := by
  obtain ⟨x, f, hx, hf⟩ := C116_converges _ _ (fullCSR_isCSR freeBar) freeBar_spsd ![1, 0] freeBar_load_ne (1 / 100)
    (by norm_num) 2
  obtain ⟨y, g, hy, hg⟩ := C116_scalingCG _ _ (fullCSR_isCSR freeBar) freeBar_spsd (by
    intro i; fin_cases i <;> simp [freeBar]) ![1, 0] freeBar_load_ne (1 / 100) (by norm_num) 2
  refine ⟨⟨x, by rw [hx, hf le_rfl]⟩, ⟨y, by rw [hy, hg le_rfl]⟩, ?_⟩
  funext i
  fin_cases i <;> simp [freeBar, Matrix.mulVec, dotProduct, Fin.sum_univ_two]

/-- The load `(1, 1)` on this bar has no solution. -/
example : ∀ x, freeBar.mulVec x ≠ ![1, 1] := fun x =>
  (C116_unsolvable freeBar freeBar_spsd ![1, 1] ![1, 1] (by
    funext i
    fin_cases i <;> simp [freeBar, Matrix.mulVec, dotProduct, Fin.sum_univ_two]) (by simp [dotProduct]) x).2

/-- A bar between two nodes and a third node without any: `ScalingCG` divides by zero, though the system has a
solution. -/
example : scalingCG (fullCSR !![1, -1, 0; -1, 1, 0; 0, 0, 0]) ![1, -1, 0] 100 (1 / 100) = none :=
  C116_diagonal _ _ (fullCSR_isCSR _) 2 rfl _ _ _

end Pansfem
