/-
C106: what `n` steps of the Lanczos processes give in `n` unknowns.  C107: the loops over older vectors.
-/
import Verif.Props.C105_ShiftInvert
import Verif.Props.C62_Sturm
import Mathlib.LinearAlgebra.Dimension.Constructions
import Mathlib.LinearAlgebra.FiniteDimensional.Basic

namespace Pansfem

variable {n : ℕ}

/-- There are at most `n` vectors that are orthonormal with respect to a matrix. -/
theorem orth_card {M : Matrix (Fin n) (Fin n) ℝ} {q : ℕ → Fin n → ℝ} {k : ℕ}
    (h : ∀ i j, i < k → j < k → q i ⬝ᵥ M.mulVec (q j) = if i = j then 1 else 0) : k ≤ n := by
  have hl : LinearIndependent ℝ (fun i : Fin k => q i) := by
    rw [Fintype.linearIndependent_iff]
    intro g hg j
    have e : q j ⬝ᵥ M.mulVec (∑ i, g i • q i) = g j := by
      rw [← Matrix.mulVecLin_apply, map_sum, dotProduct_sum]
      simp only [map_smul, Matrix.mulVecLin_apply, dotProduct_smul, smul_eq_mul]
      rw [Finset.sum_congr rfl fun i _ => by rw [h j i j.2 i.2]]
      simp [Fin.val_inj]
    rw [hg] at e
    simpa using e.symm
  simpa using hl.fintype_card_le_finrank

/-- After `n` steps the remainder is zero. -/
theorem last_zero {M : Matrix (Fin n) (Fin n) ℝ} (hM : SPD M) {q w : ℕ → Fin n → ℝ} {alpha beta : ℕ → ℝ}
    {prev : ℕ → Fin n → ℝ} {p : Fin n → ℝ} {m : ℕ} (hm : n = m + 1)
    (hprev : ∀ j, prev j = if j = 0 then 0 else beta (j - 1) • q (j - 1)) (h0 : q 0 ⬝ᵥ M.mulVec (q 0) = 1)
    (horth : ∀ i j, i ≤ m → j ≤ m → q i ⬝ᵥ M.mulVec (q j) = if i = j then 1 else 0)
    (hrow : ∀ j < m, w j = prev j + alpha j • q j + beta j • q (j + 1)) (hlast : w m = prev m + alpha m • q m + p)
    (ha : ∀ j ≤ m, alpha j = q j ⬝ᵥ M.mulVec (w j - prev j)) (hb : ∀ j < m, beta j ≠ 0)
    (hsa : ∀ i j, i ≤ m → j ≤ m → q i ⬝ᵥ M.mulVec (w j) = q j ⬝ᵥ M.mulVec (w i)) : p = 0 := by
  by_contra hp
  have hpp := hM.2 p hp
  set b := Real.sqrt (p ⬝ᵥ M.mulVec p) with hbdef
  have hb0 : b ≠ 0 := (Real.sqrt_pos.2 hpp).ne'
  have hbb : b * b = p ⬝ᵥ M.mulVec p := Real.mul_self_sqrt hpp.le
  have hq : ∀ j ≤ m, upd1 q (m + 1) (b⁻¹ • p) j = q j := fun j hj => upd1_ne _ _ (by omega)
  have hbe : ∀ j < m, upd1 beta m b j = beta j := fun j hj => upd1_ne _ _ (by omega)
  have hpr : ∀ j ≤ m, (if j = 0 then (0 : Fin n → ℝ)
      else upd1 beta m b (j - 1) • upd1 q (m + 1) (b⁻¹ • p) (j - 1)) = prev j := by
    intro j hj
    rw [hprev]
    by_cases h : j = 0
    · simp [h]
    · rw [if_neg h, if_neg h, hbe _ (by omega), hq _ (by omega)]
  have key := orth_rows hM.1 (q := upd1 q (m + 1) (b⁻¹ • p)) (w := w) (alpha := alpha) (beta := upd1 beta m b)
    (prev := fun j => if j = 0 then 0 else upd1 beta m b (j - 1) • upd1 q (m + 1) (b⁻¹ • p) (j - 1))
    (fun j => rfl) (by rw [hq 0 (by omega)]; exact h0) (m + 1) ?_ ?_ ?_ ?_ ?_
  · have := orth_card (k := m + 2) fun i j hi hj => key i j (by omega) (by omega)
    omega
  · intro j hj
    rw [hpr j (by omega), hq j (by omega)]
    rcases Nat.lt_succ_iff_lt_or_eq.1 hj with hj' | rfl
    · rw [hbe j hj', hq (j + 1) (by omega), hrow j hj']
    · rw [upd1_self, upd1_self, smul_smul, mul_inv_cancel₀ hb0, one_smul, hlast]
  · intro j hj
    rw [hpr j (by omega), hq j (by omega)]
    exact ha j (by omega)
  · intro j hj
    rcases Nat.lt_succ_iff_lt_or_eq.1 hj with hj' | rfl
    · rw [hq (j + 1) (by omega), horth _ _ (by omega) (by omega), if_pos rfl]
    · rw [upd1_self, Matrix.mulVec_smul, dotProduct_smul, smul_dotProduct, smul_eq_mul, smul_eq_mul, ← hbb]
      field_simp
  · intro j hj
    rcases Nat.lt_succ_iff_lt_or_eq.1 hj with hj' | rfl
    · rw [hbe j hj']; exact hb j hj'
    · rw [upd1_self]; exact hb0
  · intro i j hi hj
    rw [hq i (by omega), hq j (by omega)]
    exact hsa i j (by omega) (by omega)

/-- A combination of orthonormal vectors with a nonzero coefficient is not zero. -/
theorem combination_ne {M : Matrix (Fin n) (Fin n) ℝ} {q : ℕ → Fin n → ℝ} {m : ℕ}
    (h : ∀ i j, i < m → j < m → q i ⬝ᵥ M.mulVec (q j) = if i = j then 1 else 0) {y : ℕ → ℝ} {i : ℕ} (hi : i < m)
    (hy : y i ≠ 0) : ∑ k ∈ Finset.range m, y k • q k ≠ 0 := by
  intro e
  have e1 : q i ⬝ᵥ M.mulVec (∑ k ∈ Finset.range m, y k • q k) = y i := by
    rw [← Matrix.mulVecLin_apply, map_sum, dotProduct_sum]
    simp only [map_smul, Matrix.mulVecLin_apply, dotProduct_smul, smul_eq_mul]
    rw [Finset.sum_congr rfl fun k hk => by rw [h i k hi (Finset.mem_range.1 hk)]]
    simp [hi]
  rw [e] at e1
  exact hy (by simpa using e1.symm)

/-! ### C106 -/

/-- The vectors are orthonormal as long as the first one has length one. -/
theorem rows_orth {solve : (Fin n → ℝ) → Option (Fin n → ℝ)} {K' M : Matrix (Fin n) (Fin n) ℝ}
    (hK : ∀ i j, K' i j = K' j i) (hM : ∀ i j, M i j = M j i) (hx : ∀ v w, solve v = some w → K'.mulVec w = v) {m : ℕ}
    {s : LanState n} (h0 : s.q 0 ⬝ᵥ M.mulVec (s.q 0) = 1) (hrow : ∀ j < m, GLanRow solve M m s j) (i j : ℕ) (hi : i < m)
    (hj : j < m) : s.q i ⬝ᵥ M.mulVec (s.q j) = if i = j then 1 else 0 := by
  let t : GLanState n := ⟨s, M.mulVec (s.q (m - 1))⟩
  have ht : GLanInv solve M m (s.q 0) (m - 1) t := ⟨rfl, fun _ => rfl, fun j hj => hrow j (by omega)⟩
  exact gLan_orth (s := t) hK hM hx (by omega) h0 ht i j (by omega) (by omega)

/-- Coordinates of an eigenvector in the vectors of a complete process. -/
theorem coords_tri {M : Matrix (Fin n) (Fin n) ℝ} {q w : ℕ → Fin n → ℝ} {alpha beta : ℕ → ℝ}
    (hrec : ∀ j < n, w j = (if j = 0 then 0 else beta (j - 1) • q (j - 1)) + alpha j • q j +
      (if j + 1 = n then 0 else beta j • q (j + 1))) {x : Fin n → ℝ} {theta : ℝ}
    (hx : ∀ j < n, w j ⬝ᵥ M.mulVec x = theta * (q j ⬝ᵥ M.mulVec x)) :
    TriResidual n alpha beta theta (fun j => q j ⬝ᵥ M.mulVec x) fun _ => 0 := by
  intro j hj
  have h := hx j hj
  rw [hrec j hj, add_dotProduct, add_dotProduct, smul_dotProduct, smul_eq_mul] at h
  have e1 : (if j = 0 then (0 : Fin n → ℝ) else beta (j - 1) • q (j - 1)) ⬝ᵥ M.mulVec x =
      if j = 0 then 0 else beta (j - 1) * (q (j - 1) ⬝ᵥ M.mulVec x) := by
    split <;> simp
  have e2 : (if j + 1 = n then (0 : Fin n → ℝ) else beta j • q (j + 1)) ⬝ᵥ M.mulVec x =
      if j + 1 = n then 0 else beta j * (q (j + 1) ⬝ᵥ M.mulVec x) := by
    split <;> simp
  rw [e1, e2] at h
  simp only
  linarith

/-- A vector orthogonal to `n` orthonormal vectors is zero. -/
theorem coords_ne {M : Matrix (Fin n) (Fin n) ℝ} (hM : SPD M) {q : ℕ → Fin n → ℝ}
    (h : ∀ i j, i < n → j < n → q i ⬝ᵥ M.mulVec (q j) = if i = j then 1 else 0) {x : Fin n → ℝ} (hx : x ≠ 0) :
    ∃ i < n, q i ⬝ᵥ M.mulVec x ≠ 0 := by
  by_contra hc
  push Not at hc
  have hpp := hM.2 x hx
  set b := Real.sqrt (x ⬝ᵥ M.mulVec x) with hbdef
  have hb0 : b ≠ 0 := (Real.sqrt_pos.2 hpp).ne'
  have hbb : b * b = x ⬝ᵥ M.mulVec x := Real.mul_self_sqrt hpp.le
  have hq : ∀ j < n, upd1 q n (b⁻¹ • x) j = q j := fun j hj => upd1_ne _ _ (by omega)
  have := orth_card (M := M) (q := upd1 q n (b⁻¹ • x)) (k := n + 1) ?_
  · omega
  intro i j hi hj
  rcases Nat.lt_succ_iff_lt_or_eq.1 hi with hi' | rfl
  · rcases Nat.lt_succ_iff_lt_or_eq.1 hj with hj' | rfl
    · rw [hq i hi', hq j hj']; exact h i j hi' hj'
    · rw [hq i hi', upd1_self, Matrix.mulVec_smul, dotProduct_smul, hc i hi', smul_zero, if_neg (by omega)]
  · rcases Nat.lt_succ_iff_lt_or_eq.1 hj with hj' | rfl
    · rw [hq j hj', upd1_self, smul_dotProduct, dot_mulVec_symm hM.1, hc j hj', smul_zero, if_neg (by omega)]
    · rw [upd1_self, Matrix.mulVec_smul, dotProduct_smul, smul_dotProduct, smul_eq_mul, smul_eq_mul, ← hbb, if_pos rfl]
      field_simp

/-- The rows of a complete process. -/
theorem complete_rows {solve : (Fin n → ℝ) → Option (Fin n → ℝ)} {K' M : Matrix (Fin n) (Fin n) ℝ}
    (hK' : ∀ i j, K' i j = K' j i) (hM : SPD M) (hx : ∀ v w, solve v = some w → K'.mulVec w = v)
    (hn : n ≠ 0) {s : LanState n} (h0 : s.q 0 ⬝ᵥ M.mulVec (s.q 0) = 1) (hrow : ∀ j < n, GLanRow solve M n s j) :
    ∃ w : ℕ → Fin n → ℝ, (∀ j < n, K'.mulVec (w j) = M.mulVec (s.q j)) ∧ (∀ j, j + 1 < n → s.beta j ≠ 0) ∧
      ∀ j < n, w j = (if j = 0 then 0 else s.beta (j - 1) • s.q (j - 1)) + s.alpha j • s.q j +
        (if j + 1 = n then 0 else s.beta j • s.q (j + 1)) := by
  have ho := rows_orth hK' hM.1 hx h0 hrow
  have hw : ∀ j, ∃ w p : Fin n → ℝ, j < n → solve (M.mulVec (s.q j)) = some w ∧
      w = prevTerm s j + s.alpha j • s.q j + p ∧
      s.alpha j = M.mulVec (s.q j) ⬝ᵥ (w - prevTerm s j) ∧
      (j ≠ n - 1 → s.beta j ≠ 0 ∧ p = s.beta j • s.q (j + 1)) := by
    intro j
    by_cases hj : j < n
    · obtain ⟨w, p, g1, g2, g3, -, g5⟩ := hrow j hj
      refine ⟨w, p, fun _ => ⟨g1, g2, g3, fun hjm => ⟨(g5 hjm).1, ?_⟩⟩⟩
      rw [(g5 hjm).2, smul_smul, mul_inv_cancel₀ (g5 hjm).1, one_smul]
    · exact ⟨0, 0, fun h => absurd h hj⟩
  choose w p hw using hw
  obtain ⟨m, hm⟩ : ∃ m, n = m + 1 := ⟨n - 1, by omega⟩
  have hp : p m = 0 := by
    refine last_zero hM (q := s.q) (w := w) (alpha := s.alpha) (beta := s.beta) (prev := prevTerm s) hm
      (fun j => rfl) (by rw [ho 0 0 (by omega) (by omega), if_pos rfl]) (fun i j hi hj => ho i j (by omega) (by omega))
      (fun j hj => ?_) (hw m (by omega)).2.1 (fun j hj => ?_) (fun j hj => ((hw j (by omega)).2.2.2 (by omega)).1)
      (fun i j hi hj => ?_)
    · rw [← ((hw j (by omega)).2.2.2 (by omega)).2]; exact (hw j (by omega)).2.1
    · rw [(hw j (by omega)).2.2.1, dot_mulVec_symm hM.1, dotProduct_comm]
    · have e1 := hx _ _ (hw i (by omega)).1
      have e2 := hx _ _ (hw j (by omega)).1
      rw [dot_mulVec_symm hM.1, ← e1, dot_mulVec_symm hM.1 (s.q j), ← e2, dot_mulVec_symm hK']
  refine ⟨w, fun j hj => hx _ _ (hw j hj).1, fun j hj => ((hw j (by omega)).2.2.2 (by omega)).1, fun j hj => ?_⟩
  obtain ⟨-, g2, -, g4⟩ := hw j hj
  by_cases e : j + 1 = n
  · rw [if_pos e]
    obtain rfl : j = m := by omega
    rw [hp] at g2
    exact g2
  · rw [if_neg e, ← (g4 (by omega)).2]
    exact g2

/-- The rows of a complete `Lanczos` process. -/
theorem lanczos_rows {A : CSR ℝ} {K : Matrix (Fin n) (Fin n) ℝ} (hA : IsCSR n A K) (hK : ∀ i j, K i j = K j i)
    (hn : n ≠ 0) {s : LanState n} (h : lanczosProcess A n = some s) :
    (∀ j, j + 1 < n → s.beta j ≠ 0) ∧
      ∀ j < n, K.mulVec (s.q j) = (if j = 0 then 0 else s.beta (j - 1) • s.q (j - 1)) + s.alpha j • s.q j +
        (if j + 1 = n then 0 else s.beta j • s.q (j + 1)) := by
  have ho : ∀ i j, i < n → j < n → s.q i ⬝ᵥ (1 : Matrix (Fin n) (Fin n) ℝ).mulVec (s.q j) = if i = j then 1 else 0 := by
    intro i j hi hj
    rw [Matrix.one_mulVec]
    exact C18_orthonormal A K hA hK hn n s h i j hi hj
  obtain ⟨q0, -, -, hrow⟩ := lanczosProcess_inv hA hn h
  have hw : ∀ j, ∃ p : Fin n → ℝ, j < n →
      K.mulVec (s.q j) = prevTerm s j + s.alpha j • s.q j + p ∧
      s.alpha j = s.q j ⬝ᵥ (K.mulVec (s.q j) - prevTerm s j) ∧
      (j ≠ n - 1 → s.beta j ≠ 0 ∧ p = s.beta j • s.q (j + 1)) := by
    intro j
    by_cases hj : j < n
    · obtain ⟨w, p, g1, g2, g3, -, g5⟩ := hrow j hj
      rw [csrMul_eq hA] at g1
      obtain rfl := Option.some.inj g1
      refine ⟨p, fun _ => ⟨g2, g3, fun hjm => ⟨(g5 hjm).1, ?_⟩⟩⟩
      rw [(g5 hjm).2, smul_smul, mul_inv_cancel₀ (g5 hjm).1, one_smul]
    · exact ⟨0, fun h => absurd h hj⟩
  choose p hw using hw
  obtain ⟨m, hm⟩ : ∃ m, n = m + 1 := ⟨n - 1, by omega⟩
  have hp : p m = 0 := by
    refine last_zero spd_one (q := s.q) (w := fun j => K.mulVec (s.q j)) (alpha := s.alpha) (beta := s.beta)
      (prev := prevTerm s) hm (fun j => rfl) (by rw [ho 0 0 (by omega) (by omega), if_pos rfl])
      (fun i j hi hj => ho i j (by omega) (by omega))
      (fun j hj => ?_) (hw m (by omega)).1 (fun j hj => ?_) (fun j hj => ((hw j (by omega)).2.2 (by omega)).1)
      (fun i j hi hj => ?_)
    · rw [← ((hw j (by omega)).2.2 (by omega)).2]; exact (hw j (by omega)).1
    · rw [Matrix.one_mulVec]; exact (hw j (by omega)).2.1
    · rw [Matrix.one_mulVec, Matrix.one_mulVec]
      exact dot_mulVec_symm hK _ _
  refine ⟨fun j hj => ((hw j (by omega)).2.2 (by omega)).1, fun j hj => ?_⟩
  obtain ⟨g2, -, g4⟩ := hw j hj
  by_cases e : j + 1 = n
  · rw [if_pos e]
    obtain rfl : j = m := by omega
    rw [hp] at g2
    exact g2
  · rw [if_neg e, ← (g4 (by omega)).2]
    exact g2

/-- `ritz_sum` for a complete process. -/
theorem ritz_full {q w : ℕ → Fin n → ℝ} {alpha beta y : ℕ → ℝ} {theta : ℝ} (hn : n ≠ 0)
    (hrec : ∀ j < n, w j = (if j = 0 then 0 else beta (j - 1) • q (j - 1)) + alpha j • q j +
      (if j + 1 = n then 0 else beta j • q (j + 1)))
    (hy : TriResidual n alpha beta theta y fun _ => 0) :
    ∑ k ∈ Finset.range n, y k • w k - theta • ∑ k ∈ Finset.range n, y k • q k = 0 := by
  obtain ⟨m, hm⟩ : ∃ m, n = m + 1 := ⟨n - 1, by omega⟩
  have key := ritz_sum (q := q) (w := w) (alpha := alpha) (beta := beta) (y := y) (r := fun _ => 0) (lam := theta)
    (m := m) (p := 0) (fun j hj => ?_) (fun i hi => ?_)
  · rw [show Finset.range n = Finset.range (m + 1) by rw [← hm], key]
    simp
  · rw [hrec j (by omega)]
    congr 1
    by_cases e : j = m
    · rw [if_pos e, if_pos (by omega)]
    · rw [if_neg e, if_neg (by omega)]
  · refine Eq.trans ?_ (hy i (by omega))
    congr 1
    by_cases e : i = m
    · rw [if_pos e, if_pos (by omega)]
    · rw [if_neg e, if_neg (by omega)]

/-- Eigenvectors of the tridiagonal matrix of a complete process give eigenvectors of the pencil. -/
theorem complete_pairs {solve : (Fin n → ℝ) → Option (Fin n → ℝ)} {K M : Matrix (Fin n) (Fin n) ℝ} {sigma : ℝ}
    (hK : ∀ i j, K i j = K j i) (hM : SPD M) (hx : ∀ v w, solve v = some w → (K - sigma • M).mulVec w = v) (hn : n ≠ 0)
    {s : LanState n} (h0 : s.q 0 ⬝ᵥ M.mulVec (s.q 0) = 1) (hrow : ∀ j < n, GLanRow solve M n s j) {theta : ℝ}
    (ht : theta ≠ 0) {y : ℕ → ℝ} (hy : TriResidual n s.alpha s.beta theta y fun _ => 0) (hy0 : ∃ i < n, y i ≠ 0) :
    reconvert n y s.q ≠ 0 ∧
      K.mulVec (reconvert n y s.q) = (sigma + theta⁻¹) • M.mulVec (reconvert n y s.q) := by
  have hK' : ∀ i j, (K - sigma • M) i j = (K - sigma • M) j i := by
    intro i j
    simp [hK i j, hM.1 i j]
  have ho := rows_orth hK' hM.1 hx h0 hrow
  obtain ⟨i, hi, hyi⟩ := hy0
  refine ⟨by rw [reconvert_eq]; exact combination_ne ho hi hyi, ?_⟩
  obtain ⟨w, hw, -, hrec⟩ := complete_rows hK' hM hx hn h0 hrow
  have res := shift_residual (K' := K - sigma • M) (M := M) ht (ritz_full hn hrec hy)
  have z1 : ∑ k ∈ Finset.range n, y k • (M.mulVec (s.q k) - (K - sigma • M).mulVec (w k)) = 0 := by
    refine Finset.sum_eq_zero fun k hk => ?_
    rw [hw k (Finset.mem_range.1 hk), sub_self, smul_zero]
  rw [z1] at res
  simp only [add_zero, Matrix.mulVec_zero, smul_zero, neg_zero] at res
  rw [reconvert_eq, ← sub_eq_zero, ← res, Matrix.sub_mulVec, Matrix.smul_mulVec]
  module

/-- The eigenvalues of the pencil are those of the tridiagonal matrix of a complete process. -/
theorem complete_all {solve : (Fin n → ℝ) → Option (Fin n → ℝ)} {K M : Matrix (Fin n) (Fin n) ℝ} {sigma : ℝ}
    (hK : ∀ i j, K i j = K j i) (hM : SPD M) (hx : ∀ v w, solve v = some w → (K - sigma • M).mulVec w = v) (hn : n ≠ 0)
    {s : LanState n} (h0 : s.q 0 ⬝ᵥ M.mulVec (s.q 0) = 1) (hrow : ∀ j < n, GLanRow solve M n s j) (lam : ℝ) :
    (∃ x, x ≠ 0 ∧ K.mulVec x = lam • M.mulVec x) ↔
      ∃ theta, theta ≠ 0 ∧ IsEig n s.alpha s.beta theta ∧ lam = sigma + theta⁻¹ := by
  have hK' : ∀ i j, (K - sigma • M) i j = (K - sigma • M) j i := by
    intro i j
    simp [hK i j, hM.1 i j]
  constructor
  · rintro ⟨x, hx0, hxe⟩
    have ho := rows_orth hK' hM.1 hx h0 hrow
    obtain ⟨w, hw, hb, hrec⟩ := complete_rows hK' hM hx hn h0 hrow
    have hxs : (K - sigma • M).mulVec x = (lam - sigma) • M.mulVec x := by
      rw [Matrix.sub_mulVec, Matrix.smul_mulVec, hxe]; module
    have hq : ∀ j < n, (lam - sigma) * (w j ⬝ᵥ M.mulVec x) = s.q j ⬝ᵥ M.mulVec x := by
      intro j hj
      rw [dot_mulVec_symm hM.1 (s.q j), ← hw j hj, dot_mulVec_symm hK', hxs, dotProduct_smul, smul_eq_mul]
    obtain ⟨i, hi, hne⟩ := coords_ne hM ho hx0
    have hl : lam - sigma ≠ 0 := by
      intro e
      apply hne
      rw [← hq i hi, e, zero_mul]
    have tri := coords_tri (M := M) (x := x) (theta := (lam - sigma)⁻¹) hrec fun j hj => by
      rw [← hq j hj]; field_simp
    refine ⟨(lam - sigma)⁻¹, inv_ne_zero hl, ⟨fun j : Fin n => s.q j ⬝ᵥ M.mulVec x, ?_, ?_⟩, by rw [inv_inv]; ring⟩
    · intro e
      exact hne (congrFun e ⟨i, hi⟩)
    · exact (tridiag_row n s.alpha s.beta (fun j => s.q j ⬝ᵥ M.mulVec x) _).2 tri
  · rintro ⟨theta, ht, ⟨v, hv, h1⟩, rfl⟩
    have e : v = fun j : Fin n => (fun j : ℕ => if h : j < n then v ⟨j, h⟩ else 0) j := by
      funext j; simp
    rw [e] at h1
    have h1 := (tridiag_row n s.alpha s.beta (fun j : ℕ => if h : j < n then v ⟨j, h⟩ else 0) theta).1 h1
    obtain ⟨i, hi⟩ := Function.ne_iff.1 hv
    exact ⟨_, complete_pairs hK hM hx hn h0 hrow ht h1 ⟨i, i.2, by simpa using hi⟩⟩

/-- A start of length one. -/
theorem unit_start {M : Matrix (Fin n) (Fin n) ℝ} {d : Fin n → ℝ} (hd : d ⬝ᵥ M.mulVec d = d ⬝ᵥ d) (h1 : vnorm d ≠ 0) :
    ((vnorm d)⁻¹ • d) ⬝ᵥ M.mulVec ((vnorm d)⁻¹ • d) = 1 := by
  rw [← unit_self h1, Matrix.mulVec_smul, smul_dotProduct, dotProduct_smul, hd, smul_dotProduct, dotProduct_smul]

/-- The process for one matrix is the general one with the unit matrix. -/
theorem lanRow_general {solve : (Fin n → ℝ) → Option (Fin n → ℝ)} {m j : ℕ} {s : LanState n}
    (h : LanRow solve m s j) : GLanRow solve 1 m s j := by
  obtain ⟨w, p, h1, h2, h3, h4, h5⟩ := h
  refine ⟨w, p, by rw [Matrix.one_mulVec]; exact h1, h2, by rw [Matrix.one_mulVec]; exact h3, ?_, h5⟩
  rw [Matrix.one_mulVec, h4]
  rfl

/-- **C106** in part: the process for the general problem with exact solutions, and a first vector that happens to have
length one as measured with `M`.  The vectors are orthonormal with respect to `M`. -/
theorem C106_orthonormal_partial (solve : (Fin n → ℝ) → Option (Fin n → ℝ)) (B : CSR ℝ)
    (K' M : Matrix (Fin n) (Fin n) ℝ) (hB : IsCSR n B M) (hK : ∀ i j, K' i j = K' j i) (hM : ∀ i j, M i j = M j i)
    (hx : ∀ v w, solve v = some w → K'.mulVec w = v) (hn : n ≠ 0) (m : ℕ) (d : Fin n → ℝ)
    (hd : d ⬝ᵥ M.mulVec d = d ⬝ᵥ d) (s : GLanState n) (h : gLanczos solve (csrMul B) d m = some s) (i j : ℕ) (hi : i < m)
    (hj : j < m) : s.q i ⬝ᵥ M.mulVec (s.q j) = if i = j then 1 else 0 := by
  obtain ⟨h1, h2⟩ := gLanczos_inv (fun v => csrMul_eq hB v) hn h
  exact rows_orth hK hM hx (by rw [h2.1]; exact unit_start hd h1) h2.2.2 i j hi hj

/-- **C106** in part: under the same conditions, after `n` steps every eigenvector of the tridiagonal matrix with
`theta ≠ 0` gives an eigenvector of the pencil with the eigenvalue `sigma + 1 / theta`. -/
theorem C106_pairs_partial (solve : (Fin n → ℝ) → Option (Fin n → ℝ)) (B : CSR ℝ) (K M : Matrix (Fin n) (Fin n) ℝ)
    (sigma : ℝ) (hB : IsCSR n B M) (hK : ∀ i j, K i j = K j i) (hM : SPD M)
    (hx : ∀ v w, solve v = some w → (K - sigma • M).mulVec w = v) (hn : n ≠ 0) (d : Fin n → ℝ)
    (hd : d ⬝ᵥ M.mulVec d = d ⬝ᵥ d) (s : GLanState n) (h : gLanczos solve (csrMul B) d n = some s) (theta : ℝ)
    (ht : theta ≠ 0) (y : ℕ → ℝ) (hy : TriResidual n s.alpha s.beta theta y fun _ => 0) (hy0 : ∃ i < n, y i ≠ 0) :
    reconvert n y s.q ≠ 0 ∧
      K.mulVec (reconvert n y s.q) = (sigma + theta⁻¹) • M.mulVec (reconvert n y s.q) := by
  obtain ⟨h1, h2⟩ := gLanczos_inv (fun v => csrMul_eq hB v) hn h
  exact complete_pairs hK hM hx hn (by rw [h2.1]; exact unit_start hd h1) h2.2.2 ht hy hy0

/-- **C106** in part: and every eigenvalue of the pencil is found that way. -/
theorem C106_all_partial (solve : (Fin n → ℝ) → Option (Fin n → ℝ)) (B : CSR ℝ) (K M : Matrix (Fin n) (Fin n) ℝ)
    (sigma : ℝ) (hB : IsCSR n B M) (hK : ∀ i j, K i j = K j i) (hM : SPD M)
    (hx : ∀ v w, solve v = some w → (K - sigma • M).mulVec w = v) (hn : n ≠ 0) (d : Fin n → ℝ)
    (hd : d ⬝ᵥ M.mulVec d = d ⬝ᵥ d) (s : GLanState n) (h : gLanczos solve (csrMul B) d n = some s) (lam : ℝ) :
    (∃ x, x ≠ 0 ∧ K.mulVec x = lam • M.mulVec x) ↔
      ∃ theta, theta ≠ 0 ∧ IsEig n s.alpha s.beta theta ∧ lam = sigma + theta⁻¹ := by
  obtain ⟨h1, h2⟩ := gLanczos_inv (fun v => csrMul_eq hB v) hn h
  exact complete_all hK hM hx hn (by rw [h2.1]; exact unit_start hd h1) h2.2.2 lam

/-- **C106** for `ShiftedInvertLanczos` with exact solutions: after `n` steps the eigenvalues of the matrix are exactly
`sigma + 1 / theta`. -/
theorem C106_shifted (solve : (Fin n → ℝ) → Option (Fin n → ℝ)) (K : Matrix (Fin n) (Fin n) ℝ)
    (sigma : ℝ) (hK : ∀ i j, K i j = K j i) (hx : ∀ v w, solve v = some w → (K - sigma • 1).mulVec w = v) (hn : n ≠ 0)
    (d : Fin n → ℝ) (s : LanState n) (h : lanczos solve d n = some s) :
    (∀ lam, (∃ x, x ≠ 0 ∧ K.mulVec x = lam • x) ↔
      ∃ theta, theta ≠ 0 ∧ IsEig n s.alpha s.beta theta ∧ lam = sigma + theta⁻¹) ∧
    ∀ (theta : ℝ) (y : ℕ → ℝ), theta ≠ 0 → TriResidual n s.alpha s.beta theta y (fun _ => 0) → (∃ i < n, y i ≠ 0) →
      reconvert n y s.q ≠ 0 ∧ K.mulVec (reconvert n y s.q) = (sigma + theta⁻¹) • reconvert n y s.q := by
  obtain ⟨h1, h2⟩ := lanczos_inv solve hn h
  have h0 : s.q 0 ⬝ᵥ (1 : Matrix (Fin n) (Fin n) ℝ).mulVec (s.q 0) = 1 := by
    rw [h2.1]; exact unit_start (by rw [Matrix.one_mulVec]) h1
  have hrow : ∀ j < n, GLanRow solve 1 n s j := fun j hj => lanRow_general (h2.2 j hj)
  refine ⟨fun lam => ?_, fun theta y ht hy hy0 => ?_⟩
  · have := complete_all hK spd_one hx hn h0 hrow lam
    simpa only [Matrix.one_mulVec] using this
  · have := complete_pairs hK spd_one hx hn h0 hrow ht hy hy0
    simpa only [Matrix.one_mulVec] using this

/-- **C106** for `Lanczos`: after `n` steps every eigenvector of the tridiagonal matrix gives an eigenvector. -/
theorem C106_lanczos_pairs (A : CSR ℝ) (K : Matrix (Fin n) (Fin n) ℝ) (hA : IsCSR n A K) (hK : ∀ i j, K i j = K j i)
    (hn : n ≠ 0) (s : LanState n) (h : lanczosProcess A n = some s) (theta : ℝ) (y : ℕ → ℝ)
    (hy : TriResidual n s.alpha s.beta theta y fun _ => 0) (hy0 : ∃ i < n, y i ≠ 0) :
    reconvert n y s.q ≠ 0 ∧ K.mulVec (reconvert n y s.q) = theta • reconvert n y s.q := by
  have ho : ∀ i j, i < n → j < n → s.q i ⬝ᵥ (1 : Matrix (Fin n) (Fin n) ℝ).mulVec (s.q j) = if i = j then 1 else 0 := by
    intro i j hi hj
    rw [Matrix.one_mulVec]
    exact C18_orthonormal A K hA hK hn n s h i j hi hj
  obtain ⟨i, hi, hyi⟩ := hy0
  refine ⟨by rw [reconvert_eq]; exact combination_ne ho hi hyi, ?_⟩
  obtain ⟨-, hrec⟩ := lanczos_rows hA hK hn h
  have key := ritz_full hn hrec hy
  rw [reconvert_eq, ← sub_eq_zero, ← key, ← Matrix.mulVecLin_apply, map_sum]
  simp

/-- **C106** for `Lanczos`: if `n` steps are possible, the eigenvalues of the matrix are exactly those of the
tridiagonal matrix. -/
theorem C106_lanczos (A : CSR ℝ) (K : Matrix (Fin n) (Fin n) ℝ) (hA : IsCSR n A K) (hK : ∀ i j, K i j = K j i)
    (hn : n ≠ 0) (s : LanState n) (h : lanczosProcess A n = some s) (lam : ℝ) :
    (∃ x, x ≠ 0 ∧ K.mulVec x = lam • x) ↔ IsEig n s.alpha s.beta lam := by
  constructor
  · rintro ⟨x, hx0, hxe⟩
    have ho : ∀ i j, i < n → j < n →
        s.q i ⬝ᵥ (1 : Matrix (Fin n) (Fin n) ℝ).mulVec (s.q j) = if i = j then 1 else 0 := by
      intro i j hi hj
      rw [Matrix.one_mulVec]
      exact C18_orthonormal A K hA hK hn n s h i j hi hj
    obtain ⟨-, hrec⟩ := lanczos_rows hA hK hn h
    obtain ⟨i, hi, hne⟩ := coords_ne spd_one ho hx0
    have tri := coords_tri (M := 1) (x := x) (theta := lam) hrec fun j hj => by
      rw [Matrix.one_mulVec, dotProduct_comm, dot_mulVec_symm hK, hxe, dotProduct_smul, smul_eq_mul]
    refine ⟨fun j : Fin n => s.q j ⬝ᵥ (1 : Matrix (Fin n) (Fin n) ℝ).mulVec x, ?_, ?_⟩
    · intro e
      exact hne (congrFun e ⟨i, hi⟩)
    · exact (tridiag_row n s.alpha s.beta (fun j => s.q j ⬝ᵥ (1 : Matrix (Fin n) (Fin n) ℝ).mulVec x) _).2 tri
  · rintro ⟨v, hv, h1⟩
    have e : v = fun j : Fin n => (fun j : ℕ => if h : j < n then v ⟨j, h⟩ else 0) j := by
      funext j; simp
    rw [e] at h1
    have h1 := (tridiag_row n s.alpha s.beta (fun j : ℕ => if h : j < n then v ⟨j, h⟩ else 0) lam).1 h1
    obtain ⟨i, hi⟩ := Function.ne_iff.1 hv
    exact ⟨_, C106_lanczos_pairs A K hA hK hn s h lam _ h1 ⟨i, i.2, by simpa using hi⟩⟩

/-- Nothing is removed from a vector orthogonal to the older ones. -/
theorem gReorth_id {B : (Fin n → ℝ) → Option (Fin n → ℝ)} {M : Matrix (Fin n) (Fin n) ℝ}
    (hB : ∀ v, B v = some (M.mulVec v)) {k : ℕ} {q : ℕ → Fin n → ℝ} {s : Fin n → ℝ}
    (h : ∀ i < k - 2, s ⬝ᵥ M.mulVec (q i) = 0) : gReorth B k q s = some s := by
  obtain ⟨t, h1, h2⟩ := forUpM_total (Nat.zero_le (k - 2)) (fun i s => do
    let Bq ← B (q i)
    return s + (-(s ⬝ᵥ Bq)) • Bq) s (fun _ t => t = s) rfl (by
      intro i u _ hi hu
      refine ⟨u, ?_, hu⟩
      subst hu
      simp only [hB, Option.bind_eq_bind, Option.bind_some, h i hi]
      simp)
  subst h2
  exact h1

/-- **C106** in part: under the same conditions `GeneralRestartShiftedInvertLanczos` computes the same. -/
theorem C106_restart_partial (solve : (Fin n → ℝ) → Option (Fin n → ℝ)) (B : CSR ℝ)
    (K' M : Matrix (Fin n) (Fin n) ℝ) (hB : IsCSR n B M) (hK : ∀ i j, K' i j = K' j i) (hM : ∀ i j, M i j = M j i)
    (hx : ∀ v w, solve v = some w → K'.mulVec w = v) (hn : n ≠ 0) (m : ℕ) (d : Fin n → ℝ)
    (hd : d ⬝ᵥ M.mulVec d = d ⬝ᵥ d) : gReLanczos solve (csrMul B) d m = gLanczos solve (csrMul B) d m := by
  unfold gReLanczos gLanczos
  cases hq : vdiv d (vnorm d) with
  | none => rfl
  | some q0 =>
    simp only [Option.bind_eq_bind, Option.bind_some]
    obtain ⟨hne, rfl⟩ := vdiv_some hq hn
    rw [csrMul_eq hB]
    simp only [Option.bind_some]
    have key : ∀ k ≤ m,
        forUpM 0 k (gReStep solve (csrMul B) m) ⟨⟨upd1 (fun _ => 0) 0 ((vnorm d)⁻¹ • d), fun _ => 0, fun _ => 0⟩,
          M.mulVec ((vnorm d)⁻¹ • d)⟩ =
        forUpM 0 k (gLanStep solve (csrMul B) m) ⟨⟨upd1 (fun _ => 0) 0 ((vnorm d)⁻¹ • d), fun _ => 0, fun _ => 0⟩,
          M.mulVec ((vnorm d)⁻¹ • d)⟩ := by
      intro k hk
      induction k with
      | zero => simp [forUpM_same]
      | succ k ih =>
        rw [forUpM_succ (Nat.zero_le _), forUpM_succ (Nat.zero_le _), ih (by omega)]
        cases hs : forUpM 0 k (gLanStep solve (csrMul B) m)
          (⟨⟨upd1 (fun _ => 0) 0 ((vnorm d)⁻¹ • d), fun _ => 0, fun _ => 0⟩,
            M.mulVec ((vnorm d)⁻¹ • d)⟩ : GLanState n) with
        | none => rfl
        | some s =>
          simp only [Option.bind_some]
          have hI : GLanInv solve M m ((vnorm d)⁻¹ • d) k s :=
            forUpM_inv (Nat.zero_le k) _ _ _ (fun k s => GLanInv solve M m ((vnorm d)⁻¹ • d) k s)
              ⟨by simp, fun _ => by simp, fun j hj => absurd hj (Nat.not_lt_zero _)⟩
              (fun i u v _ hi hu hv => gLanStep_inv (fun v => csrMul_eq hB v) hn (by omega) hu hv) hs
          have ho := gLan_orth hK hM hx (show k < m by omega) (unit_start hd hne) hI
          unfold gReStep gLanStep
          cases hw : solve s.p with
          | none => rfl
          | some w =>
            simp only [Option.bind_eq_bind, Option.bind_some]
            rw [gReorth_id (fun v => csrMul_eq hB v) ?_]
            · rfl
            intro i hi
            have hwk := hx _ _ hw
            rw [hI.2.1 (by omega)] at hwk
            obtain ⟨w', p, g1, g2, -, -, g5⟩ := hI.2.2 i (by omega)
            obtain ⟨g6, g7⟩ := g5 (by omega)
            have hp : p = s.beta i • s.q (i + 1) := by
              rw [g7, smul_smul, mul_inv_cancel₀ g6, one_smul]
            rw [← hx _ _ g1, dot_mulVec_symm hK, hwk, dotProduct_comm, dotProduct_comm, dot_mulVec_symm hM, g2, hp,
              Matrix.mulVec_add, Matrix.mulVec_add, dotProduct_add, dotProduct_add, Matrix.mulVec_smul,
              Matrix.mulVec_smul, dotProduct_smul, dotProduct_smul,
              ho k i le_rfl (by omega), ho k (i + 1) le_rfl (by omega), if_neg (by omega), if_neg (by omega)]
            have : s.q k ⬝ᵥ M.mulVec (prevTerm s.toLanState i) = 0 := by
              unfold prevTerm
              split
              · simp
              · rw [Matrix.mulVec_smul, dotProduct_smul, ho k (i - 1) le_rfl (by omega), if_neg (by omega), smul_zero]
            rw [this]; simp
    exact key m le_rfl

/-! ### The first vector is not of length one -/

/-- One step on the pencil `5 x = lambda 4 x` with the shift `1`. -/
theorem general_example : ∃ (s : GLanState 1) (w : ℝ),
    generalProcess (fullCSR !![5]) (fullCSR !![4]) 1 1 = some s ∧ |4 - w| < 1.0e-9 ∧ s.q 0 = ![1] ∧
      s.alpha 0 = 4 * w ∧ s.beta 0 = 6 * w := by
  have hB := fullCSR_isCSR !![(4 : ℝ)]
  obtain ⟨A', h1, h2⟩ := shiftPencil_spec (fullCSR_isCSR !![(5 : ℝ)]) hB 1
  have hK : (!![(5 : ℝ)] - (1 : ℝ) • !![(4 : ℝ)]) = !![1] := by
    ext i j; fin_cases i; fin_cases j; norm_num
  rw [hK] at h2
  have hd : getDiagonal 1 A' = some ![1] := by
    rw [getDiagonal_eq A' _ h2]
    congr 1
    funext i; fin_cases i; rfl
  have hone : vnorm ![(1 : ℝ)] = 1 := by simp [vnorm, dotProduct]
  have hspd : SPD !![(1 : ℝ)] := by
    have e : !![(1 : ℝ)] = 1 := by ext i j; fin_cases i; fin_cases j; rfl
    rw [e]; exact spd_one
  have h4 : (!![(4 : ℝ)]).mulVec ![1] = ![4] := by
    funext i; fin_cases i; simp [Matrix.mulVec, dotProduct]
  have hv4 : vnorm ![(4 : ℝ)] = 4 := by
    simp only [vnorm, dotProduct, Finset.univ_unique, Fin.default_eq_zero, Finset.sum_singleton, Matrix.cons_val_zero]
    exact Real.sqrt_mul_self (by norm_num)
  obtain ⟨w, cv, g1, g2⟩ := C14_scalingCG_converges A' _ h2 hspd ![4] (by intro e; simpa using congrFun e 0) 1.0e-10
    (by norm_num) (max 1 10000)
  have g3 := (C105_solves A' _ h2 hspd ![4] w (by intro e; simpa using congrFun e 0) cv 9999 g1).2
  have g4 := lt_of_le_of_lt (abs_le_vnorm _ 0) g3
  rw [hv4] at g4
  simp [Matrix.mulVec, dotProduct] at g4
  have hw : |4 - w 0| < 1.0e-9 := by norm_num at g4 ⊢; linarith
  have hpos : 0 < w 0 := by have := abs_lt.1 hw; norm_num at this; linarith
  unfold generalProcess gLanczos
  rw [h1]
  have hr : (fullCSR !![(5 : ℝ)]).rows = 1 := (fullCSR_isCSR !![(5 : ℝ)]).rows
  have hq : vdiv ![(1 : ℝ)] (vnorm ![(1 : ℝ)]) = some ![1] := by
    unfold vdiv
    rw [hone, if_neg (by norm_num)]
    congr 1
    funext i; fin_cases i; norm_num
  simp only [Option.bind_eq_bind, Option.bind_some, hd, hq, csrMul_eq hB, h4, hr]
  rw [forUpM_succ (Nat.zero_le 0), forUpM_same]
  simp only [Option.bind_some]
  unfold gLanStep
  have hs : cgSolve A' (max 1 10000) ![4] = some w := by unfold cgSolve; rw [g1]; rfl
  simp only [hs, csrMul_eq hB, Option.bind_eq_bind, Option.bind_some, nextImage, storeNext, ne_eq, Nat.sub_self,
    not_true_eq_false, if_false, upd1_self]
  refine ⟨_, w 0, rfl, hw, rfl, ?_, ?_⟩
  · simp [dotProduct]
  · have e : (!![(4 : ℝ)]).mulVec (w + -(![4] ⬝ᵥ w) • ![1]) ⬝ᵥ (w + -(![4] ⬝ᵥ w) • ![1]) = (6 * w 0) * (6 * w 0) := by
      simp [Matrix.mulVec, dotProduct]; ring
    simp only [upd1_self]
    rw [e]
    exact Real.sqrt_mul_self (by linarith)

/-- **C106** fails for `GeneralShiftedInvertLanczos`: the first vector is divided by its Euclidean norm, not by its length
as measured with the second matrix.  Already with one unknown, where one step is complete, the eigenvalue returned for
the pencil `5 x = lambda 4 x` is near `17 / 16` instead of `5 / 4`. -/
theorem C106_general_false : ∃ (A B : CSR ℝ) (K M : Matrix (Fin 1) (Fin 1) ℝ) (s : GLanState 1),
    IsCSR 1 A K ∧ IsCSR 1 B M ∧ SPD K ∧ SPD M ∧ SPD (K - (1 : ℝ) • M) ∧ generalProcess A B 1 1 = some s ∧
      s.q 0 ⬝ᵥ M.mulVec (s.q 0) ≠ 1 ∧ ∀ fuel, 46 ≤ fuel → ∃ e, bisection s.alpha s.beta 1 0 fuel = some e ∧ e ≠ 0 ∧
        ∀ lam, (∃ x, x ≠ 0 ∧ K.mulVec x = lam • M.mulVec x) → 0.1 < |1 + e⁻¹ - lam| := by
  obtain ⟨s, w, hs, hw, hq, ha, hb⟩ := general_example
  have hspd : ∀ a : ℝ, 0 < a → SPD !![a] := by
    intro a h
    refine ⟨fun i j => by fin_cases i; fin_cases j; rfl, fun v hv => ?_⟩
    have h0 : v 0 ≠ 0 := by
      intro e
      exact hv (by funext i; fin_cases i; exact e)
    have e : v ⬝ᵥ (!![a]).mulVec v = a * (v 0 * v 0) := by simp [Matrix.mulVec, dotProduct]; ring
    rw [e]
    exact mul_pos h (mul_self_pos.2 h0)
  have hK : (!![(5 : ℝ)] - (1 : ℝ) • !![(4 : ℝ)]) = !![1] := by
    ext i j; fin_cases i; fin_cases j; norm_num
  refine ⟨_, _, _, _, s, fullCSR_isCSR _, fullCSR_isCSR _, hspd 5 (by norm_num), hspd 4 (by norm_num),
    by rw [hK]; exact hspd 1 (by norm_num), hs, ?_, fun fuel hf => ?_⟩
  · rw [hq]
    simp [Matrix.mulVec, dotProduct]
  · have hw' := abs_lt.1 hw
    norm_num at hw'
    have hB : bisBound s.alpha s.beta 1 = 10 * w := by
      unfold bisBound
      have e : forUp 1 1 (fun i b => if b < |s.beta (i - 1)| + |s.alpha i| + |s.beta i| then
          |s.beta (i - 1)| + |s.alpha i| + |s.beta i| else b) (|s.alpha 0| + |s.beta 0|) = |s.alpha 0| + |s.beta 0| := by
        simp [forUp]
      rw [e, ha, hb, abs_of_pos (by linarith), abs_of_pos (by linarith)]
      ring
    have hx : ∀ mu, IsEig 1 s.alpha s.beta mu ↔ ∃ i < 1, mu = (fun _ : ℕ => 4 * w) i := by
      intro mu
      rw [isEig_iff (by norm_num) (by intro i hi; omega)]
      simp [charSeq, ha, sub_eq_zero]
    obtain ⟨e, he, hd⟩ := C62_bisection (m := 1) (by norm_num) (alpha := s.alpha) (beta := s.beta)
      (x := fun _ => 4 * w) (by intro i hi; omega) (by intro i j hi hj; omega) hx (by rw [hB]; linarith) (mode := 0)
      (by norm_num) fuel hf
    rw [hB] at hd
    have hd' := abs_le.1 hd
    norm_num at hd'
    have he15 : 15 < e := by linarith
    refine ⟨e, he, by linarith, ?_⟩
    rintro lam ⟨x, hx0, hxe⟩
    have h0 : x 0 ≠ 0 := by
      intro e
      exact hx0 (by funext i; fin_cases i; exact e)
    have hl : lam = 5 / 4 := by
      have := congrFun hxe 0
      simp [Matrix.mulVec, dotProduct] at this
      have h2 : (5 - lam * 4) * x 0 = 0 := by linear_combination this
      have := (mul_eq_zero.1 h2).resolve_right h0
      linarith
    rw [hl]
    have hinv : e⁻¹ < 1 / 15 := by
      rw [one_div]
      exact inv_strictAnti₀ (by norm_num) he15
    have hinv0 : 0 < e⁻¹ := inv_pos.2 (by linarith)
    rw [abs_of_neg (by linarith)]
    norm_num
    linarith

/-! ### Runs with exact solutions -/

/-- Two steps with the pencil `diag (3/2, 5/2)`, `diag (1/2, 3/2)` and the shift `1`; the shifted matrix is the unit
matrix, and its diagonal has length one as measured with the second matrix. -/
theorem exact_example : ∃ s : GLanState 2, gLanczos some (csrMul (fullCSR !![1 / 2, 0; 0, 3 / 2])) ![1, 1] 2 = some s := by
  have hB := fullCSR_isCSR !![(1 / 2 : ℝ), 0; 0, 3 / 2]
  have hpos : 0 < vnorm ![(1 : ℝ), 1] := vnorm_pos (by intro e; simpa using congrFun e 0)
  set c := (vnorm ![(1 : ℝ), 1])⁻¹ with hc
  have hc0 : 0 < c := inv_pos.2 hpos
  have hcc : c * c = 1 / 2 := by
    have hv : ![(1 : ℝ), 1] ⬝ᵥ ![1, 1] = 2 := by
      simp [dotProduct, Fin.sum_univ_two]; norm_num
    have := vnorm_sq ![(1 : ℝ), 1]
    rw [hv] at this
    rw [hc, ← mul_inv, this]; norm_num
  have h0 : vdiv ![(1 : ℝ), 1] (vnorm ![(1 : ℝ), 1]) = some ![c, c] := by
    unfold vdiv
    rw [if_neg (by rintro ⟨h, -⟩; exact hpos.ne' h)]
    congr 1
    funext i
    fin_cases i <;> simp [hc]
  have hM : ∀ v : Fin 2 → ℝ, (!![(1 / 2 : ℝ), 0; 0, 3 / 2]).mulVec v = ![v 0 / 2, 3 / 2 * v 1] := by
    intro v; funext i; fin_cases i <;> simp [Matrix.mulVec, dotProduct, Fin.sum_univ_two] ; ring
  unfold gLanczos
  simp only [h0, csrMul_eq hB, hM, Option.bind_eq_bind, Option.bind_some]
  rw [forUpM_succ (Nat.zero_le 1), forUpM_succ (Nat.zero_le 0), forUpM_same]
  simp only [Option.bind_some]
  have h1 : ∃ t, gLanStep some (csrMul (fullCSR !![(1 / 2 : ℝ), 0; 0, 3 / 2])) 2 0
      ⟨⟨upd1 (fun _ => 0) 0 ![c, c], fun _ => 0, fun _ => 0⟩, ![![c, c] 0 / 2, 3 / 2 * ![c, c] 1]⟩ = some t := by
    unfold gLanStep
    simp only [csrMul_eq hB, hM, upd1_self, Option.bind_eq_bind, Option.bind_some, ne_eq, not_true_eq_false, if_false]
    have ha : ![![c, c] 0 / 2, 3 / 2 * ![c, c] 1] ⬝ᵥ ![![c, c] 0 / 2, 3 / 2 * ![c, c] 1] = 5 / 4 := by
      simp [dotProduct, Fin.sum_univ_two]
      linear_combination 5 / 2 * hcc
    rw [ha]
    generalize hb : Real.sqrt _ = b
    have hb0 : b ≠ 0 := by
      rw [← hb]
      refine (Real.sqrt_pos.2 ?_).ne'
      simp [dotProduct, Fin.sum_univ_two]
      nlinarith
    unfold storeNext nextImage vdiv
    rw [if_pos (by norm_num), if_neg (by rintro ⟨h, -⟩; exact hb0 h), if_pos (by norm_num),
      if_neg (by rintro ⟨h, -⟩; exact hb0 h)]
    exact ⟨_, rfl⟩
  obtain ⟨t, ht⟩ := h1
  rw [ht]
  simp only [Option.bind_some]
  unfold gLanStep
  simp only [csrMul_eq hB, Option.bind_eq_bind, Option.bind_some, storeNext, nextImage]
  rw [if_neg (by norm_num), if_neg (by norm_num)]
  exact ⟨_, rfl⟩

theorem exact_hyps : IsCSR 2 (fullCSR !![1 / 2, 0; 0, 3 / 2]) !![(1 / 2 : ℝ), 0; 0, 3 / 2] ∧
    (∀ i j, !![(3 / 2 : ℝ), 0; 0, 5 / 2] i j = !![(3 / 2 : ℝ), 0; 0, 5 / 2] j i) ∧
    SPD !![(1 / 2 : ℝ), 0; 0, 3 / 2] ∧
    (∀ v w : Fin 2 → ℝ, some v = some w →
      (!![(3 / 2 : ℝ), 0; 0, 5 / 2] - (1 : ℝ) • !![(1 / 2 : ℝ), 0; 0, 3 / 2]).mulVec w = v) ∧
    ![(1 : ℝ), 1] ⬝ᵥ (!![(1 / 2 : ℝ), 0; 0, 3 / 2]).mulVec ![1, 1] = ![1, 1] ⬝ᵥ ![1, 1] := by
  refine ⟨fullCSR_isCSR _, fun i j => by fin_cases i <;> fin_cases j <;> rfl,
    ⟨fun i j => by fin_cases i <;> fin_cases j <;> rfl, fun v hv => ?_⟩, ?_, ?_⟩
  · have e : v ⬝ᵥ (!![(1 / 2 : ℝ), 0; 0, 3 / 2]).mulVec v = 1 / 2 * v 0 ^ 2 + 3 / 2 * v 1 ^ 2 := by
      simp [dotProduct, Matrix.mulVec, Fin.sum_univ_two]; ring
    rw [e]
    by_cases h0 : v 0 = 0
    · have h1 : v 1 ≠ 0 := by
        intro h1
        exact hv (by funext i; fin_cases i <;> simp [h0, h1])
      positivity
    · positivity
  · intro v w h
    obtain rfl := Option.some.inj h
    have e : (!![(3 / 2 : ℝ), 0; 0, 5 / 2] - (1 : ℝ) • !![(1 / 2 : ℝ), 0; 0, 3 / 2]) = 1 := by
      ext i j; fin_cases i <;> fin_cases j <;> norm_num
    rw [e, Matrix.one_mulVec]
  · simp [dotProduct, Matrix.mulVec, Fin.sum_univ_two]; norm_num

/-- That run finds the eigenvalue `3` of the pencil as `1 + 1 / theta`. -/
example : ∃ s : GLanState 2, gLanczos some (csrMul (fullCSR !![1 / 2, 0; 0, 3 / 2])) ![1, 1] 2 = some s ∧
    ∃ theta, theta ≠ 0 ∧ IsEig 2 s.alpha s.beta theta ∧ 3 = 1 + theta⁻¹ := by
  obtain ⟨s, hs⟩ := exact_example
  obtain ⟨h1, h2, h3, h4, h5⟩ := exact_hyps
  refine ⟨s, hs, (C106_all_partial some _ _ _ 1 h1 h2 h3 h4 (by norm_num) _ h5 s hs 3).1 ⟨![1, 0], ?_, ?_⟩⟩
  · intro e; simpa using congrFun e 0
  · funext i; fin_cases i <;> simp [Matrix.mulVec, dotProduct, Fin.sum_univ_two]
    norm_num

/-- The vectors of that run are orthonormal with respect to the second matrix, and the version with the additional loop
does the same. -/
example : ∃ s : GLanState 2, gReLanczos some (csrMul (fullCSR !![1 / 2, 0; 0, 3 / 2])) ![1, 1] 2 = some s ∧
    s.q 0 ⬝ᵥ (!![(1 / 2 : ℝ), 0; 0, 3 / 2]).mulVec (s.q 1) = 0 ∧
    ∀ (theta : ℝ) (y : ℕ → ℝ), theta ≠ 0 → TriResidual 2 s.alpha s.beta theta y (fun _ => 0) → (∃ i < 2, y i ≠ 0) →
      (!![(3 / 2 : ℝ), 0; 0, 5 / 2]).mulVec (reconvert 2 y s.q) =
        (1 + theta⁻¹) • (!![(1 / 2 : ℝ), 0; 0, 3 / 2]).mulVec (reconvert 2 y s.q) := by
  obtain ⟨s, hs⟩ := exact_example
  obtain ⟨h1, h2, h3, h4, h5⟩ := exact_hyps
  have hsym : ∀ i j, (!![(3 / 2 : ℝ), 0; 0, 5 / 2] - (1 : ℝ) • !![(1 / 2 : ℝ), 0; 0, 3 / 2]) i j =
      (!![(3 / 2 : ℝ), 0; 0, 5 / 2] - (1 : ℝ) • !![(1 / 2 : ℝ), 0; 0, 3 / 2]) j i := by
    intro i j; fin_cases i <;> fin_cases j <;> simp
  refine ⟨s, ?_, ?_, fun theta y ht hy hy0 => (C106_pairs_partial some _ _ _ 1 h1 h2 h3 h4 (by norm_num) _ h5 s hs theta
    ht y hy hy0).2⟩
  · rw [C106_restart_partial some _ _ _ h1 hsym h3.1 h4 (by norm_num) 2 _ h5]
    exact hs
  · exact C106_orthonormal_partial some _ _ _ h1 hsym h3.1 h4 (by norm_num) 2 _ h5 s hs 0 1 (by norm_num) (by norm_num)

/-- `Lanczos` with two steps in two unknowns: `2 + sqrt 2` is an eigenvalue of the tridiagonal matrix. -/
example : ∃ s : LanState 2, lanczosProcess (fullCSR !![1, 1; 1, 3]) 2 = some s ∧
    IsEig 2 s.alpha s.beta (2 + Real.sqrt 2) := by
  obtain ⟨s, hs⟩ := lanczos_example
  have hsym : ∀ i j, !![(1 : ℝ), 1; 1, 3] i j = !![(1 : ℝ), 1; 1, 3] j i := by
    intro i j; fin_cases i <;> fin_cases j <;> rfl
  refine ⟨s, hs, (C106_lanczos _ _ (fullCSR_isCSR _) hsym (by norm_num) s hs _).1 ⟨![1, 1 + Real.sqrt 2], ?_, ?_⟩⟩
  · intro e; simpa using congrFun e 0
  · have h2 : Real.sqrt 2 * Real.sqrt 2 = 2 := Real.mul_self_sqrt (by norm_num)
    funext i; fin_cases i
    · simp [Matrix.mulVec, dotProduct, Fin.sum_univ_two]; ring
    · simp [Matrix.mulVec, dotProduct, Fin.sum_univ_two]; linear_combination -h2

/-- Two steps with exact solutions for `[[2, 1], [1, 4]]` and the shift `1`. -/
example : ∃ s : LanState 2, lanczos (fun v => some ![(3 * v 0 - v 1) / 2, (v 1 - v 0) / 2]) ![1, 3] 2 = some s ∧
    ∃ theta, theta ≠ 0 ∧ IsEig 2 s.alpha s.beta theta ∧ 3 + Real.sqrt 2 = 1 + theta⁻¹ := by
  have hrun : ∃ s : LanState 2,
      lanczos (fun v => some ![(3 * v 0 - v 1) / 2, (v 1 - v 0) / 2]) ![1, 3] 2 = some s := by
    have hpos : 0 < vnorm ![(1 : ℝ), 3] := vnorm_pos (by intro e; simpa using congrFun e 0)
    set c := (vnorm ![(1 : ℝ), 3])⁻¹ with hc
    have hc0 : 0 < c := inv_pos.2 hpos
    have hcc : c * c = 1 / 10 := by
      have hv : ![(1 : ℝ), 3] ⬝ᵥ ![1, 3] = 10 := by
        simp [dotProduct, Fin.sum_univ_two]; norm_num
      have := vnorm_sq ![(1 : ℝ), 3]
      rw [hv] at this
      rw [hc, ← mul_inv, this]; norm_num
    have h0 : vdiv ![(1 : ℝ), 3] (vnorm ![(1 : ℝ), 3]) = some ![c, 3 * c] := by
      unfold vdiv
      rw [if_neg (by rintro ⟨h, -⟩; exact hpos.ne' h)]
      congr 1
      funext i
      fin_cases i <;> simp [hc, div_eq_mul_inv]
    unfold lanczos
    simp only [h0, Option.bind_eq_bind, Option.bind_some]
    rw [forUpM_succ (Nat.zero_le 1), forUpM_succ (Nat.zero_le 0), forUpM_same]
    simp only [Option.bind_some]
    have h1 : ∃ t, lanStep (fun v : Fin 2 → ℝ => some ![(3 * v 0 - v 1) / 2, (v 1 - v 0) / 2]) 2 0
        ⟨upd1 (fun _ => 0) 0 ![c, 3 * c], fun _ => 0, fun _ => 0⟩ = some t := by
      unfold lanStep
      simp only [upd1_self, Option.bind_eq_bind, Option.bind_some, ne_eq, not_true_eq_false, if_false]
      have ha : ![c, 3 * c] ⬝ᵥ ![(3 * ![c, 3 * c] 0 - ![c, 3 * c] 1) / 2, (![c, 3 * c] 1 - ![c, 3 * c] 0) / 2] =
          3 / 10 := by
        simp [dotProduct, Fin.sum_univ_two]
        linear_combination 3 * hcc
      rw [ha]
      generalize hp : ![(3 * ![c, 3 * c] 0 - ![c, 3 * c] 1) / 2, (![c, 3 * c] 1 - ![c, 3 * c] 0) / 2] +
        (-(3 / 10 : ℝ)) • ![c, 3 * c] = p
      have hpn : vnorm p ≠ 0 := by
        have : p ≠ 0 := by
          intro e
          have := congrFun (hp.trans e) 0
          simp at this
          exact hc0.ne' this
        exact (vnorm_pos this).ne'
      unfold storeNext vdiv
      rw [if_pos (by norm_num), if_neg (by rintro ⟨h, -⟩; exact hpn h)]
      exact ⟨_, rfl⟩
    obtain ⟨t, ht⟩ := h1
    rw [ht]
    simp only [Option.bind_some]
    unfold lanStep
    simp only [Option.bind_eq_bind, Option.bind_some, storeNext]
    rw [if_neg (by norm_num)]
    exact ⟨_, rfl⟩
  obtain ⟨s, hs⟩ := hrun
  refine ⟨s, hs, ((C106_shifted _ !![(2 : ℝ), 1; 1, 4] 1 ?_ ?_ (by norm_num) _ s hs).1 (3 + Real.sqrt 2)).1
    ⟨![1, 1 + Real.sqrt 2], ?_, ?_⟩⟩
  · intro i j; fin_cases i <;> fin_cases j <;> rfl
  · intro v w h
    obtain rfl := Option.some.inj h
    have e : (!![(2 : ℝ), 1; 1, 4] - (1 : ℝ) • (1 : Matrix (Fin 2) (Fin 2) ℝ)) = !![1, 1; 1, 3] := by
      ext i j; fin_cases i <;> fin_cases j <;> norm_num [Matrix.one_apply]
    rw [e]
    funext i; fin_cases i <;> simp [Matrix.mulVec, dotProduct, Fin.sum_univ_two] <;> ring
  · intro e; simpa using congrFun e 0
  · have h2 : Real.sqrt 2 * Real.sqrt 2 = 2 := Real.mul_self_sqrt (by norm_num)
    funext i; fin_cases i
    · simp [Matrix.mulVec, dotProduct, Fin.sum_univ_two]; ring
    · simp [Matrix.mulVec, dotProduct, Fin.sum_univ_two]; linear_combination -h2

/-! ### C107 -/

/-- **C107** for `RestartLanczos`: the loop makes the vector orthogonal to the older ones, by subtracting multiples of
them. -/
theorem C107_restart (k : ℕ) (q : ℕ → Fin n → ℝ)
    (hq : ∀ i j, i < k - 2 → j < k - 2 → q i ⬝ᵥ q j = if i = j then 1 else 0) (p : Fin n → ℝ) :
    (∀ i < k - 2, reorth k q p ⬝ᵥ q i = 0) ∧
      reorth k q p = p - ∑ i ∈ Finset.range (k - 2), (p ⬝ᵥ q i) • q i := by
  have key : reorth k q p = p - ∑ i ∈ Finset.range (k - 2), (p ⬝ᵥ q i) • q i := by
    unfold reorth
    refine forUp_inv (Nat.zero_le _) _ _ (fun l t => t = p - ∑ i ∈ Finset.range l, (p ⬝ᵥ q i) • q i) (by simp) ?_
    intro i t _ hi ht
    have e : t ⬝ᵥ q i = p ⬝ᵥ q i := by
      rw [ht, sub_dotProduct, sum_dotProduct, Finset.sum_eq_zero, sub_zero]
      intro j hj
      have := Finset.mem_range.1 hj
      rw [smul_dotProduct, hq j i (by omega) hi, if_neg (by omega), smul_zero]
    rw [e, ht, Finset.sum_range_succ]
    module
  refine ⟨fun i hi => ?_, key⟩
  rw [key, sub_dotProduct, sum_dotProduct,
    Finset.sum_congr rfl fun j hj => by rw [smul_dotProduct, hq j i (Finset.mem_range.1 hj) hi]]
  simp [hi]

/-- **C107** in part, for `GeneralRestartShiftedInvertLanczos`: a vector that already is orthogonal to the older ones is
left alone. -/
theorem C107_general_partial (B : CSR ℝ) (M : Matrix (Fin n) (Fin n) ℝ) (hB : IsCSR n B M) (k : ℕ) (q : ℕ → Fin n → ℝ)
    (s : Fin n → ℝ) (h : ∀ i < k - 2, s ⬝ᵥ M.mulVec (q i) = 0) : gReorth (csrMul B) k q s = some s :=
  gReorth_id (fun v => csrMul_eq hB v) h

/-- **C107** fails for `GeneralRestartShiftedInvertLanczos`: the loop subtracts a multiple of `B q` where it should subtract
one of `q`.  The vectors are orthonormal with respect to `B`, and the result is not orthogonal to the first one. -/
theorem C107_general_false : ∃ (B : CSR ℝ) (M : Matrix (Fin 4) (Fin 4) ℝ) (q : ℕ → Fin 4 → ℝ) (s t : Fin 4 → ℝ),
    IsCSR 4 B M ∧ SPD M ∧ (∀ i j, i < 4 → j < 4 → q i ⬝ᵥ M.mulVec (q j) = if i = j then 1 else 0) ∧
      gReorth (csrMul B) 3 q s = some t ∧ t ⬝ᵥ M.mulVec (q 0) ≠ 0 := by
  have hB := fullCSR_isCSR ((4 : ℝ) • (1 : Matrix (Fin 4) (Fin 4) ℝ))
  refine ⟨_, _, fun i l => if (l : ℕ) = i then 1 / 2 else 0, ![1, 0, 0, 0], ![-3, 0, 0, 0], hB, ⟨?_, ?_⟩, ?_, ?_, ?_⟩
  · intro i j
    rw [Matrix.smul_apply, Matrix.smul_apply, spd_one.1]
  · intro v hv
    rw [Matrix.smul_mulVec, dotProduct_smul]
    exact mul_pos (by norm_num) (spd_one.2 v hv)
  · intro i j hi hj
    rw [Matrix.smul_mulVec, Matrix.one_mulVec]
    interval_cases i <;> interval_cases j <;> simp [dotProduct, Fin.sum_univ_succ] <;> norm_num
  · unfold gReorth
    rw [show 3 - 2 = 0 + 1 by rfl, forUpM_succ (Nat.zero_le 0), forUpM_same]
    simp only [Option.bind_some, csrMul_eq hB, Option.bind_eq_bind, Matrix.smul_mulVec, Matrix.one_mulVec]
    congr 1
    funext i
    fin_cases i <;> simp [dotProduct, Fin.sum_univ_succ] <;> norm_num
  · rw [Matrix.smul_mulVec, Matrix.one_mulVec]
    simp [dotProduct, Fin.sum_univ_succ]

/-- `C105_general` for the pencil with one unknown. -/
example : ∃ s : GLanState 1, generalProcess (fullCSR !![5]) (fullCSR !![4]) 1 1 = some s ∧ ∀ (y r : ℕ → ℝ) (theta : ℝ),
    theta ≠ 0 → TriResidual 1 s.alpha s.beta theta y r → ∃ A', shiftPencil (fullCSR !![5]) (fullCSR !![4]) 1 = some A' ∧
      ∃ (w : ℕ → Fin 1 → ℝ) (conv : ℕ → Bool) (p : Fin 1 → ℝ),
      (∀ j < 1, scalingCG A' ((!![(4 : ℝ)]).mulVec (s.q j)) (max 1 10000) 1.0e-10 = some (w j, conv j)) ∧
      Real.sqrt ((!![(4 : ℝ)]).mulVec p ⬝ᵥ p) = s.beta (1 - 1) ∧
      (!![(5 : ℝ)]).mulVec (reconvert 1 y s.q) - (1 + theta⁻¹) • (!![(4 : ℝ)]).mulVec (reconvert 1 y s.q) =
        -(theta⁻¹ • (∑ j ∈ Finset.range 1, y j • ((!![(4 : ℝ)]).mulVec (s.q j) -
          (!![(5 : ℝ)] - (1 : ℝ) • !![(4 : ℝ)]).mulVec (w j)) +
          (!![(5 : ℝ)] - (1 : ℝ) • !![(4 : ℝ)]).mulVec (reconvert 1 r s.q + y (1 - 1) • p))) := by
  obtain ⟨s, w, hs, -⟩ := general_example
  exact ⟨s, hs, fun y r theta ht hy => C105_general _ _ _ _ (fullCSR_isCSR _) (fullCSR_isCSR _) (by norm_num) 1
    (by norm_num) 1 s hs y r theta ht hy⟩

/-- The loop of `RestartLanczos` for `k = 4`. -/
example : reorth 4 (fun i l => if (l : ℕ) = i then 1 else 0) ![5, 6, 7] = ![0, 0, (7 : ℝ)] := by
  rw [(C107_restart 4 (fun i (l : Fin 3) => if (l : ℕ) = i then (1 : ℝ) else 0) (fun i j hi hj => by
    interval_cases i <;> interval_cases j <;> simp [dotProduct, Fin.sum_univ_succ]) ![5, 6, 7]).2]
  funext i
  fin_cases i <;> simp [dotProduct, Fin.sum_univ_succ, Finset.sum_range_succ]

/-- A vector orthogonal to the first one stays. -/
example : gReorth (csrMul (fullCSR ((4 : ℝ) • (1 : Matrix (Fin 4) (Fin 4) ℝ)))) 3
    (fun i l => if (l : ℕ) = i then 1 / 2 else 0) ![0, 2, 3, 5] = some ![0, 2, 3, 5] := by
  refine C107_general_partial _ _ (fullCSR_isCSR _) 3 _ _ fun i hi => ?_
  obtain rfl : i = 0 := by omega
  rw [Matrix.smul_mulVec, Matrix.one_mulVec]
  simp [dotProduct, Fin.sum_univ_succ]

end Pansfem
