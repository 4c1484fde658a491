/-
C105: shift-and-invert Lanczos.  The matrix that is solved with is `K - sigma M`, and the pairs that come out satisfy
the eigenvalue equation up to the errors of the solutions, of the small problem and of the last remainder.
-/
import Verif.Lemmas.ShiftLanczos
import Verif.Props.C11_CG
import Verif.Props.C18_Lanczos

namespace Pansfem

variable {n : ℕ}

/-- **C105**: `ShiftedInvertLanczos` works with `K - sigma I`. -/
theorem C105_matrix (A : CSR ℝ) (K : Matrix (Fin n) (Fin n) ℝ) (hA : IsCSR n A K) (sigma : ℝ) :
    ∃ A', shiftMatrix A sigma = some A' ∧ IsCSR n A' (K - sigma • 1) := shiftMatrix_spec hA sigma

/-- **C105**: the general versions work with `K - sigma M`. -/
theorem C105_pencil (A B : CSR ℝ) (K M : Matrix (Fin n) (Fin n) ℝ) (hA : IsCSR n A K) (hB : IsCSR n B M)
    (sigma : ℝ) : ∃ A', shiftPencil A B sigma = some A' ∧ IsCSR n A' (K - sigma • M) := shiftPencil_spec hA hB sigma

/-- From the recurrence with approximate solutions to the residual of the pencil. -/
theorem shift_residual {K' M : Matrix (Fin n) (Fin n) ℝ} {q w : ℕ → Fin n → ℝ} {m : ℕ} {y : ℕ → ℝ} {theta : ℝ}
    (ht : theta ≠ 0) {R : Fin n → ℝ}
    (h : ∑ k ∈ Finset.range m, y k • w k - theta • ∑ k ∈ Finset.range m, y k • q k = R) :
    K'.mulVec (∑ k ∈ Finset.range m, y k • q k) - theta⁻¹ • M.mulVec (∑ k ∈ Finset.range m, y k • q k) =
      -(theta⁻¹ • (∑ k ∈ Finset.range m, y k • (M.mulVec (q k) - K'.mulVec (w k)) + K'.mulVec R)) := by
  have lin : ∀ (L : Matrix (Fin n) (Fin n) ℝ) (v : ℕ → Fin n → ℝ),
      L.mulVec (∑ k ∈ Finset.range m, y k • v k) = ∑ k ∈ Finset.range m, y k • L.mulVec (v k) := by
    intro L v
    rw [← Matrix.mulVecLin_apply, map_sum]
    simp
  have e1 : ∑ k ∈ Finset.range m, y k • (M.mulVec (q k) - K'.mulVec (w k)) =
      M.mulVec (∑ k ∈ Finset.range m, y k • q k) - K'.mulVec (∑ k ∈ Finset.range m, y k • w k) := by
    rw [lin, lin, ← Finset.sum_sub_distrib]
    exact Finset.sum_congr rfl fun k _ => smul_sub _ _ _
  rw [e1, ← h, Matrix.mulVec_sub, Matrix.mulVec_smul]
  have := inv_mul_cancel₀ ht
  rw [smul_add, smul_sub, smul_sub, smul_smul theta⁻¹ theta, this]
  module

/-- The vector `y` solves `(T - theta) y = r` for the tridiagonal matrix of the process. -/
def TriResidual (m : ℕ) (alpha beta : ℕ → ℝ) (theta : ℝ) (y r : ℕ → ℝ) : Prop :=
  ∀ i < m, (alpha i - theta) * y i + (if i = 0 then 0 else beta (i - 1) * y (i - 1)) +
    (if i + 1 = m then 0 else beta i * y (i + 1)) = r i

/-- **C105**: the residual of a pair of `ShiftedInvertLanczos`.  Here `w j` is what `ScalingCG` returned for `q j`, and
the last remainder has norm `beta (m - 1)`. -/
theorem C105_residual (A : CSR ℝ) (K : Matrix (Fin n) (Fin n) ℝ) (hA : IsCSR n A K) (hn : n ≠ 0) (m : ℕ) (hm : 0 < m)
    (sigma : ℝ) (s : LanState n) (h : shiftedProcess A m sigma = some s) (y r : ℕ → ℝ) (theta : ℝ) (ht : theta ≠ 0)
    (hy : TriResidual m s.alpha s.beta theta y r) :
    ∃ A', shiftMatrix A sigma = some A' ∧ ∃ (w : ℕ → Fin n → ℝ) (conv : ℕ → Bool) (p : Fin n → ℝ),
      (∀ j < m, scalingCG A' (s.q j) (max n 1000) 1.0e-10 = some (w j, conv j)) ∧ vnorm p = s.beta (m - 1) ∧
      K.mulVec (reconvert m y s.q) - (sigma + theta⁻¹) • reconvert m y s.q =
        -(theta⁻¹ • (∑ j ∈ Finset.range m, y j • (s.q j - (K - sigma • 1).mulVec (w j)) +
          (K - sigma • 1).mulVec (reconvert m r s.q + y (m - 1) • p))) := by
  obtain ⟨A', h1, h2⟩ := shiftMatrix_spec hA sigma
  refine ⟨A', h1, ?_⟩
  unfold shiftedProcess at h
  rw [h1] at h
  simp only [Option.bind_eq_bind, Option.bind_some] at h
  obtain ⟨d, -, h⟩ := Option.bind_eq_some_iff.1 h
  obtain ⟨-, -, hrow⟩ := lanczos_inv _ hn h
  have hw : ∀ j, ∃ (w : Fin n → ℝ) (c : Bool) (p : Fin n → ℝ), j < m →
      scalingCG A' (s.q j) (max n 1000) 1.0e-10 = some (w, c) ∧ w = prevTerm s j + s.alpha j • s.q j + p ∧
        vnorm p = s.beta j ∧ (j ≠ m - 1 → p = s.beta j • s.q (j + 1)) := by
    intro j
    by_cases hj : j < m
    · obtain ⟨w, p, g1, g2, -, g4, g5⟩ := hrow j hj
      unfold cgSolve at g1
      rw [hA.rows] at g1
      obtain ⟨⟨w', c⟩, g6, g7⟩ := Option.map_eq_some_iff.1 g1
      simp only at g7
      subst g7
      refine ⟨w', c, p, fun _ => ⟨g6, g2, g4.symm, fun hjm => ?_⟩⟩
      rw [(g5 hjm).2, smul_smul, mul_inv_cancel₀ (g5 hjm).1, one_smul]
    · exact ⟨0, false, 0, fun h => absurd h hj⟩
  choose w c p hw using hw
  refine ⟨w, c, p (m - 1), fun j hj => (hw j hj).1, (hw (m - 1) (by omega)).2.2.1, ?_⟩
  obtain ⟨m', rfl⟩ : ∃ m', m = m' + 1 := ⟨m - 1, by omega⟩
  have key := ritz_sum (q := s.q) (w := w) (alpha := s.alpha) (beta := s.beta) (y := y) (r := r) (lam := theta)
    (m := m') (p := p m') (fun j hj => ?_) (fun i hi => by simpa using hy i hi)
  · have res := shift_residual (K' := K - sigma • 1) (M := 1) ht key
    simp only [Matrix.one_mulVec] at res
    simp only [reconvert_eq, Nat.add_sub_cancel]
    rw [← res, Matrix.sub_mulVec, Matrix.smul_mulVec, Matrix.one_mulVec]
    module
  · obtain ⟨-, g2, -, g4⟩ := hw j hj
    rw [g2]
    unfold prevTerm
    by_cases e : j = m'
    · rw [if_pos e, e]
    · rw [if_neg e, g4 (by omega)]

/-- **C105**: the residual of a pair of `GeneralShiftedInvertLanczos`, with the second matrix `M`.  The last remainder
has length `beta (m - 1)` as measured with `M`. -/
theorem C105_general (A B : CSR ℝ) (K M : Matrix (Fin n) (Fin n) ℝ) (hA : IsCSR n A K) (hB : IsCSR n B M) (hn : n ≠ 0)
    (m : ℕ) (hm : 0 < m) (sigma : ℝ) (s : GLanState n) (h : generalProcess A B m sigma = some s) (y r : ℕ → ℝ)
    (theta : ℝ) (ht : theta ≠ 0) (hy : TriResidual m s.alpha s.beta theta y r) :
    ∃ A', shiftPencil A B sigma = some A' ∧ ∃ (w : ℕ → Fin n → ℝ) (conv : ℕ → Bool) (p : Fin n → ℝ),
      (∀ j < m, scalingCG A' (M.mulVec (s.q j)) (max n 10000) 1.0e-10 = some (w j, conv j)) ∧
      Real.sqrt (M.mulVec p ⬝ᵥ p) = s.beta (m - 1) ∧
      K.mulVec (reconvert m y s.q) - (sigma + theta⁻¹) • M.mulVec (reconvert m y s.q) =
        -(theta⁻¹ • (∑ j ∈ Finset.range m, y j • (M.mulVec (s.q j) - (K - sigma • M).mulVec (w j)) +
          (K - sigma • M).mulVec (reconvert m r s.q + y (m - 1) • p))) := by
  obtain ⟨A', h1, h2⟩ := shiftPencil_spec hA hB sigma
  refine ⟨A', h1, ?_⟩
  unfold generalProcess at h
  rw [h1] at h
  simp only [Option.bind_eq_bind, Option.bind_some] at h
  obtain ⟨d, -, h⟩ := Option.bind_eq_some_iff.1 h
  obtain ⟨-, -, -, hrow⟩ := gLanczos_inv (fun v => csrMul_eq hB v) hn h
  have hw : ∀ j, ∃ (w : Fin n → ℝ) (c : Bool) (p : Fin n → ℝ), j < m →
      scalingCG A' (M.mulVec (s.q j)) (max n 10000) 1.0e-10 = some (w, c) ∧
        w = prevTerm s.toLanState j + s.alpha j • s.q j + p ∧
        Real.sqrt (M.mulVec p ⬝ᵥ p) = s.beta j ∧ (j ≠ m - 1 → p = s.beta j • s.q (j + 1)) := by
    intro j
    by_cases hj : j < m
    · obtain ⟨w, p, g1, g2, -, g4, g5⟩ := hrow j hj
      unfold cgSolve at g1
      rw [hA.rows] at g1
      obtain ⟨⟨w', c⟩, g6, g7⟩ := Option.map_eq_some_iff.1 g1
      simp only at g7
      subst g7
      refine ⟨w', c, p, fun _ => ⟨g6, g2, g4.symm, fun hjm => ?_⟩⟩
      rw [(g5 hjm).2, smul_smul, mul_inv_cancel₀ (g5 hjm).1, one_smul]
    · exact ⟨0, false, 0, fun h => absurd h hj⟩
  choose w c p hw using hw
  refine ⟨w, c, p (m - 1), fun j hj => (hw j hj).1, (hw (m - 1) (by omega)).2.2.1, ?_⟩
  obtain ⟨m', rfl⟩ : ∃ m', m = m' + 1 := ⟨m - 1, by omega⟩
  have key := ritz_sum (q := s.q) (w := w) (alpha := s.alpha) (beta := s.beta) (y := y) (r := r) (lam := theta)
    (m := m') (p := p m') (fun j hj => ?_) (fun i hi => by simpa using hy i hi)
  · have res := shift_residual (K' := K - sigma • M) (M := M) ht key
    simp only [reconvert_eq, Nat.add_sub_cancel]
    rw [← res, Matrix.sub_mulVec, Matrix.smul_mulVec]
    module
  · obtain ⟨-, g2, -, g4⟩ := hw j hj
    rw [g2]
    unfold prevTerm
    by_cases e : j = m'
    · rw [if_pos e, e]
    · rw [if_neg e, g4 (by omega)]

/-- **C105**: if the shifted matrix is positive definite, all solutions used by the two processes meet the tolerance. -/
theorem C105_solves (A' : CSR ℝ) (K' : Matrix (Fin n) (Fin n) ℝ) (hA : IsCSR n A' K') (hK : SPD K') (b w : Fin n → ℝ)
    (hb : b ≠ 0) (c : Bool) (itr : ℕ) (h : scalingCG A' b (max n (itr + 1)) 1.0e-10 = some (w, c)) :
    c = true ∧ vnorm (b - K'.mulVec w) < 1.0e-10 * vnorm b := by
  obtain ⟨w', c', g1, g2⟩ := C14_scalingCG_converges A' K' hA hK b hb 1.0e-10 (by norm_num) (max n (itr + 1))
  rw [h] at g1
  obtain ⟨rfl, rfl⟩ := Prod.mk.inj (Option.some.inj g1)
  have hc := g2 (le_max_left _ _)
  exact ⟨hc, (C14_scalingCG A' K' hA b _ _ w c (by omega) h).1 hc⟩

/-! ### A run -/

theorem abs_le_vnorm (v : Fin n → ℝ) (i : Fin n) : |v i| ≤ vnorm v := by
  have h : v i * v i ≤ v ⬝ᵥ v := Finset.single_le_sum (f := fun i => v i * v i) (fun i _ => mul_self_nonneg _)
    (Finset.mem_univ i)
  unfold vnorm
  rw [← Real.sqrt_mul_self_eq_abs]
  exact Real.sqrt_le_sqrt h

theorem shifted_spd : SPD (!![(1 : ℝ), 1; 1, 3]) := by
  refine ⟨fun i j => by fin_cases i <;> fin_cases j <;> rfl, fun v hv => ?_⟩
  have e : v ⬝ᵥ (!![(1 : ℝ), 1; 1, 3]).mulVec v = (v 0 + v 1) ^ 2 + 2 * v 1 ^ 2 := by
    simp [dotProduct, Matrix.mulVec, Fin.sum_univ_two]; ring
  rw [e]
  by_cases h1 : v 1 = 0
  · have h0 : v 0 ≠ 0 := by
      intro h0
      exact hv (by funext i; fin_cases i <;> simp [h0, h1])
    rw [h1]
    have : 0 < v 0 ^ 2 := by positivity
    simpa using this
  · have : 0 < v 1 ^ 2 := by positivity
    nlinarith [sq_nonneg (v 0 + v 1)]

/-- Two steps on `[[2, 1], [1, 4]]` with the shift `1`. -/
theorem shifted_example : ∃ s : LanState 2, shiftedProcess (fullCSR !![2, 1; 1, 4]) 2 1 = some s := by
  obtain ⟨A', h1, h2⟩ := shiftMatrix_spec (fullCSR_isCSR !![(2 : ℝ), 1; 1, 4]) 1
  have hK : (!![(2 : ℝ), 1; 1, 4] - (1 : ℝ) • (1 : Matrix (Fin 2) (Fin 2) ℝ)) = !![1, 1; 1, 3] := by
    ext i j; fin_cases i <;> fin_cases j <;> norm_num [Matrix.one_apply]
  rw [hK] at h2
  have hd : getDiagonal 2 A' = some ![1, 3] := by
    rw [getDiagonal_eq A' _ h2]
    congr 1
    funext i; fin_cases i <;> rfl
  have hv : ![(1 : ℝ), 3] ⬝ᵥ ![1, 3] = 10 := by
    simp [dotProduct, Fin.sum_univ_two]; norm_num
  have hsq := vnorm_sq ![(1 : ℝ), 3]
  rw [hv] at hsq
  have hpos : 0 < vnorm ![(1 : ℝ), 3] := vnorm_pos (by intro e; simpa using congrFun e 0)
  set c := (vnorm ![(1 : ℝ), 3])⁻¹ with hc
  have hc0 : 0 < c := inv_pos.2 hpos
  have hcc : c * c = 1 / 10 := by
    rw [hc, ← mul_inv, hsq]; norm_num
  have hc1 : 0.1 < c := by nlinarith
  unfold shiftedProcess lanczos
  rw [h1]
  simp only [Option.bind_eq_bind, Option.bind_some, hd]
  have h0 : vdiv ![(1 : ℝ), 3] (vnorm ![(1 : ℝ), 3]) = some ![c, 3 * c] := by
    unfold vdiv
    rw [if_neg (by rintro ⟨h, -⟩; exact hpos.ne' h)]
    congr 1
    funext i
    fin_cases i <;> simp [hc, div_eq_mul_inv]
  rw [h0]
  simp only [Option.bind_some]
  rw [forUpM_succ (Nat.zero_le 1), forUpM_succ (Nat.zero_le 0), forUpM_same]
  simp only [Option.bind_some]
  have hr : (fullCSR !![(2 : ℝ), 1; 1, 4]).rows = 2 := (fullCSR_isCSR !![(2 : ℝ), 1; 1, 4]).rows
  rw [hr]
  have hsolve : ∀ b : Fin 2 → ℝ, b ≠ 0 → ∃ w, cgSolve A' (max 2 1000) b = some w ∧
      vnorm (b - (!![(1 : ℝ), 1; 1, 3]).mulVec w) < 1.0e-10 * vnorm b := by
    intro b hb
    obtain ⟨w, cv, g1, g2⟩ := C14_scalingCG_converges A' _ h2 shifted_spd b hb 1.0e-10 (by norm_num) (max 2 1000)
    exact ⟨w, by unfold cgSolve; rw [g1]; rfl, (C105_solves A' _ h2 shifted_spd b w hb cv 999 g1).2⟩
  have hq0 : ![c, 3 * c] ≠ 0 := by intro e; exact hc0.ne' (by simpa using congrFun e 0)
  obtain ⟨w, hw1, hw2⟩ := hsolve _ hq0
  have hqn : vnorm ![c, 3 * c] = 1 := by
    have e : ![c, 3 * c] ⬝ᵥ ![c, 3 * c] = 1 := by
      simp [dotProduct, Fin.sum_univ_two]; linear_combination 10 * hcc
    unfold vnorm
    rw [e, Real.sqrt_one]
  rw [hqn, mul_one] at hw2
  have hstep : ∃ t, lanStep (cgSolve A' (max 2 1000)) 2 0
      ⟨upd1 (fun _ => 0) 0 ![c, 3 * c], fun _ => 0, fun _ => 0⟩ = some t ∧ t.q 1 ≠ 0 := by
    unfold lanStep
    simp only [upd1_self, hw1, Option.bind_eq_bind, Option.bind_some, ne_eq, not_true_eq_false, if_false]
    generalize ![c, 3 * c] ⬝ᵥ w = a
    have hp : w + -a • ![c, 3 * c] ≠ 0 := by
      intro e
      have e0 := congrFun e 0
      have e1 := congrFun e 1
      simp at e0 e1
      have b0 := lt_of_le_of_lt (abs_le_vnorm _ 0) hw2
      have b1 := lt_of_le_of_lt (abs_le_vnorm _ 1) hw2
      simp [Matrix.mulVec, dotProduct, Fin.sum_univ_two] at b0 b1
      rw [abs_lt] at b0 b1
      have e0' : w 0 = a * c := by linarith
      have e1' : w 1 = a * (3 * c) := by linarith
      rw [e0', e1'] at b0 b1
      norm_num at b0 b1
      have : (a * c) * 2 = (a * c) * 2 := rfl
      nlinarith [b0.1, b0.2, b1.1, b1.2]
    have hpn := vnorm_pos hp
    unfold storeNext vdiv
    rw [if_pos (by norm_num), if_neg (by rintro ⟨h, -⟩; exact hpn.ne' h)]
    refine ⟨_, rfl, ?_⟩
    simp only [zero_add, upd1_self]
    intro e
    apply hp
    funext i
    have := congrFun e i
    simp only [Pi.zero_apply, div_eq_zero_iff, hpn.ne', or_false] at this
    exact this
  obtain ⟨t, ht, htq⟩ := hstep
  rw [ht]
  simp only [Option.bind_some]
  obtain ⟨w', hw', -⟩ := hsolve _ htq
  unfold lanStep
  rw [hw']
  simp only [Option.bind_eq_bind, Option.bind_some, storeNext]
  rw [if_neg (by norm_num)]
  exact ⟨_, rfl⟩

/-- The pairs of that run. -/
example : ∃ s : LanState 2, shiftedProcess (fullCSR !![2, 1; 1, 4]) 2 1 = some s ∧ ∀ (y r : ℕ → ℝ) (theta : ℝ),
    theta ≠ 0 → TriResidual 2 s.alpha s.beta theta y r → ∃ (w : ℕ → Fin 2 → ℝ) (p : Fin 2 → ℝ),
      vnorm p = s.beta 1 ∧ (!![2, 1; 1, 4] : Matrix (Fin 2) (Fin 2) ℝ).mulVec (reconvert 2 y s.q) -
        (1 + theta⁻¹) • reconvert 2 y s.q =
        -(theta⁻¹ • (∑ j ∈ Finset.range 2, y j • (s.q j - (!![(2 : ℝ), 1; 1, 4] - (1 : ℝ) • 1).mulVec (w j)) +
          (!![(2 : ℝ), 1; 1, 4] - (1 : ℝ) • 1).mulVec (reconvert 2 r s.q + y 1 • p))) := by
  obtain ⟨s, hs⟩ := shifted_example
  refine ⟨s, hs, fun y r theta ht hy => ?_⟩
  obtain ⟨A', -, w, c, p, -, h1, h2⟩ := C105_residual _ _ (fullCSR_isCSR _) (by norm_num) 2 (by norm_num) 1 s hs y r
    theta ht hy
  exact ⟨w, p, h1, h2⟩

end Pansfem
