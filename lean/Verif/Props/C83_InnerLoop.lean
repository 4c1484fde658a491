/-
The inner loop of MMA and CONLIN: it is always defined (C83), its direction is the Newton direction of the
relaxed optimality conditions (C84), and its result satisfies them (C85) and is nearly optimal (C86).
-/
import Verif.Props.C48_MMA
import Mathlib.Algebra.BigOperators.Field
import Mathlib.Analysis.Calculus.Deriv.Slope

namespace Pansfem

open Classical

section
variable {n m : ℕ} {P : Sub n m} {w : Pt n m}

/-! ### The linear systems -/

theorem block_arr2 {k : ℕ} (A : Matrix (Fin k) (Fin k) ℝ) : block k (arr2 A) = A := by
  ext i j
  simp only [block, arr2]
  rw [Matrix.of_apply, dif_pos ⟨i.2, j.2⟩]

theorem seg_arr1 {k : ℕ} (b : Fin k → ℝ) : seg k (arr1 b) = b := by
  ext i
  simp only [seg, arr1]
  rw [dif_pos i.2]

theorem ipDx_pos (hP : GoodSub P) (hw : Inside P w) (j : Fin n) : 0 < ipDx P w j := by
  obtain ⟨h1, h2, h3, h4⟩ := hw.1 j
  have hl : ∀ i, 0 ≤ w.lam i := fun i => (hw.2.1 i).2.1.le
  have hp : 0 ≤ plambda P w.lam j :=
    add_nonneg (hP.p0 j) (Finset.sum_nonneg fun i _ => mul_nonneg (hl i) (hP.p i j))
  have hq : 0 ≤ qlambda P w.lam j :=
    add_nonneg (hP.q0 j) (Finset.sum_nonneg fun i _ => mul_nonneg (hl i) (hP.q i j))
  have hc := hP.curv j _ _ _ hp hq h1 h2
  have d1 : 0 < w.gsi j / (w.x j - P.alpha j) := div_pos h3 (by linarith)
  have d2 : 0 < w.ita j / (P.beta j - w.x j) := div_pos h4 (by linarith)
  unfold ipDx
  linarith

theorem ipDy_pos (hP : GoodSub P) (hw : Inside P w) (i : Fin m) : 0 < ipDy P w i := by
  obtain ⟨h1, h2, h3, h4⟩ := hw.2.1 i
  exact add_pos_of_nonneg_of_pos (hP.d i) (div_pos h3 h1)

theorem ipDly_pos (hP : GoodSub P) (hw : Inside P w) (i : Fin m) : 0 < ipDly P w i := by
  obtain ⟨h1, h2, h3, h4⟩ := hw.2.1 i
  exact add_pos (div_pos h4 h2) (one_div_pos.2 (ipDy_pos hP hw i))

theorem divisible_of_inside (hP : GoodSub P) (hw : Inside P w) : Divisible P w := by
  refine ⟨fun j => ?_, fun i => ?_, hw.2.2.1.ne'⟩
  · obtain ⟨h1, h2, h3, h4⟩ := hw.1 j
    exact ⟨hP.ok j _ h1 h2, by linarith, by linarith, (ipDx_pos hP hw j).ne'⟩
  · obtain ⟨h1, h2, h3, h4⟩ := hw.2.1 i
    exact ⟨h1.ne', h2.ne', (ipDy_pos hP hw i).ne', (ipDly_pos hP hw i).ne'⟩

theorem dualMatrix_cc (i j : Fin m) : dualMatrix P w i.castSucc j.castSucc =
    (∑ k, ipG P w i k * ipG P w j k / ipDx P w k) + if i = j then ipDly P w i else 0 := by
  simp only [dualMatrix, Fin.lastCases_castSucc]

theorem dualMatrix_cl (i : Fin m) : dualMatrix P w i.castSucc (Fin.last m) = P.a i := by
  simp only [dualMatrix, Fin.lastCases_castSucc, Fin.lastCases_last]

theorem dualMatrix_lc (i : Fin m) : dualMatrix P w (Fin.last m) i.castSucc = P.a i := by
  simp only [dualMatrix, Fin.lastCases_castSucc, Fin.lastCases_last]

theorem dualMatrix_ll : dualMatrix P w (Fin.last m) (Fin.last m) = -w.zeta / w.z := by
  simp only [dualMatrix, Fin.lastCases_last]

theorem dualRhs_c (eps : ℝ) (i : Fin m) : dualRhs P w eps i.castSucc =
    ipDelly P w eps i - ∑ j, ipG P w i j * ipDelx P w eps j / ipDx P w j := by
  simp only [dualRhs, Fin.lastCases_castSucc]

theorem dualRhs_l (eps : ℝ) : dualRhs P w eps (Fin.last m) = ipDelz P w eps := by
  simp only [dualRhs, Fin.lastCases_last]

theorem primalMatrix_cc (i j : Fin n) : primalMatrix P w i.castSucc j.castSucc =
    (∑ k, ipG P w k i * ipG P w k j / ipDly P w k) + if i = j then ipDx P w i else 0 := by
  simp only [primalMatrix, Fin.lastCases_castSucc]

theorem primalMatrix_cl (i : Fin n) : primalMatrix P w i.castSucc (Fin.last n) =
    -∑ k, ipG P w k i * P.a k / ipDly P w k := by
  simp only [primalMatrix, Fin.lastCases_castSucc, Fin.lastCases_last]

theorem primalMatrix_lc (i : Fin n) : primalMatrix P w (Fin.last n) i.castSucc =
    -∑ k, ipG P w k i * P.a k / ipDly P w k := by
  simp only [primalMatrix, Fin.lastCases_castSucc, Fin.lastCases_last]

theorem primalMatrix_ll : primalMatrix P w (Fin.last n) (Fin.last n) =
    (n : ℝ) * (∑ k, P.a k * P.a k / ipDly P w k) + w.zeta / w.z := by
  simp only [primalMatrix, Fin.lastCases_last, Finset.sum_const, Finset.card_univ, Fintype.card_fin,
    nsmul_eq_mul]

theorem primalRhs_c (eps : ℝ) (i : Fin n) : primalRhs P w eps i.castSucc =
    -ipDelx P w eps i - ∑ k, ipG P w k i * ipDelly P w eps k / ipDly P w k := by
  simp only [primalRhs, Fin.lastCases_castSucc]

theorem primalRhs_l (eps : ℝ) : primalRhs P w eps (Fin.last n) =
    -ipDelz P w eps + ∑ k, P.a k * ipDelly P w eps k / ipDly P w k := by
  simp only [primalRhs, Fin.lastCases_last]

/-- The rows of the system for more variables than constraints. -/
theorem dual_row (v : Fin (m + 1) → ℝ) (i : Fin m) : (dualMatrix P w).mulVec v i.castSucc =
    (∑ k, ipG P w i k * (∑ j, ipG P w j k * v j.castSucc) / ipDx P w k) + ipDly P w i * v i.castSucc +
      P.a i * v (Fin.last m) := by
  rw [Matrix.mulVec, dotProduct, Fin.sum_univ_castSucc]
  simp only [dualMatrix_cc, dualMatrix_cl]
  congr 1
  simp only [add_mul, Finset.sum_add_distrib, ite_mul, zero_mul, Finset.sum_ite_eq, Finset.mem_univ, if_true]
  congr 1
  simp only [Finset.sum_mul, Finset.mul_sum, Finset.sum_div]
  rw [Finset.sum_comm]
  refine Finset.sum_congr rfl fun k _ => Finset.sum_congr rfl fun j _ => ?_
  ring

theorem dual_last (v : Fin (m + 1) → ℝ) : (dualMatrix P w).mulVec v (Fin.last m) =
    (∑ i, P.a i * v i.castSucc) + -w.zeta / w.z * v (Fin.last m) := by
  rw [Matrix.mulVec, dotProduct, Fin.sum_univ_castSucc]
  simp only [dualMatrix_lc, dualMatrix_ll]

/-- The rows of the system otherwise. -/
theorem primal_row (v : Fin (n + 1) → ℝ) (i : Fin n) : (primalMatrix P w).mulVec v i.castSucc =
    (∑ k, ipG P w k i * ((∑ j, ipG P w k j * v j.castSucc) - P.a k * v (Fin.last n)) / ipDly P w k) +
      ipDx P w i * v i.castSucc := by
  rw [Matrix.mulVec, dotProduct, Fin.sum_univ_castSucc]
  simp only [primalMatrix_cc, primalMatrix_cl]
  simp only [add_mul, Finset.sum_add_distrib, ite_mul, zero_mul, Finset.sum_ite_eq, Finset.mem_univ, if_true]
  have e1 : ∑ x : Fin n, (∑ k, ipG P w k i * ipG P w k x / ipDly P w k) * v x.castSucc =
      ∑ k, ipG P w k i * (∑ j, ipG P w k j * v j.castSucc) / ipDly P w k := by
    simp only [Finset.sum_mul, Finset.mul_sum, Finset.sum_div]
    rw [Finset.sum_comm]
    refine Finset.sum_congr rfl fun k _ => Finset.sum_congr rfl fun j _ => ?_
    ring
  have e2 : (-∑ k, ipG P w k i * P.a k / ipDly P w k) * v (Fin.last n) =
      -∑ k, ipG P w k i * (P.a k * v (Fin.last n)) / ipDly P w k := by
    rw [neg_mul, Finset.sum_mul]
    congr 1
    refine Finset.sum_congr rfl fun k _ => ?_
    ring
  rw [e1, e2]
  simp only [mul_sub, sub_div, Finset.sum_sub_distrib]
  ring

theorem primal_last (v : Fin (n + 1) → ℝ) : (primalMatrix P w).mulVec v (Fin.last n) =
    -(∑ k, P.a k * (∑ j, ipG P w k j * v j.castSucc) / ipDly P w k) +
      ((n : ℝ) * (∑ k, P.a k * P.a k / ipDly P w k) + w.zeta / w.z) * v (Fin.last n) := by
  rw [Matrix.mulVec, dotProduct, Fin.sum_univ_castSucc]
  simp only [primalMatrix_lc, primalMatrix_ll]
  congr 1
  simp only [neg_mul, Finset.sum_neg_distrib]
  congr 1
  simp only [Finset.sum_mul, Finset.mul_sum, Finset.sum_div]
  rw [Finset.sum_comm]
  refine Finset.sum_congr rfl fun k _ => Finset.sum_congr rfl fun j _ => ?_
  ring

/-- A sum of nonnegative terms that is zero. -/
theorem terms_zero {k : ℕ} {f : Fin k → ℝ} (h0 : ∀ i, 0 ≤ f i) (h : ∑ i, f i ≤ 0) (i : Fin k) : f i = 0 :=
  (Finset.sum_eq_zero_iff_of_nonneg fun i _ => h0 i).1
    (le_antisymm h (Finset.sum_nonneg fun i _ => h0 i)) i (Finset.mem_univ i)

theorem dual_det (hP : GoodSub P) (hw : Inside P w) : (dualMatrix P w).det ≠ 0 := by
  intro hdet
  obtain ⟨v, hv, h0⟩ := Matrix.exists_mulVec_eq_zero_iff.2 hdet
  apply hv
  have hx := ipDx_pos hP hw
  have hl := ipDly_pos hP hw
  have hz : 0 < w.zeta / w.z := div_pos hw.2.2.2 hw.2.2.1
  have r1 : ∀ i : Fin m, (∑ k, ipG P w i k * (∑ j, ipG P w j k * v j.castSucc) / ipDx P w k) +
      ipDly P w i * v i.castSucc + P.a i * v (Fin.last m) = 0 := fun i => by
    rw [← dual_row, h0]; rfl
  have r2 : (∑ i, P.a i * v i.castSucc) + -w.zeta / w.z * v (Fin.last m) = 0 := by
    rw [← dual_last, h0]; rfl
  have s : ∑ i : Fin m, v i.castSucc * ((∑ k, ipG P w i k * (∑ j, ipG P w j k * v j.castSucc) / ipDx P w k) +
      ipDly P w i * v i.castSucc + P.a i * v (Fin.last m)) = 0 :=
    Finset.sum_eq_zero fun i _ => by rw [r1 i, mul_zero]
  have e1 : ∑ i : Fin m, v i.castSucc * (∑ k, ipG P w i k * (∑ j, ipG P w j k * v j.castSucc) / ipDx P w k) =
      ∑ k, (∑ j, ipG P w j k * v j.castSucc) ^ 2 / ipDx P w k := by
    simp only [Finset.mul_sum]
    rw [Finset.sum_comm]
    refine Finset.sum_congr rfl fun k _ => ?_
    rw [sq, mul_div_assoc, Finset.sum_mul]
    refine Finset.sum_congr rfl fun i _ => ?_
    rw [← Finset.mul_sum]
    ring
  have e2 : ∑ i : Fin m, v i.castSucc * (P.a i * v (Fin.last m)) = w.zeta / w.z * v (Fin.last m) ^ 2 := by
    have : ∑ i : Fin m, v i.castSucc * (P.a i * v (Fin.last m)) = (∑ i, P.a i * v i.castSucc) * v (Fin.last m) := by
      rw [Finset.sum_mul]
      refine Finset.sum_congr rfl fun i _ => ?_
      ring
    rw [this, eq_neg_of_add_eq_zero_left r2]
    ring
  simp only [mul_add, Finset.sum_add_distrib] at s
  rw [e1, e2] at s
  have q1 : 0 ≤ ∑ k, (∑ j, ipG P w j k * v j.castSucc) ^ 2 / ipDx P w k :=
    Finset.sum_nonneg fun k _ => div_nonneg (sq_nonneg _) (hx k).le
  have q2 : ∀ i : Fin m, 0 ≤ v i.castSucc * (ipDly P w i * v i.castSucc) := fun i => by
    have : v i.castSucc * (ipDly P w i * v i.castSucc) = ipDly P w i * v i.castSucc ^ 2 := by ring
    rw [this]; exact mul_nonneg (hl i).le (sq_nonneg _)
  have q3 : 0 ≤ w.zeta / w.z * v (Fin.last m) ^ 2 := mul_nonneg hz.le (sq_nonneg _)
  have q4 : 0 ≤ ∑ i : Fin m, v i.castSucc * (ipDly P w i * v i.castSucc) := Finset.sum_nonneg fun i _ => q2 i
  funext ii
  refine Fin.lastCases ?_ (fun i => ?_) ii
  · have : w.zeta / w.z * v (Fin.last m) ^ 2 = 0 := by linarith
    rcases mul_eq_zero.1 this with h | h
    · exact absurd h hz.ne'
    · exact pow_eq_zero_iff (two_ne_zero) |>.1 h
  · have := terms_zero q2 (by linarith) i
    rcases mul_eq_zero.1 this with h | h
    · exact h
    · rcases mul_eq_zero.1 h with h | h
      · exact absurd h (hl i).ne'
      · exact h

theorem primal_det (hP : GoodSub P) (hw : Inside P w) : (primalMatrix P w).det ≠ 0 := by
  intro hdet
  obtain ⟨v, hv, h0⟩ := Matrix.exists_mulVec_eq_zero_iff.2 hdet
  apply hv
  have hx := ipDx_pos hP hw
  have hl := ipDly_pos hP hw
  have hz : 0 < w.zeta / w.z := div_pos hw.2.2.2 hw.2.2.1
  have r1 : ∀ i : Fin n, (∑ k, ipG P w k i * ((∑ j, ipG P w k j * v j.castSucc) - P.a k * v (Fin.last n)) /
      ipDly P w k) + ipDx P w i * v i.castSucc = 0 := fun i => by
    rw [← primal_row, h0]; rfl
  have r2 : -(∑ k, P.a k * (∑ j, ipG P w k j * v j.castSucc) / ipDly P w k) +
      ((n : ℝ) * (∑ k, P.a k * P.a k / ipDly P w k) + w.zeta / w.z) * v (Fin.last n) = 0 := by
    rw [← primal_last, h0]; rfl
  have s : (∑ i : Fin n, v i.castSucc * ((∑ k, ipG P w k i * ((∑ j, ipG P w k j * v j.castSucc) -
      P.a k * v (Fin.last n)) / ipDly P w k) + ipDx P w i * v i.castSucc)) = 0 :=
    Finset.sum_eq_zero fun i _ => by rw [r1 i, mul_zero]
  simp only [mul_add, Finset.sum_add_distrib] at s
  have e1 : ∑ i : Fin n, v i.castSucc * (∑ k, ipG P w k i * ((∑ j, ipG P w k j * v j.castSucc) -
      P.a k * v (Fin.last n)) / ipDly P w k) = ∑ k, (∑ j, ipG P w k j * v j.castSucc) *
        ((∑ j, ipG P w k j * v j.castSucc) - P.a k * v (Fin.last n)) / ipDly P w k := by
    simp only [Finset.mul_sum]
    rw [Finset.sum_comm]
    refine Finset.sum_congr rfl fun k _ => ?_
    rw [mul_div_assoc, Finset.sum_mul]
    refine Finset.sum_congr rfl fun i _ => ?_
    ring
  rw [e1] at s
  -- the quadratic form
  have s2 : v (Fin.last n) * (-(∑ k, P.a k * (∑ j, ipG P w k j * v j.castSucc) / ipDly P w k) +
      ((n : ℝ) * (∑ k, P.a k * P.a k / ipDly P w k) + w.zeta / w.z) * v (Fin.last n)) = 0 := by
    rw [r2, mul_zero]
  have form : (∑ k, (∑ j, ipG P w k j * v j.castSucc) *
        ((∑ j, ipG P w k j * v j.castSucc) - P.a k * v (Fin.last n)) / ipDly P w k) +
      v (Fin.last n) * (-(∑ k, P.a k * (∑ j, ipG P w k j * v j.castSucc) / ipDly P w k) +
      ((n : ℝ) * (∑ k, P.a k * P.a k / ipDly P w k) + w.zeta / w.z) * v (Fin.last n)) =
      (∑ k, ((∑ j, ipG P w k j * v j.castSucc) ^ 2 -
        2 * (∑ j, ipG P w k j * v j.castSucc) * (P.a k * v (Fin.last n)) +
        n * (P.a k * v (Fin.last n)) ^ 2) / ipDly P w k) + w.zeta / w.z * v (Fin.last n) ^ 2 := by
    have t1 : ∑ k, ((∑ j, ipG P w k j * v j.castSucc) ^ 2 -
        2 * (∑ j, ipG P w k j * v j.castSucc) * (P.a k * v (Fin.last n)) +
        n * (P.a k * v (Fin.last n)) ^ 2) / ipDly P w k =
        (∑ k, (∑ j, ipG P w k j * v j.castSucc) *
        ((∑ j, ipG P w k j * v j.castSucc) - P.a k * v (Fin.last n)) / ipDly P w k) -
        v (Fin.last n) * (∑ k, P.a k * (∑ j, ipG P w k j * v j.castSucc) / ipDly P w k) +
        n * (∑ k, P.a k * P.a k / ipDly P w k) * v (Fin.last n) ^ 2 := by
      simp only [Finset.mul_sum (Finset.univ : Finset (Fin m)), Finset.sum_mul (Finset.univ : Finset (Fin m))]
      rw [← Finset.sum_sub_distrib, ← Finset.sum_add_distrib]
      refine Finset.sum_congr rfl fun k _ => ?_
      ring
    rw [t1]; ring
  have q1 : ∀ k : Fin m, 0 ≤ ((∑ j, ipG P w k j * v j.castSucc) ^ 2 -
        2 * (∑ j, ipG P w k j * v j.castSucc) * (P.a k * v (Fin.last n)) +
        n * (P.a k * v (Fin.last n)) ^ 2) / ipDly P w k := fun k => by
    refine div_nonneg ?_ (hl k).le
    rcases Nat.eq_zero_or_pos n with hn | hn
    · subst hn
      simp
    · have h1 : (1 : ℝ) ≤ n := by exact_mod_cast hn
      have := mul_le_mul_of_nonneg_right h1 (sq_nonneg (P.a k * v (Fin.last n)))
      have := sq_nonneg ((∑ j, ipG P w k j * v j.castSucc) - P.a k * v (Fin.last n))
      nlinarith
  have q2 : ∀ i : Fin n, 0 ≤ v i.castSucc * (ipDx P w i * v i.castSucc) := fun i => by
    have : v i.castSucc * (ipDx P w i * v i.castSucc) = ipDx P w i * v i.castSucc ^ 2 := by ring
    rw [this]; exact mul_nonneg (hx i).le (sq_nonneg _)
  have q3 : 0 ≤ w.zeta / w.z * v (Fin.last n) ^ 2 := mul_nonneg hz.le (sq_nonneg _)
  have q4 : 0 ≤ ∑ i : Fin n, v i.castSucc * (ipDx P w i * v i.castSucc) := Finset.sum_nonneg fun i _ => q2 i
  have q5 := Finset.sum_nonneg fun k (_ : k ∈ Finset.univ) => q1 k
  rw [s2, add_zero] at form
  rw [form] at s
  funext ii
  refine Fin.lastCases ?_ (fun i => ?_) ii
  · have : w.zeta / w.z * v (Fin.last n) ^ 2 = 0 := by linarith
    rcases mul_eq_zero.1 this with h | h
    · exact absurd h hz.ne'
    · exact pow_eq_zero_iff (two_ne_zero) |>.1 h
  · have := terms_zero q2 (by linarith) i
    rcases mul_eq_zero.1 this with h | h
    · exact h
    · rcases mul_eq_zero.1 h with h | h
      · exact absurd h (hx i).ne'
      · exact h

/-! ### The loop is defined (C83) -/

theorem newton_defined (hP : GoodSub P) (hw : Inside P w) (eps : ℝ) : ∃ d, newton P w eps = some d := by
  unfold newton
  rw [if_pos (divisible_of_inside hP hw)]
  unfold reducedDirection
  by_cases hnm : m < n
  · obtain ⟨v, hv, _⟩ := C50_solve (m + 1) (Nat.succ_pos m) (arr2 (dualMatrix P w)) (arr1 (dualRhs P w eps))
      (by rw [block_arr2]; exact dual_det hP hw)
    rw [if_pos hnm, hv]
    exact ⟨_, rfl⟩
  · obtain ⟨v, hv, _⟩ := C50_solve (n + 1) (Nat.succ_pos n) (arr2 (primalMatrix P w)) (arr1 (primalRhs P w eps))
      (by rw [block_arr2]; exact primal_det hP hw)
    rw [if_neg hnm, hv]
    exact ⟨_, rfl⟩

theorem stepLength_defined (hw : Inside P w) (d : Pt n m) : ∃ tau, stepLength P w d = some tau := by
  unfold stepLength
  refine ⟨_, if_pos ⟨fun j => ?_, fun i => ?_, hw.2.2.1.ne', hw.2.2.2.ne'⟩⟩
  · obtain ⟨h1, h2, h3, h4⟩ := hw.1 j
    exact ⟨by linarith, by linarith, h3.ne', h4.ne'⟩
  · obtain ⟨h1, h2, h3, h4⟩ := hw.2.1 i
    exact ⟨h1.ne', h2.ne', h3.ne', h4.ne'⟩

theorem kktNorm_defined (hP : GoodSub P) (hw : Inside P w) (eps : ℝ) :
    kktNorm P w eps = some (Real.sqrt (kktSquare P w eps)) :=
  if_pos fun j => hP.ok j _ (hw.1 j).1 (hw.1 j).2.1

theorem backtrack_defined (hP : GoodSub P) (hw : Inside P w) {d : Pt n m} {tau0 : ℝ}
    (hs : stepLength P w d = some tau0) (eps norm0 : ℝ) : ∀ (k : ℕ) (tau : ℝ), 0 < tau → tau ≤ tau0 →
    ∃ w', backtrack P w d eps norm0 k tau = some w' := by
  intro k
  induction k with
  | zero =>
    intro tau h0 h1
    rw [backtrack_eq, kktNorm_defined hP (C48_step hw hs h0 h1)]
    by_cases hc : Real.sqrt (kktSquare P (w.step d tau) eps) < norm0
    · exact ⟨_, if_pos hc⟩
    · exact ⟨_, if_neg hc⟩
  | succ k ih =>
    intro tau h0 h1
    rw [backtrack_eq, kktNorm_defined hP (C48_step hw hs h0 h1)]
    by_cases hc : Real.sqrt (kktSquare P (w.step d tau) eps) < norm0
    · exact ⟨_, if_pos hc⟩
    · obtain ⟨w', h⟩ := ih (tau * 0.5) (by positivity) (by norm_num; linarith)
      exact ⟨w', (if_neg hc).trans h⟩

/-- **C83 (pass)**: a pass of the inner loop from a point inside never divides by zero. -/
theorem C83_pass (hP : GoodSub P) {st : Pt n m × ℝ} (hw : Inside P st.1) : ∃ st', ipBody P st = some st' := by
  obtain ⟨d, hd⟩ := newton_defined hP hw st.2
  obtain ⟨tau, ht⟩ := stepLength_defined hw d
  obtain ⟨w', hb⟩ := backtrack_defined hP hw ht st.2 (Real.sqrt (kktSquare P st.1 st.2)) 49 tau
    (stepLength_pos ht).1 (le_refl _)
  obtain ⟨t, h1, h2, h3⟩ := backtrack_step _ _ (stepLength_pos ht).1 hb
  have hw' : Inside P w' := by rw [h3]; exact C48_step hw ht h1 h2
  unfold ipBody
  rw [hd]
  refine ⟨(w', if Real.sqrt (kktSquare P w' st.2) < 0.9 * st.2 then st.2 * 0.1 else st.2 * 1.0), ?_⟩
  refine Option.bind_eq_some_iff.2 ⟨d, rfl, Option.bind_eq_some_iff.2 ⟨tau, ht, Option.bind_eq_some_iff.2
    ⟨_, kktNorm_defined hP hw _, Option.bind_eq_some_iff.2 ⟨w', hb, Option.bind_eq_some_iff.2
      ⟨_, kktNorm_defined hP hw' _, rfl⟩⟩⟩⟩⟩

theorem ipLoop_defined (hP : GoodSub P) : ∀ (fuel : ℕ) (st : Pt n m × ℝ), Inside P st.1 →
    ipLoop P fuel st ≠ .undefined := by
  intro fuel
  induction fuel with
  | zero =>
    intro st hw
    rw [ipLoop_eq]
    by_cases hc : 1.0e-7 < st.2
    · rw [if_pos hc]; exact fun h => nomatch h
    · rw [if_neg hc]; exact fun h => nomatch h
  | succ fuel ih =>
    intro st hw
    rw [ipLoop_eq]
    by_cases hc : 1.0e-7 < st.2
    · obtain ⟨st', hb⟩ := C83_pass hP hw
      rw [if_pos hc]
      simp only [hb]
      exact ih st' (C48_pass hw hb)
    · rw [if_neg hc]; exact fun h => nomatch h

/-- **C83 (inner loop)**: the inner loop never divides by zero. -/
theorem C83_inner (hP : GoodSub P) (hab : ∀ j, P.alpha j < P.beta j) (fuel : ℕ) : ipSolve P fuel ≠ .undefined := by
  obtain ⟨w, hw, hi⟩ := C48_start hab
  unfold ipSolve
  rw [hw]
  exact ipLoop_defined hP fuel _ hi

end

/-- **C83 (MMA)**: `MMA::UpdateVariables` never divides by zero, whatever values and derivatives are
passed. -/
theorem C83_mma {n m : ℕ} {o : MMA n m} {xk : Fin n → ℝ} (h : MMAOk o xk) (ha : 0 < o.albefa) (hr : 0 ≤ o.raa0)
    (hd : ∀ i, 0 ≤ o.d i) (fuel : ℕ) (f : ℝ) (dfdx : Fin n → ℝ) (g : Fin m → ℝ) (dgdx : Fin m → Fin n → ℝ) :
    mmaUpdate o fuel xk f dfdx g dgdx ≠ .undefined := by
  obtain ⟨P, hP⟩ := mmaSub_defined (o := o) (xk := xk) (dfdx := dfdx) (g := g) (dgdx := dgdx) h.box
  obtain ⟨hg, hab⟩ := mma_good h ha hr hd hP
  have := C83_inner hg hab fuel
  unfold mmaUpdate
  simp only [hP]
  cases hs : ipSolve P fuel with
  | undefined => exact absurd hs this
  | running => exact fun h => nomatch h
  | done st => exact fun h => nomatch h

/-- **C83 (CONLIN)**: `CONLIN::UpdateVariables` never divides by zero when the lower bounds are positive. -/
theorem C83_conlin {n m : ℕ} {o : CONLIN n m} {xk : Fin n → ℝ} (h : CONLINOk o xk) (h0 : ∀ j, 0 < o.xmin j)
    (hd : ∀ i, 0 ≤ o.d i) (fuel : ℕ) (f : ℝ) (dfdx : Fin n → ℝ) (g : Fin m → ℝ) (dgdx : Fin m → Fin n → ℝ) :
    conlinUpdate o fuel xk f dfdx g dgdx ≠ .undefined := by
  have hx : ∀ (_i : Fin m) (j : Fin n), xk j ≠ 0 := fun _ j => (lt_of_lt_of_le (h0 j) (h.lower j)).ne'
  unfold conlinUpdate
  cases hP : conlinSub o xk dfdx g dgdx with
  | none =>
    unfold conlinSub at hP
    rw [if_pos hx] at hP
    exact nomatch hP
  | some P =>
    obtain ⟨hg, hab⟩ := conlin_good h h0 hd hP
    have := C83_inner hg hab fuel
    dsimp only
    cases hs : ipSolve P fuel with
    | undefined => exact absurd hs this
    | running => exact fun h => nomatch h
    | done st => exact fun h => nomatch h

/-! ### The relaxed optimality conditions -/

section
variable {n m : ℕ} (P : Sub n m)

/-- Stationarity in the design, (5.9a) of the method. -/
noncomputable def resA (w : Pt n m) (j : Fin n) : ℝ :=
  P.basis.slope j (plambda P w.lam j) (qlambda P w.lam j) (w.x j) - w.gsi j + w.ita j

/-- Stationarity in `y`, (5.9b). -/
def resB (w : Pt n m) (i : Fin m) : ℝ := P.c i + P.d i * w.y i - w.lam i - w.mu i

/-- Stationarity in `z`, (5.9c). -/
def resC (w : Pt n m) : ℝ := P.a0 - w.zeta - ∑ i, w.lam i * P.a i

/-- The constraints with slacks, (5.9d). -/
noncomputable def resD (w : Pt n m) (i : Fin m) : ℝ := approxG P i w.x - P.a i * w.z - w.y i + w.s i

/-- Complementarity for the lower bounds, (5.9e). -/
def resE (w : Pt n m) (eps : ℝ) (j : Fin n) : ℝ := w.gsi j * (w.x j - P.alpha j) - eps

/-- Complementarity for the upper bounds, (5.9f). -/
def resF (w : Pt n m) (eps : ℝ) (j : Fin n) : ℝ := w.ita j * (P.beta j - w.x j) - eps

/-- Complementarity for `y`, (5.9g). -/
def resG (w : Pt n m) (eps : ℝ) (i : Fin m) : ℝ := w.mu i * w.y i - eps

/-- Complementarity for `z`, (5.9h). -/
def resH (w : Pt n m) (eps : ℝ) : ℝ := w.zeta * w.z - eps

/-- Complementarity for the slacks, (5.9i). -/
def resI (w : Pt n m) (eps : ℝ) (i : Fin m) : ℝ := w.lam i * w.s i - eps

theorem kktSquare_eq (w : Pt n m) (eps : ℝ) : kktSquare P w eps =
    (∑ j, (resA P w j ^ 2 + resE P w eps j ^ 2 + resF P w eps j ^ 2)) +
      (∑ i, (resB P w i ^ 2 + resD P w i ^ 2 + resG w eps i ^ 2 + resI w eps i ^ 2)) +
      resC P w ^ 2 + resH w eps ^ 2 := by
  unfold kktSquare resA resB resC resD resE resF resG resH resI approxG
  congr 3
  refine Finset.sum_congr rfl fun i _ => ?_
  ring

end

section
variable {n m : ℕ} {P : Sub n m} {w d : Pt n m} {eps : ℝ}

theorem sum_lin {F : ℝ → ℝ → ℝ} (hF : ∀ p q p' q' t, F (p + t * p') (q + t * q') = F p q + t * F p' q')
    (p0 q0 : ℝ) (lam p q : Fin m → ℝ) :
    F (p0 + ∑ i, lam i * p i) (q0 + ∑ i, lam i * q i) = F p0 q0 + ∑ i, lam i * F (p i) (q i) := by
  have : ∀ s : Finset (Fin m), F (p0 + ∑ i ∈ s, lam i * p i) (q0 + ∑ i ∈ s, lam i * q i) =
      F p0 q0 + ∑ i ∈ s, lam i * F (p i) (q i) := by
    intro s
    induction s using Finset.induction_on with
    | empty => simp
    | insert a s ha ih =>
      rw [Finset.sum_insert ha, Finset.sum_insert ha, Finset.sum_insert ha]
      have e1 : p0 + (lam a * p a + ∑ i ∈ s, lam i * p i) = (p0 + ∑ i ∈ s, lam i * p i) + lam a * p a := by ring
      have e2 : q0 + (lam a * q a + ∑ i ∈ s, lam i * q i) = (q0 + ∑ i ∈ s, lam i * q i) + lam a * q a := by ring
      rw [e1, e2, hF, ih]
      ring
  exact this Finset.univ

/-- The reduced Newton equations: the three groups of equations that the linear systems come from, the last
with the error of the code. -/
structure Reduced (P : Sub n m) (w : Pt n m) (eps : ℝ) (dx : Fin n → ℝ) (dlam : Fin m → ℝ) (dz defect : ℝ) :
    Prop where
  x : ∀ j, ipDx P w j * dx j + ∑ i, ipG P w i j * dlam i = -ipDelx P w eps j
  lam : ∀ i, ipDly P w i * dlam i - (∑ j, ipG P w i j * dx j) + P.a i * dz = ipDelly P w eps i
  z : (∑ i, P.a i * dlam i) - w.zeta / w.z * dz = ipDelz P w eps + defect

theorem reduced_dual (hdiv : Divisible P w) (hnm : m < n) {r : (Fin n → ℝ) × (Fin m → ℝ) × ℝ}
    (h : reducedDirection P w eps = some r) : Reduced P w eps r.1 r.2.1 r.2.2 0 := by
  unfold reducedDirection at h
  rw [if_pos hnm] at h
  obtain ⟨v, hv, h⟩ := Option.bind_eq_some_iff.1 h
  have hr := Option.some.inj h
  have hsol := C50_sound _ _ _ _ hv
  rw [block_arr2, seg_arr1] at hsol
  subst hr
  have hx : ∀ j, ipDx P w j ≠ 0 := fun j => (hdiv.1 j).2.2.2
  have e1 : ∀ j, ipDx P w j * (-ipDelx P w eps j / ipDx P w j - ∑ i, ipG P w i j * v (i : Fin m) / ipDx P w j) +
      ∑ i, ipG P w i j * v (i : Fin m) = -ipDelx P w eps j := by
    intro j
    rw [← Finset.sum_div]
    have := hx j
    field_simp
    ring
  refine ⟨e1, fun i => ?_, ?_⟩
  · have := congrFun hsol i.castSucc
    rw [dual_row, dualRhs_c] at this
    simp only [seg, Fin.val_castSucc, Fin.val_last] at this
    dsimp only
    have e2 : ∑ j, ipG P w i j * (-ipDelx P w eps j / ipDx P w j - ∑ i, ipG P w i j * v (i : Fin m) / ipDx P w j) =
        -(∑ j, ipG P w i j * ipDelx P w eps j / ipDx P w j) -
          ∑ k, ipG P w i k * (∑ j : Fin m, ipG P w j k * v j) / ipDx P w k := by
      rw [← Finset.sum_neg_distrib, ← Finset.sum_sub_distrib]
      refine Finset.sum_congr rfl fun j _ => ?_
      rw [← Finset.sum_div]
      ring
    rw [e2]
    linarith
  · have := congrFun hsol (Fin.last m)
    rw [dual_last, dualRhs_l] at this
    simp only [seg, Fin.val_castSucc, Fin.val_last] at this
    dsimp only
    rw [add_zero, ← this]
    ring

theorem reduced_primal (hdiv : Divisible P w) (hnm : ¬ m < n) {r : (Fin n → ℝ) × (Fin m → ℝ) × ℝ}
    (h : reducedDirection P w eps = some r) : Reduced P w eps r.1 r.2.1 r.2.2
      (((n : ℝ) - 1) * (∑ k, P.a k * P.a k / ipDly P w k) * r.2.2) := by
  unfold reducedDirection at h
  rw [if_neg hnm] at h
  obtain ⟨v, hv, h⟩ := Option.bind_eq_some_iff.1 h
  have hr := Option.some.inj h
  have hsol := C50_sound _ _ _ _ hv
  rw [block_arr2, seg_arr1] at hsol
  subst hr
  have hl : ∀ i, ipDly P w i ≠ 0 := fun i => (hdiv.2.1 i).2.2.2
  refine ⟨fun j => ?_, fun i => ?_, ?_⟩
  · have := congrFun hsol j.castSucc
    rw [primal_row, primalRhs_c] at this
    simp only [seg, Fin.val_castSucc, Fin.val_last] at this
    dsimp only
    have e2 : ∑ i, ipG P w i j * (-P.a i * v n / ipDly P w i + ipDelly P w eps i / ipDly P w i +
        ∑ k : Fin n, ipG P w i k * v k / ipDly P w i) =
        (∑ k, ipG P w k j * ((∑ i : Fin n, ipG P w k i * v i) - P.a k * v n) / ipDly P w k) +
        ∑ k, ipG P w k j * ipDelly P w eps k / ipDly P w k := by
      rw [← Finset.sum_add_distrib]
      refine Finset.sum_congr rfl fun i _ => ?_
      rw [← Finset.sum_div]
      ring
    rw [e2]
    linarith
  · dsimp only
    rw [← Finset.sum_div]
    have := hl i
    field_simp
    ring
  · have := congrFun hsol (Fin.last n)
    rw [primal_last, primalRhs_l] at this
    simp only [seg, Fin.val_castSucc, Fin.val_last] at this
    dsimp only
    have e2 : ∑ i, P.a i * (-P.a i * v n / ipDly P w i + ipDelly P w eps i / ipDly P w i +
        ∑ k : Fin n, ipG P w i k * v k / ipDly P w i) =
        (∑ k, P.a k * (∑ i : Fin n, ipG P w k i * v i) / ipDly P w k) -
        (∑ k, P.a k * P.a k / ipDly P w k) * v n + ∑ k, P.a k * ipDelly P w eps k / ipDly P w k := by
      rw [Finset.sum_mul, ← Finset.sum_sub_distrib, ← Finset.sum_add_distrib]
      refine Finset.sum_congr rfl fun i _ => ?_
      rw [← Finset.sum_div]
      ring
    rw [e2]
    linarith

/-- A direction is a Newton direction up to `defect` in the equation for `z`: along it every residual
falls at its own rate. -/
structure NewtonFor (P : Sub n m) (w d : Pt n m) (eps defect : ℝ) : Prop where
  A : ∀ j, HasDerivAt (fun t : ℝ => resA P (w.step d t) j) (-resA P w j) 0
  B : ∀ i, HasDerivAt (fun t : ℝ => resB P (w.step d t) i) (-resB P w i) 0
  C : HasDerivAt (fun t : ℝ => resC P (w.step d t)) (-resC P w - defect) 0
  D : ∀ i, HasDerivAt (fun t : ℝ => resD P (w.step d t) i) (-resD P w i) 0
  E : ∀ j, HasDerivAt (fun t : ℝ => resE P (w.step d t) eps j) (-resE P w eps j) 0
  F : ∀ j, HasDerivAt (fun t : ℝ => resF P (w.step d t) eps j) (-resF P w eps j) 0
  G : ∀ i, HasDerivAt (fun t : ℝ => resG (w.step d t) eps i) (-resG w eps i) 0
  H : HasDerivAt (fun t : ℝ => resH (w.step d t) eps) (-resH w eps) 0
  I : ∀ i, HasDerivAt (fun t : ℝ => resI (w.step d t) eps i) (-resI w eps i) 0

theorem line (v dv : ℝ) : HasDerivAt (fun t : ℝ => v + t * dv) dv 0 := by
  have := ((hasDerivAt_id (0 : ℝ)).mul_const dv).const_add v
  rwa [one_mul] at this

theorem line_mul {f g : ℝ → ℝ} {f' g' : ℝ} (hf : HasDerivAt f f' 0) (hg : HasDerivAt g g' 0) :
    HasDerivAt (fun t => f t * g t) (f' * g 0 + f 0 * g') 0 := hf.mul hg

theorem expand_newton (hP : GoodSub P) (hw : Inside P w) {dx : Fin n → ℝ} {dlam : Fin m → ℝ} {dz defect : ℝ}
    (h : Reduced P w eps dx dlam dz defect) : NewtonFor P w (expandDirection P w eps dx dlam dz) eps defect := by
  have hx1 : ∀ j, w.x j - P.alpha j ≠ 0 := fun j => by have := (hw.1 j).1; linarith
  have hx2 : ∀ j, P.beta j - w.x j ≠ 0 := fun j => by have := (hw.1 j).2.1; linarith
  have hy : ∀ i, w.y i ≠ 0 := fun i => (hw.2.1 i).1.ne'
  have hl : ∀ i, w.lam i ≠ 0 := fun i => (hw.2.1 i).2.1.ne'
  have hz : w.z ≠ 0 := hw.2.2.1.ne'
  have hDy : ∀ i, ipDy P w i ≠ 0 := fun i => (ipDy_pos hP hw i).ne'
  have hval : ∀ (i : Fin m) (j : Fin n), HasDerivAt (fun t : ℝ => P.basis.val j (P.p i j) (P.q i j)
      (w.x j + t * dx j)) (ipG P w i j * dx j) 0 := by
    intro i j
    have d1 := hP.deriv1 j (P.p i j) (P.q i j) (w.x j) (hw.1 j).1 (hw.1 j).2.1
    have e0 : w.x j = w.x j + 0 * dx j := by ring
    rw [e0] at d1
    have := d1.comp 0 (line (w.x j) (dx j))
    rw [← e0] at this
    exact this
  have hslope : ∀ (p q : ℝ) (j : Fin n), HasDerivAt (fun t : ℝ => P.basis.slope j p q (w.x j + t * dx j))
      (P.basis.curv j p q (w.x j) * dx j) 0 := by
    intro p q j
    have d1 := hP.deriv2 j p q (w.x j) (hw.1 j).1 (hw.1 j).2.1
    have e0 : w.x j = w.x j + 0 * dx j := by ring
    rw [e0] at d1
    have := d1.comp 0 (line (w.x j) (dx j))
    rw [← e0] at this
    exact this
  have z0 : ∀ v dv : ℝ, v + 0 * dv = v := fun v dv => by ring
  constructor
  · intro j
    have f1 : ∀ t : ℝ, resA P (w.step (expandDirection P w eps dx dlam dz) t) j =
        (P.basis.slope j (P.p0 j) (P.q0 j) (w.x j + t * dx j) +
          ∑ i, (w.lam i + t * dlam i) * P.basis.slope j (P.p i j) (P.q i j) (w.x j + t * dx j)) -
          (w.gsi j + t * (expandDirection P w eps dx dlam dz).gsi j) +
          (w.ita j + t * (expandDirection P w eps dx dlam dz).ita j) := by
      intro t
      unfold resA plambda qlambda
      rw [sum_lin (F := fun p q => P.basis.slope j p q _) (fun p q p' q' s => hP.slopeadd j p q p' q' s _)]
      rfl
    have d1 : HasDerivAt (fun t : ℝ => (P.basis.slope j (P.p0 j) (P.q0 j) (w.x j + t * dx j) +
          ∑ i, (w.lam i + t * dlam i) * P.basis.slope j (P.p i j) (P.q i j) (w.x j + t * dx j)) -
          (w.gsi j + t * (expandDirection P w eps dx dlam dz).gsi j) +
          (w.ita j + t * (expandDirection P w eps dx dlam dz).ita j)) _ 0 :=
      (((hslope _ _ j).add (HasDerivAt.fun_sum fun i _ => line_mul (line (w.lam i) (dlam i)) (hslope (P.p i j) (P.q i j) j))).sub
        (line _ _)).add (line _ _)
    refine (d1.congr_of_eventuallyEq (Filter.Eventually.of_forall f1)).congr_deriv ?_
    have hc := sum_lin (F := fun p q => P.basis.curv j p q (w.x j))
      (fun p q p' q' s => hP.curvadd j p q p' q' s _) (P.p0 j) (P.q0 j) w.lam (fun i => P.p i j) (fun i => P.q i j)
    have hs := h.x j
    unfold ipDx plambda qlambda at hs
    rw [hc] at hs
    simp only [z0, expandDirection, Finset.sum_add_distrib]
    unfold ipDelx at hs
    unfold resA
    have e3 : ∑ i, dlam i * P.basis.slope j (P.p i j) (P.q i j) (w.x j) = ∑ i, ipG P w i j * dlam i :=
      Finset.sum_congr rfl fun i _ => mul_comm _ _
    have e4 : ∑ i, w.lam i * (P.basis.curv j (P.p i j) (P.q i j) (w.x j) * dx j) =
        (∑ i, w.lam i * P.basis.curv j (P.p i j) (P.q i j) (w.x j)) * dx j := by
      rw [Finset.sum_mul]; exact Finset.sum_congr rfl fun i _ => (mul_assoc _ _ _).symm
    rw [e3, e4]
    have e5 : -w.gsi j * dx j / (w.x j - P.alpha j) = -(w.gsi j / (w.x j - P.alpha j) * dx j) := by ring
    have e6 : w.ita j * dx j / (P.beta j - w.x j) = w.ita j / (P.beta j - w.x j) * dx j := by ring
    rw [e5, e6]
    linarith
  · intro i
    have d1 : HasDerivAt (fun t : ℝ => P.c i + P.d i * (w.y i + t * (expandDirection P w eps dx dlam dz).y i) -
        (w.lam i + t * dlam i) - (w.mu i + t * (expandDirection P w eps dx dlam dz).mu i)) _ 0 :=
      ((((line _ _).const_mul _).const_add _).sub (line _ _)).sub (line _ _)
    refine d1.congr_deriv ?_
    simp only [expandDirection]
    have hD := hDy i
    have hy := hy i
    have key : (P.d i + w.mu i / w.y i) * (dlam i / ipDy P w i - ipDely P w eps i / ipDy P w i) =
        dlam i - ipDely P w eps i := by
      change ipDy P w i * _ = _
      field_simp
    have e1 : -w.mu i * (dlam i / ipDy P w i - ipDely P w eps i / ipDy P w i) / w.y i =
        -(w.mu i / w.y i * (dlam i / ipDy P w i - ipDely P w eps i / ipDy P w i)) := by ring
    rw [e1]
    rw [add_mul] at key
    have e2 : ipDely P w eps i = P.c i + P.d i * w.y i - w.lam i - eps / w.y i := rfl
    unfold resB
    linarith
  · have d1 : HasDerivAt (fun t : ℝ => P.a0 - (w.zeta + t * (expandDirection P w eps dx dlam dz).zeta) -
        ∑ i, (w.lam i + t * dlam i) * P.a i) _ 0 :=
      ((line _ _).const_sub _).sub (HasDerivAt.fun_sum fun i _ => (line (w.lam i) (dlam i)).mul_const (P.a i))
    refine d1.congr_deriv ?_
    have hh := h.z
    have e1 : ∑ i, dlam i * P.a i = ∑ i, P.a i * dlam i := Finset.sum_congr rfl fun i _ => mul_comm _ _
    simp only [expandDirection]
    rw [e1]
    have e2 : -w.zeta * dz / w.z = -(w.zeta / w.z * dz) := by ring
    rw [e2]
    unfold ipDelz at hh
    unfold resC
    linarith
  · intro i
    have d1 : HasDerivAt (fun t : ℝ => (∑ j, P.basis.val j (P.p i j) (P.q i j) (w.x j + t * dx j)) - P.b i -
        P.a i * (w.z + t * dz) - (w.y i + t * (expandDirection P w eps dx dlam dz).y i) +
        (w.s i + t * (expandDirection P w eps dx dlam dz).s i)) _ 0 :=
      ((((HasDerivAt.fun_sum fun j _ => hval i j).sub_const _).sub ((line _ _).const_mul _)).sub
        (line _ _)).add (line _ _)
    refine d1.congr_deriv ?_
    have hh := h.lam i
    unfold ipDly ipDelly ipDellam at hh
    simp only [expandDirection]
    have e1 : -w.s i * dlam i / w.lam i = -(w.s i / w.lam i * dlam i) := by ring
    have e2 : dlam i / ipDy P w i = 1 / ipDy P w i * dlam i := by ring
    rw [e1, e2]
    unfold resD approxG
    rw [add_mul] at hh
    linarith
  · intro j
    have d1 := line_mul (line (w.gsi j) ((expandDirection P w eps dx dlam dz).gsi j))
      ((line (w.x j) (dx j)).sub_const (P.alpha j))
    refine (d1.sub_const eps).congr_deriv ?_
    have := hx1 j
    simp only [z0, expandDirection, resE]
    field_simp
    ring
  · intro j
    have d1 := line_mul (line (w.ita j) ((expandDirection P w eps dx dlam dz).ita j))
      ((line (w.x j) (dx j)).const_sub (P.beta j))
    refine (d1.sub_const eps).congr_deriv ?_
    have := hx2 j
    simp only [z0, expandDirection, resF]
    field_simp
    ring
  · intro i
    have d1 := line_mul (line (w.mu i) ((expandDirection P w eps dx dlam dz).mu i))
      (line (w.y i) ((expandDirection P w eps dx dlam dz).y i))
    refine (d1.sub_const eps).congr_deriv ?_
    have := hy i
    simp only [z0, expandDirection, resG]
    generalize dlam i / ipDy P w i - ipDely P w eps i / ipDy P w i = dy
    field_simp
    ring
  · have d1 := line_mul (line w.zeta (expandDirection P w eps dx dlam dz).zeta) (line w.z dz)
    refine (d1.sub_const eps).congr_deriv ?_
    simp only [z0, expandDirection, resH]
    field_simp
    ring
  · intro i
    have d1 := line_mul (line (w.lam i) (dlam i)) (line (w.s i) ((expandDirection P w eps dx dlam dz).s i))
    refine (d1.sub_const eps).congr_deriv ?_
    have := hl i
    simp only [z0, expandDirection, resI]
    field_simp
    ring

theorem newton_eq_some (h : newton P w eps = some d) : Divisible P w ∧ ∃ r, reducedDirection P w eps = some r ∧
    d = expandDirection P w eps r.1 r.2.1 r.2.2 := by
  unfold newton at h
  by_cases hd : Divisible P w
  · rw [if_pos hd] at h
    obtain ⟨r, hr, h⟩ := Option.bind_eq_some_iff.1 h
    exact ⟨hd, r, hr, (Option.some.inj h).symm⟩
  · rw [if_neg hd] at h; exact nomatch h

/-- **C84 (more variables than constraints)**: the direction is the Newton direction of the relaxed
optimality conditions. -/
theorem C84_dual_partial (hP : GoodSub P) (hw : Inside P w) (hnm : m < n) (h : newton P w eps = some d) :
    NewtonFor P w d eps 0 := by
  obtain ⟨hdiv, r, hr, rfl⟩ := newton_eq_some h
  exact expand_newton hP hw (reduced_dual hdiv hnm hr)

/-- **C84 (otherwise)**: the direction misses the Newton direction in the equation for `z`. -/
theorem C84_defect (hP : GoodSub P) (hw : Inside P w) (hnm : ¬ m < n) (h : newton P w eps = some d) :
    NewtonFor P w d eps (((n : ℝ) - 1) * (∑ k, P.a k * P.a k / ipDly P w k) * d.z) := by
  obtain ⟨hdiv, r, hr, rfl⟩ := newton_eq_some h
  exact expand_newton hP hw (reduced_primal hdiv hnm hr)

/-- **C84 (otherwise)**: it is the Newton direction when there is one variable or all `a` are zero. -/
theorem C84_primal_partial (hP : GoodSub P) (hw : Inside P w) (hnm : ¬ m < n) (ha : n = 1 ∨ ∀ i, P.a i = 0)
    (h : newton P w eps = some d) : NewtonFor P w d eps 0 := by
  have := C84_defect hP hw hnm h
  have e : ((n : ℝ) - 1) * (∑ k, P.a k * P.a k / ipDly P w k) * d.z = 0 := by
    rcases ha with rfl | ha
    · simp
    · simp [ha]
  rwa [e] at this

theorem sq_deriv {f : ℝ → ℝ} {r : ℝ} (h : HasDerivAt f (-r) 0) (h0 : f 0 = r) :
    HasDerivAt (fun t => f t ^ 2) (-2 * r ^ 2) 0 := by
  have := h.pow 2
  refine this.congr_deriv ?_
  rw [h0]; ring

theorem step_zero (w d : Pt n m) : w.step d 0 = w := by
  unfold Pt.step
  simp

/-- **C84 (descent)**: along a Newton direction the square of the norm that the backtracking compares falls
with twice its value. -/
theorem C84_descent (h : NewtonFor P w d eps 0) :
    HasDerivAt (fun t : ℝ => kktSquare P (w.step d t) eps) (-2 * kktSquare P w eps) 0 := by
  have hC := h.C
  rw [sub_zero] at hC
  have d1 := (((HasDerivAt.fun_sum (u := Finset.univ) fun j (_ : j ∈ Finset.univ) =>
      ((sq_deriv (h.A j) (by rw [step_zero])).add (sq_deriv (h.E j) (by rw [step_zero]))).add
        (sq_deriv (h.F j) (by rw [step_zero]))).add
    (HasDerivAt.fun_sum (u := Finset.univ) fun i (_ : i ∈ Finset.univ) =>
      (((sq_deriv (h.B i) (by rw [step_zero])).add (sq_deriv (h.D i) (by rw [step_zero]))).add
        (sq_deriv (h.G i) (by rw [step_zero]))).add (sq_deriv (h.I i) (by rw [step_zero])))).add
    (sq_deriv hC (by rw [step_zero]))).add (sq_deriv h.H (by rw [step_zero]))
  refine (d1.congr_of_eventuallyEq (Filter.Eventually.of_forall fun t => ?_)).congr_deriv ?_
  · exact kktSquare_eq P _ _
  · rw [kktSquare_eq]
    simp only [← mul_add, ← Finset.mul_sum]

/-! ### The result (C85) -/

/-- **C85**: the inner loop returns a point strictly inside at which the root of the sum of squares of the
residuals of the relaxed optimality conditions, for a relaxation of at most `1e-6`, is below nine tenths of
the relaxation. -/
theorem C85_exit (hab : ∀ j, P.alpha j < P.beta j) {fuel : ℕ} {fin : Pt n m × ℝ}
    (h : ipSolve P fuel = .done fin) : Inside P fin.1 ∧ ∃ e : ℝ, 0 < e ∧ e ≤ 1.0e-6 ∧
      Real.sqrt (kktSquare P fin.1 e) < 0.9 * e := by
  refine ⟨C48_inner hab h, ?_⟩
  obtain ⟨w0, hw0, hl⟩ := ipSolve_done h
  have key := ipLoop_invariant (P := P) (fun st => 1.0e-7 < st.2 ∨ ∃ e : ℝ, 1.0e-7 < e ∧ st.2 = e * 0.1 ∧
      Real.sqrt (kktSquare P st.1 e) < 0.9 * e) ?_ (st := (w0, 1)) (Or.inl (by norm_num)) hl
  · obtain ⟨h1 | ⟨e, h1, h2, h3⟩, h4⟩ := key
    · exact absurd h1 h4
    · rw [h2] at h4
      refine ⟨e, ?_, ?_, h3⟩
      · norm_num at h1; linarith
      · norm_num at h4 ⊢; linarith
  · intro st st' _ hc hb
    obtain ⟨d, tau0, norm0, v, _, _, _, _, hv, he⟩ := ipBody_eq_some hb
    by_cases hlt : v < 0.9 * st.2
    · rw [if_pos hlt] at he
      refine Or.inr ⟨st.2, hc, he, ?_⟩
      unfold kktNorm at hv
      by_cases hok : ∀ j, P.basis.ok j (st'.1.x j)
      · rw [if_pos hok] at hv
        rw [Option.some.inj hv]; exact hlt
      · rw [if_neg hok] at hv; exact nomatch hv
    · rw [if_neg hlt] at he
      rw [he]
      left
      norm_num at hc ⊢
      exact hc

theorem abs_le_of_sq_le {r S : ℝ} (h : r ^ 2 ≤ S) : |r| ≤ Real.sqrt S := Real.abs_le_sqrt h

/-- Every residual is at most the norm. -/
theorem res_le (w : Pt n m) (e : ℝ) : (∀ j, |resA P w j| ≤ Real.sqrt (kktSquare P w e) ∧
    |resE P w e j| ≤ Real.sqrt (kktSquare P w e) ∧ |resF P w e j| ≤ Real.sqrt (kktSquare P w e)) ∧
    (∀ i, |resB P w i| ≤ Real.sqrt (kktSquare P w e) ∧ |resD P w i| ≤ Real.sqrt (kktSquare P w e) ∧
      |resG w e i| ≤ Real.sqrt (kktSquare P w e) ∧ |resI w e i| ≤ Real.sqrt (kktSquare P w e)) ∧
    |resC P w| ≤ Real.sqrt (kktSquare P w e) ∧ |resH w e| ≤ Real.sqrt (kktSquare P w e) := by
  rw [kktSquare_eq]
  have n1 : ∀ j, 0 ≤ resA P w j ^ 2 + resE P w e j ^ 2 + resF P w e j ^ 2 := fun j => by positivity
  have n2 : ∀ i, 0 ≤ resB P w i ^ 2 + resD P w i ^ 2 + resG w e i ^ 2 + resI w e i ^ 2 := fun i => by positivity
  have s1 := Finset.sum_nonneg fun j (_ : j ∈ Finset.univ) => n1 j
  have s2 := Finset.sum_nonneg fun i (_ : i ∈ Finset.univ) => n2 i
  have c := sq_nonneg (resC P w)
  have hh := sq_nonneg (resH w e)
  refine ⟨fun j => ?_, fun i => ?_, abs_le_of_sq_le (by linarith), abs_le_of_sq_le (by linarith)⟩
  · have := Finset.single_le_sum (f := fun j => resA P w j ^ 2 + resE P w e j ^ 2 + resF P w e j ^ 2)
      (fun j _ => n1 j) (Finset.mem_univ j)
    have a := sq_nonneg (resA P w j)
    have b := sq_nonneg (resE P w e j)
    have f := sq_nonneg (resF P w e j)
    exact ⟨abs_le_of_sq_le (by linarith), abs_le_of_sq_le (by linarith), abs_le_of_sq_le (by linarith)⟩
  · have := Finset.single_le_sum (f := fun i => resB P w i ^ 2 + resD P w i ^ 2 + resG w e i ^ 2 + resI w e i ^ 2)
      (fun i _ => n2 i) (Finset.mem_univ i)
    have a := sq_nonneg (resB P w i)
    have b := sq_nonneg (resD P w i)
    have f := sq_nonneg (resG w e i)
    have k := sq_nonneg (resI w e i)
    exact ⟨abs_le_of_sq_le (by linarith), abs_le_of_sq_le (by linarith), abs_le_of_sq_le (by linarith),
      abs_le_of_sq_le (by linarith)⟩

/-! ### Near-optimality (C86) -/

/-- The cost of the subproblem. -/
noncomputable def subCost (P : Sub n m) (x : Fin n → ℝ) (y : Fin m → ℝ) (z : ℝ) : ℝ :=
  approxF P x + P.a0 * z + ∑ i, (P.c i * y i + 1 / 2 * P.d i * y i ^ 2)

/-- The feasible points of the subproblem. -/
structure Feasible (P : Sub n m) (x : Fin n → ℝ) (y : Fin m → ℝ) (z : ℝ) : Prop where
  lower : ∀ j, P.alpha j ≤ x j
  upper : ∀ j, x j ≤ P.beta j
  ynn : ∀ i, 0 ≤ y i
  znn : 0 ≤ z
  con : ∀ i, approxG P i x - P.a i * z - y i ≤ 0

/-- Weak duality for a point whose residuals are at most `r`. -/
theorem weak_duality (hP : GoodSub P) (hw : Inside P w) {e r : ℝ}
    (hA : ∀ j, |resA P w j| ≤ r ∧ |resE P w e j| ≤ r ∧ |resF P w e j| ≤ r)
    (hB : ∀ i, |resB P w i| ≤ r ∧ |resD P w i| ≤ r ∧ |resG w e i| ≤ r ∧ |resI w e i| ≤ r)
    (hC : |resC P w| ≤ r) (hH : |resH w e| ≤ r) {x : Fin n → ℝ} {y : Fin m → ℝ} {z : ℝ} (hf : Feasible P x y z) :
    subCost P w.x w.y w.z ≤ subCost P x y z + (2 * n + 2 * m + 1) * (e + r) +
      r * ((∑ j, |x j - w.x j|) + (∑ i, (|y i - w.y i| + w.lam i)) + |z - w.z|) := by
  have hl : ∀ i, 0 < w.lam i := fun i => (hw.2.1 i).2.1
  have hp : ∀ j, 0 ≤ plambda P w.lam j := fun j =>
    add_nonneg (hP.p0 j) (Finset.sum_nonneg fun i _ => mul_nonneg (hl i).le (hP.p i j))
  have hq : ∀ j, 0 ≤ qlambda P w.lam j := fun j =>
    add_nonneg (hP.q0 j) (Finset.sum_nonneg fun i _ => mul_nonneg (hl i).le (hP.q i j))
  -- the part in the design
  have lag : ∀ u : Fin n → ℝ, ∑ j, P.basis.val j (plambda P w.lam j) (qlambda P w.lam j) (u j) =
      approxF P u + ∑ i, w.lam i * (approxG P i u + P.b i) := by
    intro u
    unfold approxF approxG plambda qlambda
    simp only [sub_add_cancel, Finset.mul_sum]
    rw [Finset.sum_comm, ← Finset.sum_add_distrib]
    refine Finset.sum_congr rfl fun j _ => ?_
    exact sum_lin (F := fun p q => P.basis.val j p q (u j)) (fun p q p' q' s => hP.valadd j p q p' q' s _) _ _ _ _ _
  have px : ∀ j, P.basis.val j (plambda P w.lam j) (qlambda P w.lam j) (w.x j) - r * |x j - w.x j| - 2 * (e + r) ≤
      P.basis.val j (plambda P w.lam j) (qlambda P w.lam j) (x j) := by
    intro j
    obtain ⟨h1, h2, h3, h4⟩ := hw.1 j
    obtain ⟨a1, a2, a3⟩ := hA j
    have t := hP.tangent j _ _ _ _ (hp j) (hq j) h1 h2 (hf.lower j) (hf.upper j)
    have es : P.basis.slope j (plambda P w.lam j) (qlambda P w.lam j) (w.x j) =
        resA P w j + w.gsi j - w.ita j := by unfold resA; ring
    rw [es] at t
    have b1 : -(r * |x j - w.x j|) ≤ resA P w j * (x j - w.x j) := by
      have := neg_abs_le (resA P w j * (x j - w.x j))
      rw [abs_mul] at this
      have := mul_le_mul_of_nonneg_right a1 (abs_nonneg (x j - w.x j))
      linarith
    have b2 := mul_nonneg h3.le (sub_nonneg.2 (hf.lower j))
    have b3 := mul_nonneg h4.le (sub_nonneg.2 (hf.upper j))
    have b4 := (abs_le.1 a2).2
    have b5 := (abs_le.1 a3).2
    unfold resE at b4
    unfold resF at b5
    nlinarith
  have sx := Finset.sum_le_sum fun j (_ : j ∈ Finset.univ) => px j
  simp only [Finset.sum_sub_distrib, Finset.sum_const, Finset.card_univ, Fintype.card_fin, nsmul_eq_mul] at sx
  rw [lag, lag, ← Finset.mul_sum] at sx
  -- the part in y
  have py : ∀ i, P.c i * w.y i + 1 / 2 * P.d i * w.y i ^ 2 - w.lam i * w.y i - r * |y i - w.y i| - (e + r) ≤
      P.c i * y i + 1 / 2 * P.d i * y i ^ 2 - w.lam i * y i := by
    intro i
    obtain ⟨h1, h2, h3, h4⟩ := hw.2.1 i
    obtain ⟨a1, a2, a3, a4⟩ := hB i
    have b1 : -(r * |y i - w.y i|) ≤ resB P w i * (y i - w.y i) := by
      have := neg_abs_le (resB P w i * (y i - w.y i))
      rw [abs_mul] at this
      have := mul_le_mul_of_nonneg_right a1 (abs_nonneg (y i - w.y i))
      linarith
    have b2 := mul_nonneg h3.le (hf.ynn i)
    have b3 := (abs_le.1 a3).2
    unfold resG at b3
    unfold resB at b1
    have b4 := mul_nonneg (hP.d i) (sq_nonneg (y i - w.y i))
    nlinarith
  have sy := Finset.sum_le_sum fun i (_ : i ∈ Finset.univ) => py i
  simp only [Finset.sum_sub_distrib, Finset.sum_const, Finset.card_univ, Fintype.card_fin, nsmul_eq_mul] at sy
  rw [← Finset.mul_sum] at sy
  -- the part in z
  have pz : P.a0 * w.z - (∑ i, w.lam i * P.a i) * w.z - r * |z - w.z| - (e + r) ≤
      P.a0 * z - (∑ i, w.lam i * P.a i) * z := by
    have b1 : -(r * |z - w.z|) ≤ resC P w * (z - w.z) := by
      have := neg_abs_le (resC P w * (z - w.z))
      rw [abs_mul] at this
      have := mul_le_mul_of_nonneg_right hC (abs_nonneg (z - w.z))
      linarith
    have b2 := mul_nonneg hw.2.2.2.le hf.znn
    have b3 := (abs_le.1 hH).2
    unfold resH at b3
    unfold resC at b1
    nlinarith
  -- the constraints
  have pc : ∀ i, w.lam i * (approxG P i x + P.b i) - (w.lam i * P.a i) * z - w.lam i * y i ≤
      w.lam i * (approxG P i w.x + P.b i) - (w.lam i * P.a i) * w.z - w.lam i * w.y i + (e + r) +
        r * w.lam i := by
    intro i
    obtain ⟨a1, a2, a3, a4⟩ := hB i
    have b1 := mul_nonneg (hl i).le (neg_nonneg.2 (hf.con i))
    have b2 := (abs_le.1 a4).2
    have b3 := mul_le_mul_of_nonneg_left (abs_le.1 a2).1 (hl i).le
    unfold resI at b2
    unfold resD at b3
    nlinarith
  have sc := Finset.sum_le_sum fun i (_ : i ∈ Finset.univ) => pc i
  simp only [Finset.sum_sub_distrib, Finset.sum_add_distrib, Finset.sum_const, Finset.card_univ,
    Fintype.card_fin, nsmul_eq_mul, ← Finset.sum_mul, ← Finset.mul_sum] at sc
  unfold subCost
  simp only [Finset.sum_add_distrib] at sy sx ⊢
  nlinarith

/-- **C86 (feasibility and optimality)**: the point that the inner loop returns violates the constraints of
the subproblem by less than `1e-6`, and no feasible point has a cost lower by more than the given
amount. -/
theorem C86_optimal (hP : GoodSub P) (hab : ∀ j, P.alpha j < P.beta j) {fuel : ℕ} {fin : Pt n m × ℝ}
    (h : ipSolve P fuel = .done fin) :
    (∀ i, approxG P i fin.1.x - P.a i * fin.1.z - fin.1.y i < 1.0e-6) ∧
    ∀ x y z, Feasible P x y z → subCost P fin.1.x fin.1.y fin.1.z ≤ subCost P x y z +
      1.0e-6 * (2 * (2 * n + 2 * m + 1) +
        ((∑ j, |x j - fin.1.x j|) + (∑ i, (|y i - fin.1.y i| + fin.1.lam i)) + |z - fin.1.z|)) := by
  obtain ⟨hw, e, he0, he1, hk⟩ := C85_exit hab h
  obtain ⟨rA, rB, rC, rH⟩ := res_le (P := P) fin.1 e
  have hr : Real.sqrt (kktSquare P fin.1 e) ≤ 1.0e-6 := by
    norm_num at hk he1 ⊢; linarith
  refine ⟨fun i => ?_, fun x y z hf => ?_⟩
  · have h1 := (abs_le.1 (rB i).2.1).2
    have h2 := (hw.2.1 i).2.2.2
    unfold resD at h1
    norm_num at hk he1 ⊢
    linarith
  · have := weak_duality hP hw rA rB rC rH hf
    have s1 := Finset.sum_nonneg fun j (_ : j ∈ Finset.univ) => abs_nonneg (x j - fin.1.x j)
    have s2 := Finset.sum_nonneg fun i (_ : i ∈ Finset.univ) =>
      add_nonneg (abs_nonneg (y i - fin.1.y i)) (hw.2.1 i).2.1.le
    have s3 := abs_nonneg (z - fin.1.z)
    have s4 := mul_le_mul_of_nonneg_right hr (add_nonneg (add_nonneg s1 s2) s3)
    have s5 : (2 * (n : ℝ) + 2 * m + 1) * (e + Real.sqrt (kktSquare P fin.1 e)) ≤
        (2 * (n : ℝ) + 2 * m + 1) * (2 * 1.0e-6) :=
      mul_le_mul_of_nonneg_left (by linarith) (by positivity)
    linarith

end

/-! ### Results for the two solvers -/

theorem decrease_of_deriv {f : ℝ → ℝ} {c : ℝ} (h : HasDerivAt f c 0) (hc : c < 0) :
    ∃ t0 > 0, ∀ t, 0 < t → t < t0 → f t < f 0 := by
  have h1 := (hasDerivAt_iff_tendsto_slope.1 h).eventually (gt_mem_nhds hc)
  rw [eventually_nhdsWithin_iff, Metric.eventually_nhds_iff] at h1
  obtain ⟨t0, ht0, h2⟩ := h1
  refine ⟨t0, ht0, fun t h3 h4 => ?_⟩
  have h5 := h2 (y := t) (by rw [Real.dist_eq, sub_zero, abs_of_pos h3]; exact h4) h3.ne'
  rw [slope_def_field, sub_zero] at h5
  by_contra h6
  have : 0 ≤ (f t - f 0) / t := div_nonneg (by linarith) h3.le
  linarith

section
variable {n m : ℕ}

/-- **C84 (backtracking)**: along a Newton direction from a point that does not satisfy the relaxed conditions
all short enough steps reduce the norm, so halving the step ends the backtracking after finitely many
passes. -/
theorem C84_backtracking {P : Sub n m} {w d : Pt n m} {eps : ℝ} (h : NewtonFor P w d eps 0)
    (h0 : kktSquare P w eps ≠ 0) : ∃ t0 > 0, ∀ t, 0 < t → t < t0 →
      Real.sqrt (kktSquare P (w.step d t) eps) < Real.sqrt (kktSquare P w eps) := by
  have hnn : ∀ u : Pt n m, 0 ≤ kktSquare P u eps := fun u => by rw [kktSquare_eq]; positivity
  have hpos : 0 < kktSquare P w eps := lt_of_le_of_ne (hnn w) (Ne.symm h0)
  obtain ⟨t0, h1, h2⟩ := decrease_of_deriv (C84_descent h) (by linarith)
  refine ⟨t0, h1, fun t h3 h4 => Real.sqrt_lt_sqrt (hnn _) ?_⟩
  have := h2 t h3 h4
  rwa [step_zero] at this

/-- **C86 (MMA)**: what `MMA::UpdateVariables` returns is nearly feasible and nearly optimal for its
subproblem. -/
theorem C86_mma {o o' : MMA n m} {xk x' dfdx : Fin n → ℝ} {g : Fin m → ℝ} {dgdx : Fin m → Fin n → ℝ} {f : ℝ}
    {fuel : ℕ} (h : MMAOk o xk) (ha : 0 < o.albefa) (hr : 0 ≤ o.raa0) (hd : ∀ i, 0 ≤ o.d i)
    (hu : mmaUpdate o fuel xk f dfdx g dgdx = .done (x', o')) :
    ∃ P y z, mmaSub o xk dfdx g dgdx = some P ∧ (∀ i, 0 < y i) ∧ 0 < z ∧
      (∀ i, approxG P i x' - o.a i * z - y i < 1.0e-6) ∧ ∃ lam : Fin m → ℝ, (∀ i, 0 < lam i) ∧
        ∀ xs ys zs, Feasible P xs ys zs → subCost P x' y z ≤ subCost P xs ys zs +
          1.0e-6 * (2 * (2 * n + 2 * m + 1) +
            ((∑ j, |xs j - x' j|) + (∑ i, (|ys i - y i| + lam i)) + |zs - z|)) := by
  obtain ⟨P, st, hP, hs, hx, ho⟩ := mmaUpdate_done hu
  dsimp only at hx
  obtain ⟨hg, hab⟩ := mma_good h ha hr hd hP
  have hin := C48_inner hab hs
  obtain ⟨h1, h2⟩ := C86_optimal hg hab hs
  obtain ⟨_, _, _, _, _, _, _, _, _, e10, _⟩ := mmaSub_eq_some hP
  rw [hx]
  rw [e10] at h1
  exact ⟨P, st.1.y, st.1.z, hP, fun i => (hin.2.1 i).1, hin.2.2.1, h1, st.1.lam, fun i => (hin.2.1 i).2.1, h2⟩

/-- **C86 (CONLIN)**. -/
theorem C86_conlin {o o' : CONLIN n m} {xk x' dfdx : Fin n → ℝ} {g : Fin m → ℝ} {dgdx : Fin m → Fin n → ℝ}
    {f : ℝ} {fuel : ℕ} (h : CONLINOk o xk) (h0 : ∀ j, 0 < o.xmin j) (hd : ∀ i, 0 ≤ o.d i)
    (hu : conlinUpdate o fuel xk f dfdx g dgdx = .done (x', o')) :
    ∃ P y z, conlinSub o xk dfdx g dgdx = some P ∧ (∀ i, 0 < y i) ∧ 0 < z ∧
      (∀ i, approxG P i x' - o.a i * z - y i < 1.0e-6) ∧ ∃ lam : Fin m → ℝ, (∀ i, 0 < lam i) ∧
        ∀ xs ys zs, Feasible P xs ys zs → subCost P x' y z ≤ subCost P xs ys zs +
          1.0e-6 * (2 * (2 * n + 2 * m + 1) +
            ((∑ j, |xs j - x' j|) + (∑ i, (|ys i - y i| + lam i)) + |zs - z|)) := by
  obtain ⟨P, st, hP, hs, hx, ho⟩ := conlinUpdate_done hu
  dsimp only at hx
  obtain ⟨hg, hab⟩ := conlin_good h h0 hd hP
  have hin := C48_inner hab hs
  obtain ⟨h1, h2⟩ := C86_optimal hg hab hs
  obtain ⟨_, _, _, _, _, _, _, _, _, e10, _⟩ := conlinSub_eq_some hP
  rw [hx]
  rw [e10] at h1
  exact ⟨P, st.1.y, st.1.z, hP, fun i => (hin.2.1 i).1, hin.2.2.1, h1, st.1.lam, fun i => (hin.2.1 i).2.1, h2⟩

end

/-! ### The approximations of CONLIN (C87) -/

section
variable {n m : ℕ} {o : CONLIN n m} {xk dfdx : Fin n → ℝ} {g : Fin m → ℝ} {dgdx : Fin m → Fin n → ℝ}

/-- **C87 (value)**: at the current design the approximate constraints of CONLIN have the values of the
constraints. -/
theorem C87_value {P : Sub n m} (hP : conlinSub o xk dfdx g dgdx = some P) (i : Fin m) : approxG P i xk = g i := by
  obtain ⟨e1, e2, e3, e4, e5, e6, e7, e8, _⟩ := conlinSub_eq_some hP
  unfold approxG
  rw [e1, e6, e7, e8]
  simp only [conlinBasis]
  ring

theorem conlin_sum_deriv (hx : ∀ j, xk j ≠ 0) (df v : Fin n → ℝ) :
    HasDerivAt (fun t : ℝ => ∑ j, (conlinBasis n).val j (conlinP (df j)) (conlinQ (df j) (xk j))
      (xk j + t * v j)) (∑ j, df j * v j) 0 := by
  refine HasDerivAt.fun_sum fun j _ => ?_
  have h0 : xk j + 0 * v j ≠ 0 := by rw [zero_mul, add_zero]; exact hx j
  have d1 := line (xk j) (v j)
  have d2 := (d1.const_mul (conlinP (df j))).add ((d1.inv h0).const_mul (conlinQ (df j) (xk j)))
  have hm : max (df j) 0 - max (-df j) 0 = df j := by
    rcases le_total 0 (df j) with h0 | h0
    · rw [max_eq_left h0, max_eq_right (by linarith)]; ring
    · rw [max_eq_right h0, max_eq_left (by linarith)]; ring
  refine (d2.congr_of_eventuallyEq (Filter.Eventually.of_forall fun t => ?_)).congr_deriv ?_
  · simp only [conlinBasis, Pi.add_apply, Pi.inv_apply, div_eq_mul_inv]
  · have := hx j
    simp only [conlinP, conlinQ, zero_mul, add_zero]
    have e : max (-df j) 0 * xk j ^ 2 * (-v j / xk j ^ 2) = -(max (-df j) 0 * v j) := by field_simp
    rw [e]
    have : max (df j) 0 * v j + -(max (-df j) 0 * v j) = (max (df j) 0 - max (-df j) 0) * v j := by ring
    rw [this, hm]

/-- **C87 (gradients)**: at a design without zeros the approximations of CONLIN have the given
derivatives. -/
theorem C87_gradient {P : Sub n m} (hP : conlinSub o xk dfdx g dgdx = some P) (hx : ∀ j, xk j ≠ 0)
    (v : Fin n → ℝ) :
    HasDerivAt (fun t : ℝ => approxF P fun j => xk j + t * v j) (∑ j, dfdx j * v j) 0 ∧
      ∀ i, HasDerivAt (fun t : ℝ => approxG P i fun j => xk j + t * v j) (∑ j, dgdx i j * v j) 0 := by
  obtain ⟨e1, e2, e3, e4, e5, e6, e7, e8, _⟩ := conlinSub_eq_some hP
  refine ⟨?_, fun i => ?_⟩
  · unfold approxF
    rw [e1, e4, e5]
    exact conlin_sum_deriv hx dfdx v
  · unfold approxG
    rw [e1, e6, e7]
    exact (conlin_sum_deriv hx (dgdx i) v).sub_const _

end

/-! ### A run of the inner loop -/

/-- The states of the run: the design in the middle, the multipliers of its bounds and `z` equal up to the
distance to the bounds. -/
noncomputable def midPt (x D E : ℝ) : Pt 1 0 where
  x := fun _ => x
  y := Fin.elim0
  z := E
  lam := Fin.elim0
  gsi := fun _ => E / D
  ita := fun _ => E / D
  mu := Fin.elim0
  zeta := 1
  s := Fin.elim0

/-- A problem with one variable and no constraint whose approximate objective is stationary in the middle. -/
structure MidSub (P : Sub 1 0) (x D : ℝ) : Prop where
  good : GoodSub P
  D0 : 0 < D
  D1 : D ≤ 1
  alpha : P.alpha = fun _ => x - D
  beta : P.beta = fun _ => x + D
  slope : P.basis.slope 0 (P.p0 0) (P.q0 0) x = 0
  a0 : P.a0 = 1

section
variable {P : Sub 1 0} {x D E e : ℝ}

theorem Pt_ext {n m : ℕ} {u v : Pt n m} (h1 : u.x = v.x) (h2 : u.y = v.y) (h3 : u.z = v.z) (h4 : u.lam = v.lam)
    (h5 : u.gsi = v.gsi) (h6 : u.ita = v.ita) (h7 : u.mu = v.mu) (h8 : u.zeta = v.zeta) (h9 : u.s = v.s) :
    u = v := by
  cases u; cases v; simp only [Pt.mk.injEq] at *; exact ⟨h1, h2, h3, h4, h5, h6, h7, h8, h9⟩

theorem mid_inside (h : MidSub P x D) (hE : 0 < E) : Inside P (midPt x D E) := by
  have := h.D0
  refine ⟨fun j => ?_, fun i => i.elim0, hE, one_pos⟩
  rw [h.alpha, h.beta]
  simp only [midPt]
  exact ⟨by linarith, by linarith, by positivity, by positivity⟩

theorem mid_kkt (h : MidSub P x D) : kktSquare P (midPt x D E) e = 3 * (E - e) ^ 2 := by
  have h0 := h.D0.ne'
  rw [kktSquare_eq]
  unfold resA resB resC resD resE resF resG resH resI plambda qlambda
  rw [h.alpha, h.beta, h.a0]
  simp only [midPt, Fin.sum_univ_succ, Fin.sum_univ_zero, Fin.isValue, add_zero, h.slope]
  field_simp
  ring

theorem mid_start (h : MidSub P x D) : ipStart P = some (midPt x D 1) := by
  have h0 := h.D0
  unfold ipStart
  rw [h.alpha, h.beta]
  have hx : 0.5 * (x - D + (x + D)) = x := by norm_num; ring
  dsimp only
  rw [hx]
  rw [if_pos (fun j => ⟨by linarith, by linarith⟩)]
  congr 1
  have hd : (1 : ℝ) ≤ 1 / D := by rw [le_div_iff₀ h0, one_mul]; exact h.D1
  have e1 : x - (x - D) = D := by ring
  have e2 : x + D - x = D := by ring
  refine Pt_ext rfl (funext fun i => i.elim0) rfl (funext fun i => i.elim0) ?_ ?_ (funext fun i => i.elim0) rfl
    (funext fun i => i.elim0)
  · funext j; simp only [midPt]; rw [e1]; exact max_eq_right hd
  · funext j; simp only [midPt]; rw [e2]; exact max_eq_right hd

/-- The direction of the run. -/
theorem mid_newton (h : MidSub P x D) (hE : 0 < E) : ∃ d, newton P (midPt x D E) e = some d ∧ d.x = (fun _ => 0) ∧
    d.z = e - E ∧ d.gsi = (fun _ => (e - E) / D) ∧ d.ita = (fun _ => (e - E) / D) ∧ d.zeta = 0 := by
  have hi := mid_inside h hE
  have h0 := h.D0
  obtain ⟨d, hd⟩ := newton_defined h.good hi e
  obtain ⟨hdiv, r, hr, rfl⟩ := newton_eq_some hd
  have hred := reduced_dual hdiv (by norm_num) hr
  have hz := hred.z
  simp only [Fin.sum_univ_zero, ipDelz, midPt, h.a0] at hz
  have hz' : r.2.2 = e - E := by
    field_simp at hz
    linarith
  have hdelx : ipDelx P (midPt x D E) e 0 = 0 := by
    unfold ipDelx plambda qlambda
    rw [h.alpha, h.beta]
    simp only [midPt, Fin.sum_univ_zero, add_zero, h.slope]
    ring
  have hx := hred.x 0
  rw [hdelx, Fin.sum_univ_zero, add_zero, neg_zero] at hx
  have hx0 : r.1 0 = 0 := by
    rcases mul_eq_zero.1 hx with hh | hh
    · exact absurd hh (ipDx_pos h.good hi 0).ne'
    · exact hh
  have hx' : r.1 = fun _ => 0 := by funext j; rw [Subsingleton.elim j 0]; exact hx0
  refine ⟨_, hd, hx', hz', ?_, ?_, ?_⟩
  · funext j
    simp only [expandDirection, hx', midPt, h.alpha, sub_sub_cancel]
    ring
  · funext j
    simp only [expandDirection, hx', midPt, h.beta, add_sub_cancel_left]
    ring
  · simp only [expandDirection, hz', midPt]
    field_simp
    ring

theorem mid_pass (h : MidSub P x D) (he : 0 < e) (h1 : e ≤ E) (h2 : E ≤ 10 * e) :
    ipBody P (midPt x D E, e) = some (midPt x D e, e * 0.1) := by
  have hE : 0 < E := by linarith
  have hi := mid_inside h hE
  have h0 := h.D0
  obtain ⟨d, hd, dx, dz, dgsi, dita, dzeta⟩ := mid_newton (e := e) h hE
  have hstep : ∀ t, (midPt x D E).step d t = midPt x D (E + t * (e - E)) := by
    intro t
    refine Pt_ext ?_ (funext fun i => i.elim0) ?_ (funext fun i => i.elim0) ?_ ?_ (funext fun i => i.elim0) ?_
      (funext fun i => i.elim0)
    · funext j; simp only [Pt.step, midPt, dx]; ring
    · simp only [Pt.step, midPt, dz]
    · funext j; simp only [Pt.step, midPt, dgsi]; ring
    · funext j; simp only [Pt.step, midPt, dita]; ring
    · simp only [Pt.step, midPt, dzeta]; ring
  have hratio : -1.01 * (e - E) / E ≤ 1 := by
    rw [div_le_one hE]; norm_num; linarith
  have hratio' : -1.01 * ((e - E) / D) / (E / D) ≤ 1 := by
    have : -1.01 * ((e - E) / D) / (E / D) = -1.01 * (e - E) / E := by field_simp
    rw [this]; exact hratio
  have htau : stepLength P (midPt x D E) d = some 1 := by
    obtain ⟨tau, ht⟩ := stepLength_defined hi d
    rw [ht]
    unfold stepLength at ht
    by_cases hsd : StepDivisible P (midPt x D E)
    · rw [if_pos hsd] at ht
      rw [← Option.some.inj ht]
      have m1 : loopMax (txmaxj P (midPt x D E) d) ≤ 1 := by
        unfold loopMax txmaxj
        simp only [List.finRange_succ, List.finRange_zero, List.map_nil, List.foldl_cons, List.foldl_nil]
        split
        · rw [dx, dgsi, dita]
          simp only [midPt, mul_zero, zero_div]
          exact max_le (max_le zero_le_one zero_le_one) (max_le hratio' hratio')
        · exact zero_le_one
      have m2 : loopMax (tymaxi (midPt x D E) d) ≤ 1 := zero_le_one
      have m3 : -1.01 * d.z / (midPt x D E).z ≤ 1 := by rw [dz]; exact hratio
      have m4 : -1.01 * d.zeta / (midPt x D E).zeta ≤ 1 := by rw [dzeta]; simp
      rw [max_eq_left (a := (1 : ℝ)) m1, max_eq_left (a := (1 : ℝ)) m2, max_eq_left (max_le m3 m4)]
      norm_num
    · rw [if_neg hsd] at ht; exact nomatch ht
  have hb : backtrack P (midPt x D E) d e (Real.sqrt (kktSquare P (midPt x D E) e)) 49 1 = some (midPt x D e) := by
    rcases eq_or_lt_of_le h1 with heq | hlt
    · obtain ⟨w', hw'⟩ := backtrack_defined h.good hi htau e (Real.sqrt (kktSquare P (midPt x D E) e)) 49 1
        one_pos (le_refl _)
      obtain ⟨t, _, _, ht⟩ := backtrack_step _ _ one_pos hw'
      rw [hw', ht, hstep, heq]
      congr 2
      ring
    · rw [backtrack_eq, hstep]
      have e1 : E + 1 * (e - E) = e := by ring
      rw [e1, kktNorm_defined h.good (mid_inside h he), mid_kkt h, mid_kkt h]
      refine if_pos (Real.sqrt_lt_sqrt (by norm_num) ?_)
      have : 0 < (E - e) ^ 2 := by have : 0 < E - e := by linarith
                                   positivity
      rw [sub_self]; linarith
  unfold ipBody
  refine Option.bind_eq_some_iff.2 ⟨d, hd, Option.bind_eq_some_iff.2 ⟨1, htau, Option.bind_eq_some_iff.2
    ⟨_, kktNorm_defined h.good hi _, Option.bind_eq_some_iff.2 ⟨midPt x D e, hb, Option.bind_eq_some_iff.2
      ⟨_, kktNorm_defined h.good (mid_inside h he) _, ?_⟩⟩⟩⟩⟩
  rw [mid_kkt h, sub_self]
  have : Real.sqrt (3 * 0 ^ 2) < 0.9 * e := by
    norm_num; linarith
  rw [if_pos this]
  rfl

theorem ipLoop_next {n m : ℕ} {P : Sub n m} {st st' : Pt n m × ℝ} (hc : 1.0e-7 < st.2)
    (h : ipBody P st = some st') (fuel : ℕ) : ipLoop P (fuel + 1) st = ipLoop P fuel st' := by
  rw [ipLoop_eq, if_pos hc]
  simp only [h]

/-- Seven passes end the loop. -/
theorem mid_run (h : MidSub P x D) : ∃ st, ipSolve P 7 = .done st ∧ st.1.x = fun _ => x := by
  unfold ipSolve
  rw [mid_start h]
  dsimp only
  rw [ipLoop_next (by norm_num) (mid_pass h (e := 1) (by norm_num) (by norm_num) (by norm_num)),
    ipLoop_next (by norm_num) (mid_pass h (by norm_num) (by norm_num) (by norm_num)),
    ipLoop_next (by norm_num) (mid_pass h (by norm_num) (by norm_num) (by norm_num)),
    ipLoop_next (by norm_num) (mid_pass h (by norm_num) (by norm_num) (by norm_num)),
    ipLoop_next (by norm_num) (mid_pass h (by norm_num) (by norm_num) (by norm_num)),
    ipLoop_next (by norm_num) (mid_pass h (by norm_num) (by norm_num) (by norm_num)),
    ipLoop_next (by norm_num) (mid_pass h (by norm_num) (by norm_num) (by norm_num))]
  refine ⟨_, (ipLoop_eq _ _).trans (if_neg (by norm_num)), rfl⟩

end

/-- The solver MMA with one variable in `[0, 2]`, no constraint and the default parameters. -/
noncomputable def mmaExample : MMA 1 0 := MMA.mk' 1 Fin.elim0 Fin.elim0 Fin.elim0 (fun _ => 0) (fun _ => 2)

theorem mmaExample_ok : MMAOk mmaExample (fun _ => 1) := by
  refine ⟨fun j => ?_, fun j => ?_, fun j => ?_, ?_, ?_, ?_⟩ <;> norm_num [mmaExample, MMA.mk']

theorem mmaExample_run : ∃ o', mmaUpdate mmaExample 7 (fun _ => 1) 0 (fun _ => 0) Fin.elim0 Fin.elim0 =
    .done (fun _ => 1, o') := by
  obtain ⟨P, hP⟩ := mmaSub_defined (o := mmaExample) (xk := fun _ => 1) (dfdx := fun _ => 0) (g := Fin.elim0)
    (dgdx := Fin.elim0) mmaExample_ok.box
  obtain ⟨e1, e2, e3, e4, e5, _, _, _, e9, _⟩ := mmaSub_eq_some hP
  have hL : asyL mmaExample (fun _ => 1) 0 = 0 := by
    norm_num [asyL, mmaExample, MMA.mk']
  have hU : asyU mmaExample (fun _ => 1) 0 = 2 := by
    norm_num [asyU, mmaExample, MMA.mk']
  have hm : MidSub P 1 0.9 := by
    refine ⟨(mma_good mmaExample_ok (by norm_num [mmaExample, MMA.mk']) (by norm_num [mmaExample, MMA.mk'])
      (fun i => i.elim0) hP).1, by norm_num, by norm_num, ?_, ?_, ?_, ?_⟩
    · rw [e2]; funext j; rw [Subsingleton.elim j 0]
      unfold mmaAlpha; rw [hL]; norm_num [mmaExample, MMA.mk']
    · rw [e3]; funext j; rw [Subsingleton.elim j 0]
      unfold mmaBeta; rw [hU]; norm_num [mmaExample, MMA.mk']
    · rw [e1, e4, e5]
      exact mma_slope (o := mmaExample) (xk := fun _ => 1) mmaExample_ok.box 0 0
    · rw [e9]; rfl
  obtain ⟨st, hs, hx⟩ := mid_run hm
  unfold mmaUpdate
  simp only [hP, hs]
  exact ⟨_, by rw [hx]⟩

example : ∃ (o' : MMA 1 0) (x' : Fin 1 → ℝ), mmaUpdate mmaExample 7 (fun _ => 1) 0 (fun _ => 0) Fin.elim0 Fin.elim0 =
    .done (x', o') ∧ ∀ j, 0 < x' j ∧ x' j < 2 := by
  obtain ⟨o', h⟩ := mmaExample_run
  exact ⟨o', _, h, fun j => (C48_mma mmaExample_ok h j).1⟩

/-- The solver CONLIN with one variable in `[1, 3]` and no constraint. -/
noncomputable def conlinExample : CONLIN 1 0 :=
  CONLIN.mk' 1 Fin.elim0 Fin.elim0 Fin.elim0 (fun _ => 1) (fun _ => 3)

theorem conlinExample_ok : CONLINOk conlinExample (fun _ => 2) := by
  refine ⟨fun j => ?_, fun j => ?_, fun j => ?_, ?_⟩ <;> norm_num [conlinExample, CONLIN.mk']

theorem conlinExample_run : ∃ o', conlinUpdate conlinExample 7 (fun _ => 2) 0 (fun _ => 0) Fin.elim0 Fin.elim0 =
    .done (fun _ => 2, o') := by
  obtain ⟨P, hP⟩ : ∃ P, conlinSub conlinExample (fun _ => 2) (fun _ => 0) Fin.elim0 Fin.elim0 = some P :=
    ⟨_, if_pos fun i => i.elim0⟩
  obtain ⟨e1, e2, e3, e4, e5, _, _, _, e9, _⟩ := conlinSub_eq_some hP
  have hm : MidSub P 2 1 := by
    refine ⟨(conlin_good conlinExample_ok (fun j => by norm_num [conlinExample, CONLIN.mk'])
      (fun i => i.elim0) hP).1, by norm_num, by norm_num, ?_, ?_, ?_, ?_⟩
    · rw [e2]; funext j
      norm_num [conlinExample, CONLIN.mk']
    · rw [e3]; funext j
      norm_num [conlinExample, CONLIN.mk']
    · rw [e1, e4, e5]
      norm_num [conlinBasis, conlinP, conlinQ]
    · rw [e9]; rfl
  obtain ⟨st, hs, hx⟩ := mid_run hm
  unfold conlinUpdate
  simp only [hP, hs]
  exact ⟨_, by rw [hx]⟩

example : ∃ (o' : CONLIN 1 0) (x' : Fin 1 → ℝ),
    conlinUpdate conlinExample 7 (fun _ => 2) 0 (fun _ => 0) Fin.elim0 Fin.elim0 =
    .done (x', o') ∧ ∀ j, 1 < x' j ∧ x' j < 3 := by
  obtain ⟨o', h⟩ := conlinExample_run
  exact ⟨o', _, h, fun j => (C51_conlin conlinExample_ok h j).1⟩

example : mmaUpdate mmaExample 7 (fun _ => 1) 0 (fun _ => 5) Fin.elim0 Fin.elim0 ≠ .undefined :=
  C83_mma mmaExample_ok (by norm_num [mmaExample, MMA.mk']) (by norm_num [mmaExample, MMA.mk']) (fun i => i.elim0) _ _
    _ _ _

/-! ### A direction that is not the Newton direction -/

/-- CONLIN with two variables in `[1, 3]` and two constraints, the first with `a = 1`. -/
noncomputable def conlinWitness : CONLIN 2 2 :=
  CONLIN.mk' 2 ![1, 0] (fun _ => 1) (fun _ => 0) (fun _ => 1) (fun _ => 3)

theorem conlinWitness_ok : CONLINOk conlinWitness (fun _ => 2) := by
  refine ⟨fun j => ?_, fun j => ?_, fun j => ?_, ?_⟩ <;> norm_num [conlinWitness, CONLIN.mk']

/-- **C84 (fails)**: at the start of the inner loop of CONLIN with two variables and two constraints the
direction is not the Newton direction. -/
theorem C84_false : ¬ ∀ (n m : ℕ) (P : Sub n m) (w d : Pt n m) (eps : ℝ), GoodSub P → ipStart P = some w →
    (∀ j, P.alpha j < P.beta j) → newton P w eps = some d → NewtonFor P w d eps 0 := by
  intro hall
  obtain ⟨P, hP⟩ : ∃ P, conlinSub conlinWitness (fun _ => 2) (fun _ => 0) (fun _ => 0) (fun _ _ => 0) = some P :=
    ⟨_, if_pos fun _ _ => by norm_num⟩
  obtain ⟨e1, e2, e3, e4, e5, e6, e7, e8, e9, e10, e11, e12⟩ := conlinSub_eq_some hP
  obtain ⟨hg, hab⟩ := conlin_good conlinWitness_ok (fun j => by norm_num [conlinWitness, CONLIN.mk'])
    (fun i => by norm_num [conlinWitness, CONLIN.mk']) hP
  obtain ⟨w, hw, hi⟩ := C48_start hab
  obtain ⟨d, hd⟩ := newton_defined hg hi 1
  have h1 := hall 2 2 P w d 1 hg hw hab hd
  have h2 := C84_defect hg hi (by norm_num) hd
  have h3 := h1.C.unique h2.C
  have hDy : ∀ i, ipDy P w i = 1 := by
    intro i
    unfold ipStart at hw
    dsimp only at hw
    split at hw
    · rw [← Option.some.inj hw]
      unfold ipDy
      rw [e12, e11]
      norm_num [conlinWitness, CONLIN.mk']
    · exact nomatch hw
  have hwv : w.z = 1 ∧ w.zeta = 1 ∧ (∀ i, w.lam i = 1) ∧ (∀ i, w.y i = 1) ∧ ∀ i, w.s i = 1 := by
    unfold ipStart at hw
    dsimp only at hw
    split at hw
    · rw [← Option.some.inj hw]
      exact ⟨rfl, rfl, fun _ => rfl, fun _ => rfl, fun _ => rfl⟩
    · exact nomatch hw
  obtain ⟨wz, wzeta, wlam, wy, ws⟩ := hwv
  have hDly : ∀ i, ipDly P w i = 2 := by
    intro i; unfold ipDly; rw [hDy, ws, wlam]; norm_num
  have ha : P.a = ![1, 0] := by rw [e10]; rfl
  have hdz : d.z = 0 := by
    simp only [hDly, ha, Fin.sum_univ_two, Matrix.cons_val_zero, Matrix.cons_val_one] at h3
    norm_num at h3
    linarith
  obtain ⟨hdiv, r, hr, rfl⟩ := newton_eq_some hd
  have hred := reduced_primal hdiv (by norm_num) hr
  have hz0 : r.2.2 = 0 := hdz
  have hG : ∀ i j, ipG P w i j = 0 := by
    intro i j
    unfold ipG
    rw [e1, e6, e7]
    norm_num [conlinBasis, conlinP, conlinQ]
  have hl := hred.lam 0
  have hz := hred.z
  rw [hz0] at hl hz
  have hval : P.b = fun _ => 0 := by
    rw [e8]; funext i; norm_num [conlinP, conlinQ]
  simp only [hG, hDly, ipDelly, ipDellam, ipDely, hDy, wz, wy, wlam, ha, hval, e1, e6, e7, e11, e12, conlinBasis,
    conlinP, conlinQ, conlinWitness, CONLIN.mk', Matrix.cons_val_zero] at hl
  simp only [ha, ipDelz, wz, wlam, e9, Fin.sum_univ_two, Matrix.cons_val_zero, Matrix.cons_val_one,
    conlinWitness, CONLIN.mk'] at hz
  norm_num at hl hz
  rw [hz] at hl
  norm_num at hl

/-- CONLIN with one variable in `[1, 3]` and one constraint. -/
noncomputable def conlinSmall : CONLIN 1 1 :=
  CONLIN.mk' 1 (fun _ => 1) (fun _ => 1) (fun _ => 0) (fun _ => 1) (fun _ => 3)

theorem conlinSmall_ok : CONLINOk conlinSmall (fun _ => 2) := by
  refine ⟨fun j => ?_, fun j => ?_, fun j => ?_, ?_⟩ <;> norm_num [conlinSmall, CONLIN.mk']

-- a Newton direction for one variable, one constraint and `a ≠ 0`, with decreasing norm
example : ∃ (P : Sub 1 1) (w d : Pt 1 1), P.a 0 = 1 ∧ NewtonFor P w d 1 0 ∧
    HasDerivAt (fun t : ℝ => kktSquare P (w.step d t) 1) (-2 * kktSquare P w 1) 0 := by
  obtain ⟨P, hP⟩ : ∃ P, conlinSub conlinSmall (fun _ => 2) (fun _ => 7) (fun _ => 1) (fun _ _ => -3) = some P :=
    ⟨_, if_pos fun _ _ => by norm_num⟩
  obtain ⟨e1, e2, e3, e4, e5, e6, e7, e8, e9, e10, e11, e12⟩ := conlinSub_eq_some hP
  obtain ⟨hg, hab⟩ := conlin_good conlinSmall_ok (fun j => by norm_num [conlinSmall, CONLIN.mk'])
    (fun i => by norm_num [conlinSmall, CONLIN.mk']) hP
  obtain ⟨w, hw, hi⟩ := C48_start hab
  obtain ⟨d, hd⟩ := newton_defined hg hi 1
  have h := C84_primal_partial hg hi (by norm_num) (Or.inl rfl) hd
  exact ⟨P, w, d, by rw [e10]; rfl, h, C84_descent h⟩

-- a Newton direction for one variable without constraints
example : ∃ (P : Sub 1 0) (w d : Pt 1 0), NewtonFor P w d 1 0 := by
  obtain ⟨P, hP⟩ := mmaSub_defined (o := mmaExample) (xk := fun _ => 1) (dfdx := fun _ => 4) (g := Fin.elim0)
    (dgdx := Fin.elim0) mmaExample_ok.box
  obtain ⟨hg, hab⟩ := mma_good mmaExample_ok (by norm_num [mmaExample, MMA.mk'])
    (by norm_num [mmaExample, MMA.mk']) (fun i => i.elim0) hP
  obtain ⟨w, hw, hi⟩ := C48_start hab
  obtain ⟨d, hd⟩ := newton_defined hg hi 1
  exact ⟨P, w, d, C84_dual_partial hg hi (by norm_num) hd⟩

-- the derivative of the approximation for a given derivative 4
example : ∃ P : Sub 1 0, mmaSub mmaExample (fun _ => 1) (fun _ => 4) Fin.elim0 Fin.elim0 = some P ∧
    HasDerivAt (fun t : ℝ => approxF P fun _ => 1 + t * 1) 4 0 := by
  obtain ⟨P, hP⟩ := mmaSub_defined (o := mmaExample) (xk := fun _ => 1) (dfdx := fun _ => 4) (g := Fin.elim0)
    (dgdx := Fin.elim0) mmaExample_ok.box
  refine ⟨P, hP, ?_⟩
  have := (C49_gradient hP mmaExample_ok.box fun _ => 1).1
  simpa using this

-- the result of a run is nearly optimal
example : ∃ (o' : MMA 1 0) (P : Sub 1 0) (y : Fin 0 → ℝ) (z : ℝ),
    mmaUpdate mmaExample 7 (fun _ => 1) 0 (fun _ => 0) Fin.elim0 Fin.elim0 = .done (fun _ => 1, o') ∧
    mmaSub mmaExample (fun _ => 1) (fun _ => 0) Fin.elim0 Fin.elim0 = some P ∧ 0 < z := by
  obtain ⟨o', h⟩ := mmaExample_run
  obtain ⟨P, y, z, hP, _, hz, _⟩ := C86_mma mmaExample_ok (by norm_num [mmaExample, MMA.mk'])
    (by norm_num [mmaExample, MMA.mk']) (fun i => i.elim0) h
  exact ⟨o', P, y, z, h, hP, hz⟩

-- the value of an approximate constraint of CONLIN
example : ∃ P : Sub 1 1, conlinSub conlinSmall (fun _ => 2) (fun _ => 7) (fun _ => 1) (fun _ _ => -3) = some P ∧
    approxG P 0 (fun _ => 2) = 1 ∧ HasDerivAt (fun t : ℝ => approxG P 0 fun _ => 2 + t * 1) (-3) 0 := by
  obtain ⟨P, hP⟩ : ∃ P, conlinSub conlinSmall (fun _ => 2) (fun _ => 7) (fun _ => 1) (fun _ _ => -3) = some P :=
    ⟨_, if_pos fun _ _ => by norm_num⟩
  refine ⟨P, hP, C87_value hP 0, ?_⟩
  have := (C87_gradient hP (fun _ => by norm_num) fun _ => 1).2 0
  simpa using this

end Pansfem
