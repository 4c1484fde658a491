/-
The Sturm sequence of a tridiagonal matrix with non-zero off-diagonal: its polynomials have simple
real roots which interlace, and the number of sign changes counts the roots below a point.
-/
import Mathlib.Algebra.Polynomial.Monic
import Mathlib.Algebra.Polynomial.Eval.Degree
import Mathlib.Algebra.Order.BigOperators.Ring.Finset
import Mathlib.LinearAlgebra.Lagrange
import Mathlib.Topology.Algebra.Polynomial
import Mathlib.Topology.Order.IntermediateValue
import Mathlib.Topology.Instances.Real.Lemmas
import Mathlib.Data.Set.Card
import Mathlib.Tactic.Ring
import Mathlib.Tactic.Linarith
import Mathlib.Tactic.Positivity
import Mathlib.Tactic.LinearCombination

namespace Pansfem

open Polynomial

/-- The characteristic polynomials of the leading blocks of the tridiagonal matrix. -/
noncomputable def charSeq (alpha beta : ℕ → ℝ) : ℕ → ℝ[X]
  | 0 => 1
  | 1 => X - C (alpha 0)
  | k + 2 => (X - C (alpha (k + 1))) * charSeq alpha beta (k + 1) - C (beta k ^ 2) * charSeq alpha beta k

variable {alpha beta : ℕ → ℝ}

@[simp] theorem eval_charSeq_zero (t : ℝ) : (charSeq alpha beta 0).eval t = 1 := by simp [charSeq]

@[simp] theorem eval_charSeq_one (t : ℝ) : (charSeq alpha beta 1).eval t = t - alpha 0 := by
  simp [charSeq]

theorem eval_charSeq_succ (k : ℕ) (t : ℝ) : (charSeq alpha beta (k + 2)).eval t =
    (t - alpha (k + 1)) * (charSeq alpha beta (k + 1)).eval t
      - beta k ^ 2 * (charSeq alpha beta k).eval t := by
  simp [charSeq]

theorem charSeq_monic (k : ℕ) : (charSeq alpha beta k).Monic ∧ (charSeq alpha beta k).natDegree = k := by
  induction k using Nat.twoStepInduction with
  | zero => simp [charSeq]
  | one => exact ⟨monic_X_sub_C _, natDegree_X_sub_C _⟩
  | more k h1 h2 =>
    have hm : ((X - C (alpha (k + 1))) * charSeq alpha beta (k + 1)).Monic :=
      (monic_X_sub_C _).mul h2.1
    have hd : ((X - C (alpha (k + 1))) * charSeq alpha beta (k + 1)).natDegree = k + 2 := by
      rw [(monic_X_sub_C _).natDegree_mul h2.1, natDegree_X_sub_C, h2.2]; omega
    have hlt : (C (beta k ^ 2) * charSeq alpha beta k).natDegree <
        ((X - C (alpha (k + 1))) * charSeq alpha beta (k + 1)).natDegree := by
      refine lt_of_le_of_lt (natDegree_C_mul_le _ _) ?_
      rw [h1.2, hd]; omega
    refine ⟨?_, ?_⟩
    · rw [charSeq, sub_eq_add_neg]
      exact hm.add_of_left (by rw [degree_neg]; exact degree_lt_degree hlt)
    · rw [charSeq, natDegree_sub_eq_left_of_natDegree_lt hlt, hd]

/-- `x 0 < x 1 < ... < x (k-1)` are the roots of the `k`-th polynomial. -/
def IsRoots (alpha beta x : ℕ → ℝ) (k : ℕ) : Prop :=
  (∀ i j, i < j → j < k → x i < x j) ∧
    ∀ t, (charSeq alpha beta k).eval t = ∏ i ∈ Finset.range k, (t - x i)

/-- Sign of a product of linear factors. -/
theorem sign_prod (x : ℕ → ℝ) (t : ℝ) (N : ℕ) (h1 : ∀ j < N, x j < t) (m : ℕ)
    (h2 : ∀ j, N ≤ j → j < N + m → t < x j) :
    0 < (-1 : ℝ) ^ m * ∏ i ∈ Finset.range (N + m), (t - x i) := by
  induction m with
  | zero =>
    simp only [pow_zero, one_mul, Nat.add_zero]
    exact Finset.prod_pos fun i hi => sub_pos.2 (h1 i (Finset.mem_range.1 hi))
  | succ m ih =>
    have := ih fun j hj hj' => h2 j hj (by omega)
    have h3 := h2 (N + m) (by omega) (by omega)
    rw [← Nat.add_assoc, Finset.prod_range_succ, pow_succ]
    nlinarith [mul_pos this (sub_pos.2 h3)]

/-- Strictly increasing points at which the polynomial vanishes are all its roots. -/
theorem isRoots_of_eval {x : ℕ → ℝ} {k : ℕ} (hx : ∀ i j, i < j → j < k → x i < x j)
    (h : ∀ i < k, (charSeq alpha beta k).eval (x i) = 0) : IsRoots alpha beta x k := by
  refine ⟨hx, fun t => ?_⟩
  have hinj : Set.InjOn x (Finset.range k : Set ℕ) := by
    intro i hi j hj e
    rw [Finset.mem_coe, Finset.mem_range] at hi hj
    rcases lt_trichotomy i j with hl | hl | hl
    · exact absurd e (hx i j hl hj).ne
    · exact hl
    · exact absurd e (hx j i hl hi).ne'
  have hmp : (∏ i ∈ Finset.range k, (X - C (x i))).Monic := monic_prod_of_monic _ _ fun i _ => monic_X_sub_C _
  have hdp : (∏ i ∈ Finset.range k, (X - C (x i))).natDegree = k := by
    rw [natDegree_prod_of_monic _ _ fun i _ => monic_X_sub_C _]
    simp
  obtain ⟨hm, hd⟩ := charSeq_monic (alpha := alpha) (beta := beta) k
  have e : charSeq alpha beta k = ∏ i ∈ Finset.range k, (X - C (x i)) := by
    refine eq_of_degree_sub_lt_of_eval_index_eq (Finset.range k) hinj ?_ ?_
    · have := degree_sub_lt_left (p := charSeq alpha beta k) (q := ∏ i ∈ Finset.range k, (X - C (x i)))
        (by rw [degree_eq_natDegree hm.ne_zero, degree_eq_natDegree hmp.ne_zero, hd, hdp])
        hm.ne_zero (by rw [hm.leadingCoeff, hmp.leadingCoeff])
      rw [degree_eq_natDegree hm.ne_zero, hd] at this
      rwa [Finset.card_range]
    · intro i hi
      rw [h i (Finset.mem_range.1 hi), eval_prod]
      exact (Finset.prod_eq_zero hi (by simp)).symm
  rw [e, eval_prod]
  simp

theorem growing_sequence (q c d : ℕ → ℝ) (n : ℕ) (h0 : q 0 = 1) (h1 : q 1 = c 0)
    (hq : ∀ k, q (k + 2) = c (k + 1) * q (k + 1) - d k * q k) (hc0 : 1 ≤ c 0)
    (hc : ∀ k, k + 1 ≤ n → 1 + d k ≤ c (k + 1)) (hd : ∀ k, 0 ≤ d k) :
    ∀ k ≤ n, 0 < q k ∧ q k ≤ q (k + 1) := by
  intro k
  induction k with
  | zero => intro _; rw [h0, h1]; exact ⟨one_pos, hc0⟩
  | succ k ih =>
    intro hk
    obtain ⟨p1, p2⟩ := ih (by omega)
    have p3 : 0 < q (k + 1) := lt_of_lt_of_le p1 p2
    refine ⟨p3, ?_⟩
    rw [hq]
    have e1 := mul_le_mul_of_nonneg_right (hc k hk) p3.le
    have e2 := mul_le_mul_of_nonneg_left p2 (hd k)
    linarith

/-- Far to the right all polynomials are positive, far to the left their signs alternate. -/
theorem charSeq_far (alpha beta : ℕ → ℝ) (n : ℕ) : ∃ B0 : ℝ, ∀ t, B0 ≤ t →
    0 < (charSeq alpha beta n).eval t ∧ 0 < (-1) ^ n * (charSeq alpha beta n).eval (-t) := by
  refine ⟨(∑ i ∈ Finset.range (n + 1), |alpha i|) + (∑ i ∈ Finset.range (n + 1), beta i ^ 2) + 1,
    fun t ht => ?_⟩
  have ha : ∀ i ≤ n, |alpha i| ≤ ∑ i ∈ Finset.range (n + 1), |alpha i| := fun i hi =>
    Finset.single_le_sum (f := fun i => |alpha i|) (fun j _ => abs_nonneg _)
      (Finset.mem_range.2 (by omega : i < n + 1))
  have hb : ∀ i ≤ n, beta i ^ 2 ≤ ∑ i ∈ Finset.range (n + 1), beta i ^ 2 := fun i hi =>
    Finset.single_le_sum (f := fun i => beta i ^ 2) (fun j _ => sq_nonneg _)
      (Finset.mem_range.2 (by omega : i < n + 1))
  have hb0 : 0 ≤ ∑ i ∈ Finset.range (n + 1), beta i ^ 2 := Finset.sum_nonneg fun i _ => sq_nonneg _
  constructor
  · refine (growing_sequence (fun k => (charSeq alpha beta k).eval t) (fun k => t - alpha k)
      (fun k => beta k ^ 2) n (by simp) (by simp) (fun k => eval_charSeq_succ k t) ?_ ?_
      (fun k => sq_nonneg _) n le_rfl).1
    · have := ha 0 (by omega)
      have := le_abs_self (alpha 0)
      linarith
    · intro k hk
      have := ha (k + 1) hk
      have := hb k (by omega)
      have := le_abs_self (alpha (k + 1))
      linarith
  · refine (growing_sequence (fun k => (-1) ^ k * (charSeq alpha beta k).eval (-t))
      (fun k => t + alpha k) (fun k => beta k ^ 2) n (by simp) (by simp; ring) (fun k => ?_) ?_ ?_
      (fun k => sq_nonneg _) n le_rfl).1
    · simp only [eval_charSeq_succ, pow_succ]
      ring
    · have := ha 0 (by omega)
      have := neg_le_of_abs_le (le_refl |alpha 0|)
      linarith
    · intro k hk
      have := ha (k + 1) hk
      have := hb k (by omega)
      have := neg_le_of_abs_le (le_refl |alpha (k + 1)|)
      linarith

/-- `y` (with `k+1` entries) separates `x` (with `k` entries). -/
def Interlace (x y : ℕ → ℝ) (k : ℕ) : Prop := ∀ i < k, y i < x i ∧ x i < y (i + 1)

/-- The polynomials have interlacing real roots. -/
theorem charSeq_roots (alpha beta : ℕ → ℝ) (k : ℕ) (hb : ∀ i < k, beta i ≠ 0) :
    ∃ x y, IsRoots alpha beta x k ∧ IsRoots alpha beta y (k + 1) ∧ Interlace x y k := by
  induction k with
  | zero =>
    refine ⟨fun _ => 0, fun _ => alpha 0, ⟨fun i j _ h => by omega, fun t => by simp⟩,
      ⟨fun i j h1 h2 => by omega, fun t => by simp⟩, fun i hi => by omega⟩
  | succ k ih =>
    obtain ⟨x, y, hx, hy, hxy⟩ := ih fun i hi => hb i (by omega)
    -- values of the next polynomial at `y`
    have hval : ∀ i ≤ k, 0 < (-1 : ℝ) ^ (k + 1 - i) * (charSeq alpha beta (k + 2)).eval (y i) := by
      intro i hi
      have h0 : (charSeq alpha beta (k + 1)).eval (y i) = 0 := by
        rw [hy.2]
        exact Finset.prod_eq_zero (Finset.mem_range.2 (by omega : i < k + 1)) (sub_self _)
      rw [eval_charSeq_succ, h0, hx.2, show k + 1 - i = (k - i) + 1 by omega, pow_succ]
      have := sign_prod x (y i) i (fun j hj => ?_) (k - i) (fun j hj hj' => ?_)
      · rw [show i + (k - i) = k by omega] at this
        have hbk : 0 < beta k ^ 2 := by
          have := hb k (by omega)
          positivity
        nlinarith [mul_pos hbk this]
      · rcases Nat.lt_or_ge (j + 1) i with h | h
        · exact lt_trans (hxy j (by omega)).2 (hy.1 _ _ h (by omega))
        · obtain rfl : i = j + 1 := by omega
          exact (hxy j (by omega)).2
      · rcases Nat.lt_or_ge i j with h | h
        · exact lt_trans (hy.1 _ _ h (by omega)) (hxy j (by omega)).1
        · obtain rfl : i = j := by omega
          exact (hxy i (by omega)).1
    obtain ⟨B0, hB⟩ := charSeq_far alpha beta (k + 2)
    set B := max B0 (max (|y 0| + 1) (|y k| + 1)) with hBdef
    have hB0 : B0 ≤ B := le_max_left _ _
    have hB1 : |y 0| + 1 ≤ B := le_trans (le_max_left _ _) (le_max_right _ _)
    have hB2 : |y k| + 1 ≤ B := le_trans (le_max_right _ _) (le_max_right _ _)
    obtain ⟨hR, hL⟩ := hB B hB0
    set w : ℕ → ℝ := fun i => if i = 0 then -B else if i ≤ k + 1 then y (i - 1) else B with hw
    have hw0 : w 0 = -B := by simp [hw]
    have hwi : ∀ i ≤ k, w (i + 1) = y i := fun i hi => by
      simp only [hw, if_neg (Nat.succ_ne_zero i), if_pos (by omega : i + 1 ≤ k + 1), Nat.add_sub_cancel]
    have hwl : w (k + 2) = B := by
      simp only [hw, if_neg (Nat.succ_ne_zero (k + 1)), if_neg (by omega : ¬ k + 2 ≤ k + 1)]
    have hwstep : ∀ i ≤ k + 1, w i < w (i + 1) := by
      intro i hi
      rcases Nat.eq_zero_or_pos i with rfl | hpos
      · rw [hw0, hwi 0 (by omega)]
        have := neg_abs_le (y 0)
        linarith
      · obtain ⟨j, rfl⟩ : ∃ j, i = j + 1 := ⟨i - 1, by omega⟩
        rw [hwi j (by omega)]
        rcases Nat.lt_or_ge j k with h | h
        · rw [hwi (j + 1) (by omega)]
          exact hy.1 _ _ (by omega) (by omega)
        · obtain rfl : j = k := by omega
          rw [hwl]
          have := le_abs_self (y j)
          linarith
    have hws : ∀ i ≤ k + 2, 0 < (-1 : ℝ) ^ (k + 2 - i) * (charSeq alpha beta (k + 2)).eval (w i) := by
      intro i hi
      rcases Nat.eq_zero_or_pos i with rfl | hpos
      · rw [hw0]; exact hL
      · obtain ⟨j, rfl⟩ : ∃ j, i = j + 1 := ⟨i - 1, by omega⟩
        rcases Nat.lt_or_ge k j with h | h
        · obtain rfl : j = k + 1 := by omega
          rw [hwl]
          simpa using hR
        · rw [hwi j h, show k + 2 - (j + 1) = k + 1 - j by omega]
          exact hval j h
    -- a root between consecutive points
    have hroot : ∀ i, ∃ z, i ≤ k + 1 → w i < z ∧ z < w (i + 1) ∧
        (charSeq alpha beta (k + 2)).eval z = 0 := by
      intro i
      by_cases hi : i ≤ k + 1
      · have s1 := hws i (by omega)
        have s2 := hws (i + 1) (by omega)
        rw [show k + 2 - i = (k + 2 - (i + 1)) + 1 by omega, pow_succ] at s1
        set c : ℝ := (-1) ^ (k + 2 - (i + 1))
        have hcont : ContinuousOn (fun t => c * (charSeq alpha beta (k + 2)).eval t)
            (Set.Icc (w i) (w (i + 1))) :=
          (continuous_const.mul (charSeq alpha beta (k + 2)).continuous).continuousOn
        have := intermediate_value_Ioo (hwstep i hi).le hcont
        obtain ⟨z, hz, hz0⟩ := this (⟨by linarith, s2⟩ : (0 : ℝ) ∈ Set.Ioo _ _)
        refine ⟨z, fun _ => ⟨hz.1, hz.2, ?_⟩⟩
        have hc : c ≠ 0 := by
          intro e; rw [e] at s2; simp at s2
        exact (mul_eq_zero.1 hz0).resolve_left hc
      · exact ⟨0, fun h => absurd h hi⟩
    choose z hz using hroot
    have hwmono : ∀ i j, i ≤ j → j ≤ k + 2 → w i ≤ w j := by
      intro i j hij
      induction j, hij using Nat.le_induction with
      | base => intro _; exact le_rfl
      | succ j _ ih => intro hj; exact (ih (by omega)).trans (hwstep j (by omega)).le
    refine ⟨y, z, hy, isRoots_of_eval ?_ fun i hi => (hz i (by omega)).2.2, ?_⟩
    · intro i j hij hj
      calc z i < w (i + 1) := (hz i (by omega)).2.1
        _ ≤ w j := hwmono _ _ hij (by omega)
        _ < z j := (hz j (by omega)).1
    · intro i hi
      rw [← hwi i (by omega)]
      exact ⟨(hz i (by omega)).2.1, (hz (i + 1) (by omega)).1⟩

/-! ### Counting -/

/-- `N` of the `k` points lie below `lam`. -/
def IsRank (x : ℕ → ℝ) (k : ℕ) (lam : ℝ) (N : ℕ) : Prop :=
  N ≤ k ∧ (∀ j < N, x j < lam) ∧ ∀ j, N ≤ j → j < k → lam ≤ x j

theorem exists_rank {x : ℕ → ℝ} {k : ℕ} (hx : ∀ i j, i < j → j < k → x i < x j) (lam : ℝ) :
    ∃ N, IsRank x k lam N := by
  induction k with
  | zero => exact ⟨0, le_rfl, fun j hj => by omega, fun j _ hj => by omega⟩
  | succ k ih =>
    obtain ⟨N, h1, h2, h3⟩ := ih fun i j hij hj => hx i j hij (by omega)
    by_cases hk : N = k ∧ x k < lam
    · obtain ⟨rfl, hk⟩ := hk
      refine ⟨N + 1, le_rfl, fun j hj => ?_, fun j hj hj' => by omega⟩
      rcases Nat.lt_succ_iff_lt_or_eq.1 hj with h | rfl
      · exact h2 j h
      · exact hk
    · refine ⟨N, by omega, h2, fun j hj hj' => ?_⟩
      rcases Nat.lt_succ_iff_lt_or_eq.1 hj' with h | rfl
      · exact h3 j hj h
      · rcases Nat.lt_or_ge N j with h | h
        · have := h3 (j - 1) (by omega) (by omega)
          exact this.trans (hx (j - 1) j (by omega) (by omega)).le
        · exact not_lt.1 fun hl => hk ⟨by omega, hl⟩

/-- The number of roots of the `k`-th polynomial below `lam`. -/
noncomputable def rootsBelow (alpha beta : ℕ → ℝ) (k : ℕ) (lam : ℝ) : ℕ :=
  Set.ncard {t | t < lam ∧ (charSeq alpha beta k).eval t = 0}

theorem rootsBelow_eq {x : ℕ → ℝ} {k : ℕ} (hx : IsRoots alpha beta x k) {lam : ℝ} {N : ℕ}
    (hN : IsRank x k lam N) : rootsBelow alpha beta k lam = N := by
  have e : {t | t < lam ∧ (charSeq alpha beta k).eval t = 0} = x '' (Finset.range N : Set ℕ) := by
    ext t
    simp only [Set.mem_ofPred_eq, Set.mem_image, Finset.coe_range, Set.mem_Iio, hx.2,
      Finset.prod_eq_zero_iff, Finset.mem_range, sub_eq_zero]
    constructor
    · rintro ⟨h1, i, hi, rfl⟩
      exact ⟨i, not_le.1 fun h => absurd (hN.2.2 i h hi) (not_le.2 h1), rfl⟩
    · rintro ⟨i, hi, rfl⟩
      exact ⟨hN.2.1 i hi, i, lt_of_lt_of_le hi hN.1, rfl⟩
  rw [rootsBelow, e, Set.ncard_image_of_injOn, Set.ncard_coe_finset, Finset.card_range]
  intro i hi j hj e
  simp only [Finset.coe_range, Set.mem_Iio] at hi hj
  have := hN.1
  rcases lt_trichotomy i j with hl | hl | hl
  · exact absurd e (hx.1 i j hl (by omega)).ne
  · exact hl
  · exact absurd e (hx.1 j i hl (by omega)).ne'

theorem rank_rootsBelow {x : ℕ → ℝ} {k : ℕ} (hx : IsRoots alpha beta x k) (lam : ℝ) :
    IsRank x k lam (rootsBelow alpha beta k lam) := by
  obtain ⟨N, hN⟩ := exists_rank hx.1 lam
  rwa [rootsBelow_eq hx hN]

/-- One step of the sign count. -/
theorem rootsBelow_succ (k : ℕ) (hb : ∀ i < k, beta i ≠ 0) (lam : ℝ) :
    rootsBelow alpha beta (k + 1) lam = rootsBelow alpha beta k lam +
      if (-1) ^ rootsBelow alpha beta k lam * ((-1) ^ (k + 1) *
        (charSeq alpha beta (k + 1)).eval lam) < 0 then 1 else 0 := by
  obtain ⟨x, y, hx, hy, hxy⟩ := charSeq_roots alpha beta k hb
  obtain ⟨h1, h2, h3⟩ := rank_rootsBelow hx lam
  set N := rootsBelow alpha beta k lam
  have hlow : ∀ j < N, y j < lam := fun j hj => (hxy j (by omega)).1.trans (h2 j hj)
  have hhigh : ∀ j, N + 1 ≤ j → j < k + 1 → lam < y j := fun j hj hj' => by
    obtain ⟨i, rfl⟩ : ∃ i, j = i + 1 := ⟨j - 1, by omega⟩
    exact (h3 i (by omega) (by omega)).trans_lt (hxy i (by omega)).2
  have hsq : ∀ a b : ℕ, (-1 : ℝ) ^ a * ((-1) ^ (a + b) * 1) = (-1) ^ b := fun a b => by
    rw [pow_add, mul_one, ← mul_assoc, ← pow_add, Even.neg_one_pow ⟨a, rfl⟩, one_mul]
  rcases lt_trichotomy (y N) lam with hlt | heq | hgt
  · -- one more root below
    have hr : IsRank y (k + 1) lam (N + 1) := by
      refine ⟨by omega, fun j hj => ?_, fun j hj hj' => (hhigh j hj hj').le⟩
      rcases Nat.lt_succ_iff_lt_or_eq.1 hj with h | rfl
      · exact hlow j h
      · exact hlt
    have hs := sign_prod y lam (N + 1) hr.2.1 (k - N) fun j hj hj' => hhigh j hj (by omega)
    rw [show N + 1 + (k - N) = k + 1 by omega, ← hy.2] at hs
    rw [rootsBelow_eq hy hr, if_pos]
    have e : (-1 : ℝ) ^ N * ((-1) ^ (k + 1) * (charSeq alpha beta (k + 1)).eval lam) =
        -((-1) ^ (k - N) * (charSeq alpha beta (k + 1)).eval lam) := by
      have := hsq N (k + 1 - N)
      rw [show N + (k + 1 - N) = k + 1 by omega, mul_one] at this
      rw [← mul_assoc, this, show k + 1 - N = (k - N) + 1 by omega, pow_succ]
      ring
    rw [e]
    linarith
  · have hr : IsRank y (k + 1) lam N := ⟨by omega, hlow, fun j hj hj' => by
      rcases Nat.lt_or_ge N j with h | h
      · exact (hhigh j h hj').le
      · obtain rfl : j = N := by omega
        exact heq.ge⟩
    rw [rootsBelow_eq hy hr, if_neg, add_zero]
    have : (charSeq alpha beta (k + 1)).eval lam = 0 := by
      rw [hy.2]
      exact Finset.prod_eq_zero (Finset.mem_range.2 (by omega : N < k + 1)) (by rw [heq, sub_self])
    rw [this]
    simp
  · have hr : IsRank y (k + 1) lam N := ⟨by omega, hlow, fun j hj hj' => by
      rcases Nat.lt_or_ge N j with h | h
      · exact (hhigh j h hj').le
      · obtain rfl : j = N := by omega
        exact hgt.le⟩
    have hs := sign_prod y lam N hlow (k + 1 - N) fun j hj hj' => by
      rcases Nat.lt_or_ge N j with h | h
      · exact hhigh j h (by omega)
      · obtain rfl : j = N := by omega
        exact hgt
    rw [show N + (k + 1 - N) = k + 1 by omega, ← hy.2] at hs
    rw [rootsBelow_eq hy hr, if_neg, add_zero]
    have := hsq N (k + 1 - N)
    rw [show N + (k + 1 - N) = k + 1 by omega, mul_one] at this
    rw [← mul_assoc, this]
    linarith

end Pansfem
