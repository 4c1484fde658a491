/-
C62: the sign count of `BisectionMethod` is the number of eigenvalues below `lambda`, and the method
returns the requested eigenvalue up to the tolerance.
-/
import Verif.Lemmas.Sturm
import Verif.Props.C60_Bisection

namespace Pansfem

/-- `mu` is an eigenvalue of the tridiagonal matrix. -/
def IsEig (m : ℕ) (alpha beta : ℕ → ℝ) (mu : ℝ) : Prop :=
  ∃ v : Fin m → ℝ, v ≠ 0 ∧ (tridiag m alpha beta).mulVec v = mu • v

/-- Row `i` of `T y = mu y`. -/
theorem tridiag_row (m : ℕ) (alpha beta y : ℕ → ℝ) (mu : ℝ) :
    (tridiag m alpha beta).mulVec (fun j : Fin m => y j) = mu • (fun j : Fin m => y j) ↔
      ∀ i < m, (alpha i - mu) * y i + (if i = 0 then 0 else beta (i - 1) * y (i - 1))
        + (if i + 1 = m then 0 else beta i * y (i + 1)) = 0 := by
  have key := fun i : Fin m => tridiag_mulVec m alpha beta y mu i
  constructor
  · intro h i hi
    rw [← key ⟨i, hi⟩, Matrix.sub_mulVec, Matrix.smul_mulVec, Matrix.one_mulVec, h, sub_self]
    rfl
  · intro h
    have : (tridiag m alpha beta - mu • (1 : Matrix (Fin m) (Fin m) ℝ)).mulVec
        (fun j : Fin m => y j) = 0 := by
      funext i
      rw [key i, h i i.2]
      rfl
    rwa [Matrix.sub_mulVec, Matrix.smul_mulVec, Matrix.one_mulVec, sub_eq_zero] at this

/-- The eigenvalues are the roots of the last polynomial of the Sturm sequence. -/
theorem isEig_iff {m : ℕ} (hm : m ≠ 0) {alpha beta : ℕ → ℝ} (hb : ∀ i, i + 1 < m → beta i ≠ 0)
    (mu : ℝ) : IsEig m alpha beta mu ↔ (charSeq alpha beta m).eval mu = 0 := by
  have hprod : ∀ i < m, ∏ j ∈ Finset.range i, beta j ≠ 0 := fun i hi =>
    Finset.prod_ne_zero_iff.2 fun j hj => hb j (by have := Finset.mem_range.1 hj; omega)
  constructor
  · rintro ⟨v, hv, h⟩
    let y : ℕ → ℝ := fun j => if h : j < m then v ⟨j, h⟩ else 0
    have hy : (fun j : Fin m => y j) = v := by funext j; simp [y]
    rw [← hy] at h
    have hrow := (tridiag_row m alpha beta y mu).1 h
    have key : ∀ i < m, (∏ j ∈ Finset.range i, beta j) * y i =
        (charSeq alpha beta i).eval mu * y 0 := by
      intro i
      induction i using Nat.twoStepInduction with
      | zero => intro _; simp
      | one =>
        intro h1
        have := hrow 0 (by omega)
        rw [if_pos rfl, if_neg (by omega)] at this
        simp only [Finset.range_one, Finset.prod_singleton, eval_charSeq_one]
        simp only [zero_add] at this
        linear_combination this
      | more i h1 h2 =>
        intro hi
        have := hrow (i + 1) (by omega)
        rw [if_neg (by omega), if_neg (by omega), Nat.add_sub_cancel] at this
        have e1 := h1 (by omega)
        have e2 := h2 (by omega)
        rw [eval_charSeq_succ, Finset.prod_range_succ, Finset.prod_range_succ]
        rw [Finset.prod_range_succ] at e2
        linear_combination (∏ j ∈ Finset.range i, beta j) * beta i * this
          + (mu - alpha (i + 1)) * e2 - beta i ^ 2 * e1
    have hy0 : y 0 ≠ 0 := by
      intro e
      apply hv
      rw [← hy]
      funext i
      have := key i i.2
      rw [e, mul_zero] at this
      exact (mul_eq_zero.1 this).resolve_left (hprod i i.2)
    have hlast : (charSeq alpha beta m).eval mu * y 0 = 0 := by
      rcases m with _ | _ | m
      · omega
      · have := hrow 0 (by omega)
        simp only [if_true, zero_add] at this
        rw [zero_add, eval_charSeq_one]
        linear_combination -this
      · have := hrow (m + 1) (by omega)
        rw [if_neg (by omega), if_pos rfl, Nat.add_sub_cancel] at this
        have e1 := key m (by omega)
        have e2 := key (m + 1) (by omega)
        rw [Finset.prod_range_succ] at e2
        rw [eval_charSeq_succ]
        linear_combination -(∏ j ∈ Finset.range m, beta j) * beta m * this
          - (mu - alpha (m + 1)) * e2 + beta m ^ 2 * e1
    exact (mul_eq_zero.1 hlast).resolve_right hy0
  · intro h
    let y : ℕ → ℝ := fun i => (charSeq alpha beta i).eval mu / ∏ j ∈ Finset.range i, beta j
    have hy : ∀ i < m, (∏ j ∈ Finset.range i, beta j) * y i = (charSeq alpha beta i).eval mu :=
      fun i hi => mul_div_cancel₀ _ (hprod i hi)
    refine ⟨fun j => y j, fun e => ?_, (tridiag_row m alpha beta y mu).2 fun i hi => ?_⟩
    · have := congrFun e ⟨0, by omega⟩
      simp [y] at this
    · have hcancel : ∀ r : ℝ, (∏ j ∈ Finset.range i, beta j) * r = 0 → r = 0 := fun r hr =>
        (mul_eq_zero.1 hr).resolve_left (hprod i hi)
      apply hcancel
      have e0 := hy i hi
      have hnext : (∏ j ∈ Finset.range i, beta j) * (if i + 1 = m then 0 else beta i * y (i + 1)) =
          (charSeq alpha beta (i + 1)).eval mu := by
        split_ifs with he
        · rw [he, h, mul_zero]
        · have := hy (i + 1) (by omega)
          rw [Finset.prod_range_succ] at this
          rw [← mul_assoc]
          exact this
      rcases i with _ | i
      · simp only [if_true, add_zero]
        rw [mul_add, hnext]
        simp only [zero_add, eval_charSeq_one, Finset.range_zero, Finset.prod_empty, one_mul,
          eval_charSeq_zero] at e0 ⊢
        rw [e0]; ring
      · rw [if_neg (by omega), Nat.add_sub_cancel]
        have e1 := hy i (by omega)
        rw [mul_add, hnext, eval_charSeq_succ]
        rw [Finset.prod_range_succ] at e0 ⊢
        linear_combination (alpha (i + 1) - mu) * e0 + beta i ^ 2 * e1

/-- The sign count is the number of roots. -/
theorem sturmCount_eq {m : ℕ} (hm : m ≠ 0) {alpha beta : ℕ → ℝ}
    (hb : ∀ i, i + 1 < m → beta i ≠ 0) (lam : ℝ) :
    sturmCount alpha beta m lam = rootsBelow alpha beta m lam := by
  have hstep : ∀ k, k < m → ∀ p, p = (-1) ^ (k + 1) * (charSeq alpha beta (k + 1)).eval lam →
      sturmSign p ((-1) ^ rootsBelow alpha beta k lam) (rootsBelow alpha beta k lam) =
        ((-1) ^ rootsBelow alpha beta (k + 1) lam, rootsBelow alpha beta (k + 1) lam) := by
    rintro k hk p rfl
    have := rootsBelow_succ (alpha := alpha) (beta := beta) k (fun i hi => hb i (by omega)) lam
    rw [sturmSign]
    split_ifs with h
    · rw [if_pos h] at this
      rw [this, pow_succ]
    · rw [if_neg h, add_zero] at this
      rw [this]
  have h00 : rootsBelow alpha beta 0 lam = 0 := by
    simp [rootsBelow]
  obtain ⟨n, rfl⟩ : ∃ n, m = n + 1 := ⟨m - 1, by omega⟩
  rw [sturmCount]
  have h0 := hstep 0 (by omega) (alpha 0 - lam) (by simp)
  rw [h00, pow_zero] at h0
  simp only [h0, Nat.add_sub_cancel]
  have inv := forUp_inv (show 0 ≤ n by omega) (fun k (s : SturmState) =>
    let pkp1 := (alpha (k + 1) - lam) * s.pk - beta k ^ 2 * s.pkm1
    let t := sturmSign pkp1 s.sign s.N
    (⟨s.pk, pkp1, t.1, t.2⟩ : SturmState))
    ⟨1, alpha 0 - lam, (-1) ^ rootsBelow alpha beta (0 + 1) lam, rootsBelow alpha beta (0 + 1) lam⟩
    (fun k s => s.pkm1 = (-1) ^ k * (charSeq alpha beta k).eval lam ∧
      s.pk = (-1) ^ (k + 1) * (charSeq alpha beta (k + 1)).eval lam ∧
      s.sign = (-1) ^ rootsBelow alpha beta (k + 1) lam ∧ s.N = rootsBelow alpha beta (k + 1) lam)
    ⟨by simp, by simp, rfl, rfl⟩ (by
      rintro k s - hk ⟨e1, e2, e3, e4⟩
      have hp : (alpha (k + 1) - lam) * s.pk - beta k ^ 2 * s.pkm1 =
          (-1) ^ (k + 1 + 1) * (charSeq alpha beta (k + 1 + 1)).eval lam := by
        rw [e1, e2, eval_charSeq_succ, pow_succ, pow_succ]; ring
      have := hstep (k + 1) (by omega) _ hp
      simp only [e3, e4, this]
      exact ⟨e2, hp, trivial, trivial⟩)
  exact inv.2.2.2

/-- **C62**: the number counted by `BisectionMethod` is the number of eigenvalues below `lambda`. -/
theorem C62_count {m : ℕ} (hm : m ≠ 0) {alpha beta : ℕ → ℝ} (hb : ∀ i, i + 1 < m → beta i ≠ 0)
    (lam : ℝ) :
    sturmCount alpha beta m lam = Set.ncard {mu | mu < lam ∧ IsEig m alpha beta mu} := by
  simp only [sturmCount_eq hm hb, rootsBelow, isEig_iff hm hb]

/-- The matrix has `m` different eigenvalues. -/
theorem C62_eigenvalues {m : ℕ} (hm : m ≠ 0) {alpha beta : ℕ → ℝ}
    (hb : ∀ i, i + 1 < m → beta i ≠ 0) :
    ∃ x : ℕ → ℝ, (∀ i j, i < j → j < m → x i < x j) ∧
      ∀ mu, IsEig m alpha beta mu ↔ ∃ i < m, mu = x i := by
  obtain ⟨n, rfl⟩ : ∃ n, m = n + 1 := ⟨m - 1, by omega⟩
  obtain ⟨-, x, -, hx, -⟩ := charSeq_roots alpha beta n fun i hi => hb i (by omega)
  refine ⟨x, hx.1, fun mu => ?_⟩
  rw [isEig_iff hm hb, hx.2, Finset.prod_eq_zero_iff]
  simp only [Finset.mem_range, sub_eq_zero]

/-- **C62**: `BisectionMethod(alpha, beta, mode)` returns the eigenvalue number `mode` (counted from
zero in increasing order) up to `1e-13` times the bound on all eigenvalues. -/
theorem C62_bisection {m : ℕ} (hm : m ≠ 0) {alpha beta x : ℕ → ℝ}
    (hb : ∀ i, i + 1 < m → beta i ≠ 0) (hx : ∀ i j, i < j → j < m → x i < x j)
    (hxe : ∀ mu, IsEig m alpha beta mu ↔ ∃ i < m, mu = x i)
    (hB : 0 < bisBound alpha beta m) {mode : ℕ} (hmode : mode < m) (fuel : ℕ) (hf : 46 ≤ fuel) :
    ∃ l, bisection alpha beta m mode fuel = some l ∧
      |l - x mode| ≤ 1.0e-13 * bisBound alpha beta m := by
  obtain ⟨a1, a2, l, h1, h2, h3, h4, h5, h6, h7, h8⟩ := C60_brackets alpha beta m mode hm hB fuel hf
  refine ⟨l, h1, ?_⟩
  obtain ⟨n, hn⟩ : ∃ n, m = n + 1 := ⟨m - 1, by omega⟩
  -- `x` lists the roots, so ranks are sign counts
  have hroots : IsRoots alpha beta x m := by
    refine isRoots_of_eval hx fun i hi => ?_
    rw [← isEig_iff hm hb]
    exact (hxe _).2 ⟨i, hi, rfl⟩
  have hrank := fun lam => rank_rootsBelow hroots lam
  simp only [sturmCount_eq hm hb] at h7 h8
  have hbnd : |x mode| ≤ bisBound alpha beta m := by
    obtain ⟨v, hv, hv2⟩ := (hxe (x mode)).2 ⟨mode, hmode, rfl⟩
    exact C61_bound alpha beta m hm _ v hv hv2
  have lo : a1 ≤ x mode := by
    rcases h7 with rfl | h7
    · exact neg_le_of_abs_le hbnd
    · exact (hrank a1).2.2 mode h7 hmode
  have hi : x mode ≤ a2 := by
    rcases h8 with rfl | h8
    · exact le_of_abs_le hbnd
    · exact ((hrank a2).2.1 mode h8).le
  rw [abs_le]
  rcases h4 with rfl | rfl <;> constructor <;> linarith

/-- The matrix `[2 1; 1 2]` has the eigenvalues 1 and 3; the second one is found. -/
example : ∃ l, bisection (fun _ => 2) (fun _ => 1) 2 1 100 = some l ∧
    |l - 3| ≤ 1.0e-13 * bisBound (fun _ => 2) (fun _ => 1) 2 := by
  have hb : ∀ i, i + 1 < 2 → (fun _ : ℕ => (1 : ℝ)) i ≠ 0 := fun _ _ => one_ne_zero
  have hB : 0 < bisBound (fun _ => 2) (fun _ => 1) 2 := by
    have := bisBound_ge (fun _ => 2) (fun _ => 1) 2 (by norm_num) 0 (by norm_num)
    norm_num at this
    linarith
  refine C62_bisection (x := fun i => 1 + 2 * i) (by norm_num) hb (fun i j h _ => ?_) (fun mu => ?_)
    hB (by norm_num) 100 (by norm_num) |>.imp fun l h => ⟨h.1, by have := h.2; norm_num at this ⊢; exact this⟩
  · have : (i : ℝ) < j := by exact_mod_cast h
    linarith
  · rw [isEig_iff (by norm_num) hb, show (2 : ℕ) = 0 + 2 from rfl, eval_charSeq_succ]
    simp only [zero_add, eval_charSeq_one, eval_charSeq_zero]
    constructor
    · intro h
      have : (mu - 1) * (mu - 3) = 0 := by linear_combination h
      rcases mul_eq_zero.1 this with h | h
      · exact ⟨0, by norm_num, by push_cast; linarith⟩
      · exact ⟨1, by norm_num, by push_cast; linarith⟩
    · rintro ⟨i, hi, rfl⟩
      interval_cases i <;> norm_num

end Pansfem
