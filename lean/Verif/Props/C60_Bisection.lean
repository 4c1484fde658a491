/-
C60: `BisectionMethod` stops after 45 halvings with an interval around the place where the sign
count passes the requested number.  C61: all eigenvalues lie in the starting interval.
-/
import Verif.Props.C18_Lanczos

namespace Pansfem

/-- What an interval of the bisection has in common with the first one. -/
def BisOk (alpha beta : ℕ → ℝ) (m mode : ℕ) (b a1 a2 : ℝ) : Prop :=
  -b ≤ a1 ∧ a2 ≤ b ∧ (a1 = -b ∨ sturmCount alpha beta m a1 ≤ mode)
    ∧ (a2 = b ∨ mode < sturmCount alpha beta m a2)

theorem bisLoop_run (alpha beta : ℕ → ℝ) (m mode : ℕ) (b : ℝ) (hb : 0 < b) :
    ∀ (fuel : ℕ) (a1 a2 l : ℝ), 0 < a2 - a1 → a2 - a1 ≤ 1.0e-13 * b * 2 ^ fuel →
      BisOk alpha beta m mode b a1 a2 → (l = a1 ∨ l = a2) →
      ∃ a1' a2' l', bisLoop alpha beta m mode b (fuel + 1) a1 a2 (some l) = some l' ∧
        0 < a2' - a1' ∧ a2' - a1' ≤ 1.0e-13 * b ∧ BisOk alpha beta m mode b a1' a2' ∧
        (l' = a1' ∨ l' = a2') := by
  intro fuel
  induction fuel with
  | zero =>
    intro a1 a2 l h1 h2 h3 h4
    refine ⟨a1, a2, l, ?_, h1, by simpa using h2, h3, h4⟩
    unfold bisLoop
    rw [if_neg (by simpa using h2)]
  | succ fuel ih =>
    intro a1 a2 l h1 h2 h3 h4
    unfold bisLoop
    by_cases hw : a2 - a1 > 1.0e-13 * b
    · rw [if_pos hw]
      simp only
      have hhalf : ∀ x : ℝ, x ≤ 1.0e-13 * b * 2 ^ (fuel + 1) → x / 2 ≤ 1.0e-13 * b * 2 ^ fuel := by
        intro x hx; rw [pow_succ] at hx; linarith
      have hh := hhalf _ h2
      obtain ⟨g1, g2, g3, g4⟩ := h3
      split_ifs with hc
      · exact ih _ _ _ (by norm_num; linarith) (by norm_num at hh ⊢; linarith)
          ⟨by norm_num; linarith, g2, Or.inr hc, g4⟩ (Or.inl rfl)
      · exact ih _ _ _ (by norm_num; linarith) (by norm_num at hh ⊢; linarith)
          ⟨g1, by norm_num; linarith, g3, Or.inr (by omega)⟩ (Or.inr rfl)
    · rw [if_neg hw]
      exact ⟨a1, a2, l, rfl, h1, not_lt.1 hw, h3, h4⟩

/-- **C60**: with a positive bound the method stops after at most 45 halvings.  The result is an end
of an interval of relative length `1e-13` at whose lower end the sign count does not exceed `mode`
and at whose upper end it does, unless that end is one of the two starting points. -/
theorem C60_brackets (alpha beta : ℕ → ℝ) (m mode : ℕ) (hm : m ≠ 0)
    (hb : 0 < bisBound alpha beta m) (fuel : ℕ) (hf : 46 ≤ fuel) :
    ∃ a1 a2 l, bisection alpha beta m mode fuel = some l ∧ a1 < a2 ∧
      a2 - a1 ≤ 1.0e-13 * bisBound alpha beta m ∧ (l = a1 ∨ l = a2) ∧
      -bisBound alpha beta m ≤ a1 ∧ a2 ≤ bisBound alpha beta m ∧
      (a1 = -bisBound alpha beta m ∨ sturmCount alpha beta m a1 ≤ mode) ∧
      (a2 = bisBound alpha beta m ∨ mode < sturmCount alpha beta m a2) := by
  unfold bisection
  rw [if_neg hm]
  simp only
  generalize hB : bisBound alpha beta m = b at hb ⊢
  obtain ⟨f, rfl⟩ : ∃ f, fuel = f + 1 + 1 := ⟨fuel - 2, by omega⟩
  have hp : (1 : ℝ) ≤ 1.0e-13 * 2 ^ f := by
    have : (2 : ℝ) ^ 44 ≤ 2 ^ f := pow_le_pow_right₀ (by norm_num) (by omega)
    have h2 : (1 : ℝ) ≤ 1.0e-13 * 2 ^ 44 := by norm_num
    have h3 : (1.0e-13 : ℝ) * 2 ^ 44 ≤ 1.0e-13 * 2 ^ f :=
      mul_le_mul_of_nonneg_left this (by norm_num)
    linarith
  have hlen : b ≤ 1.0e-13 * b * 2 ^ f := by nlinarith
  have key : ∃ a1' a2' l', bisLoop alpha beta m mode b (f + 1 + 1) (-b) b none = some l' ∧
        0 < a2' - a1' ∧ a2' - a1' ≤ 1.0e-13 * b ∧ BisOk alpha beta m mode b a1' a2' ∧
        (l' = a1' ∨ l' = a2') := by
    rw [bisLoop, if_pos (by norm_num; linarith)]
    simp only
    split_ifs with hc
    · exact bisLoop_run alpha beta m mode b hb f _ _ _ (by norm_num; linarith)
        (by norm_num at hlen ⊢; linarith)
        ⟨by norm_num; linarith, le_rfl, Or.inr hc, Or.inl rfl⟩ (Or.inl rfl)
    · exact bisLoop_run alpha beta m mode b hb f _ _ _ (by norm_num; linarith)
        (by norm_num at hlen ⊢; linarith)
        ⟨le_rfl, by norm_num; linarith, Or.inl rfl, Or.inr (by omega)⟩ (Or.inr rfl)
  obtain ⟨a1, a2, l, e1, e2, e3, ⟨e4, e5, e6, e7⟩, e8⟩ := key
  exact ⟨a1, a2, l, e1, by linarith, e3, e8, e4, e5, e6, e7⟩

theorem bisBound_ge (alpha beta : ℕ → ℝ) (m : ℕ) (hm : m ≠ 0) :
    ∀ i < m, (if i = 0 then 0 else |beta (i - 1)|) + |alpha i| + |beta i|
      ≤ bisBound alpha beta m := by
  refine forUp_inv (show 1 ≤ m by omega) _ _ (fun k b => ∀ i < k,
    (if i = 0 then 0 else |beta (i - 1)|) + |alpha i| + |beta i| ≤ b) ?_ ?_
  · intro i hi
    obtain rfl : i = 0 := by omega
    simp
  · intro i b hi _ hb j hj
    rcases Nat.lt_succ_iff_lt_or_eq.1 hj with hj | rfl
    · refine (hb j hj).trans ?_
      split
      · linarith
      · exact le_rfl
    · rw [if_neg (show j ≠ 0 by omega)]
      split <;> linarith

/-- **C60**: if every coefficient is zero the variable that is returned is never assigned. -/
theorem C60_uninitialised (alpha beta : ℕ → ℝ) (m mode fuel : ℕ)
    (ha : ∀ i < m, alpha i = 0) (hb : ∀ i < m, beta i = 0) :
    bisection alpha beta m mode fuel = none := by
  unfold bisection
  split
  · rfl
  rename_i hm
  have h0 : bisBound alpha beta m = 0 := by
    refine forUp_inv (show 1 ≤ m by omega) _ _ (fun _ b => b = 0) ?_ ?_
    · rw [ha 0 (by omega), hb 0 (by omega)]; simp
    · intro i b hi him hbz
      rw [hbz, ha i him, hb i him, hb (i - 1) (by omega)]
      simp
  simp only [h0]
  cases fuel with
  | zero => rfl
  | succ f => unfold bisLoop; rw [if_neg (by norm_num)]

/-- **C61**: every eigenvalue of the tridiagonal matrix lies in the interval the bisection starts
from. -/
theorem C61_bound (alpha beta : ℕ → ℝ) (m : ℕ) (hm : m ≠ 0) (mu : ℝ) (v : Fin m → ℝ) (hv : v ≠ 0)
    (h : (tridiag m alpha beta).mulVec v = mu • v) : |mu| ≤ bisBound alpha beta m := by
  have : Nonempty (Fin m) := ⟨⟨0, by omega⟩⟩
  obtain ⟨i, hi⟩ := Finite.exists_max (fun i => |v i|)
  have hvi : 0 < |v i| := by
    rw [abs_pos]
    intro e
    apply hv
    funext j
    have := hi j
    rw [e, abs_zero] at this
    simpa using this
  let y : ℕ → ℝ := fun j => if h : j < m then v ⟨j, h⟩ else 0
  have hy : (fun j : Fin m => y j) = v := by funext j; simp [y]
  have hyle : ∀ j, |y j| ≤ |v i| := by
    intro j
    by_cases hj : j < m
    · simp only [y, dif_pos hj]; exact hi _
    · simp [y, hj]
  have key := tridiag_mulVec m alpha beta y 0 i
  rw [hy, zero_smul, sub_zero, h, sub_zero] at key
  simp only [Pi.smul_apply, smul_eq_mul] at key
  have hyi : y i = v i := congrFun hy i
  have hB := bisBound_ge alpha beta m hm i i.2
  have hle : |mu| * |v i| ≤ bisBound alpha beta m * |v i| := by
    rw [← abs_mul, key]
    refine le_trans ?_ (mul_le_mul_of_nonneg_right hB hvi.le)
    refine (abs_add_three _ _ _).trans ?_
    have t1 : |alpha i * y i| = |alpha i| * |v i| := by rw [abs_mul, hyi]
    have t2 : |if (i : ℕ) = 0 then 0 else beta (i - 1) * y (i - 1)|
        ≤ (if (i : ℕ) = 0 then 0 else |beta (i - 1)|) * |v i| := by
      split
      · simp
      · rw [abs_mul]; exact mul_le_mul_of_nonneg_left (hyle _) (abs_nonneg _)
    have t3 : |if (i : ℕ) + 1 = m then 0 else beta i * y (i + 1)| ≤ |beta i| * |v i| := by
      split
      · rw [abs_zero]; positivity
      · rw [abs_mul]; exact mul_le_mul_of_nonneg_left (hyle _) (abs_nonneg _)
    rw [t1, add_mul, add_mul]
    linarith
  exact le_of_mul_le_mul_right hle hvi

example : ∃ l, bisection (fun _ => 2) (fun _ => 1) 3 0 100 = some l := by
  have h : 0 < bisBound (fun _ => 2) (fun _ => 1) 3 := by
    have := bisBound_ge (fun _ => 2) (fun _ => 1) 3 (by norm_num) 0 (by norm_num)
    norm_num at this
    linarith
  obtain ⟨-, -, l, hl, -⟩ := C60_brackets (fun _ => 2) (fun _ => 1) 3 0 (by norm_num) h 100
    (by norm_num)
  exact ⟨l, hl⟩

example : |(3 : ℝ)| ≤ bisBound (fun _ => 2) (fun _ => 1) 2 := by
  refine C61_bound _ _ 2 (by norm_num) 3 ![1, 1] ?_ ?_
  · intro e; have := congrFun e 0; simp at this
  · funext i; fin_cases i <;> simp [tridiag, Matrix.mulVec, dotProduct, Fin.sum_univ_two] <;> norm_num

end Pansfem
