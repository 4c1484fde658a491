/-
C31: the integration rules are exact up to their degree.
-/
import Verif.Model.Shape
import Mathlib.Analysis.SpecialFunctions.Integrals.Basic
import Mathlib.Algebra.Polynomial.Eval.Degree
import Mathlib.Tactic.Ring
import Mathlib.Tactic.NormNum
import Mathlib.Tactic.FieldSimp
import Mathlib.Tactic.IntervalCases
import Mathlib.Tactic.LinearCombination
import Mathlib.Tactic.ComputeDegree
import Mathlib.Tactic.Positivity

namespace Pansfem

open MeasureTheory intervalIntegral

/-- The sum an integration rule computes for `f`: the per-axis weights are multiplied, as in every
element routine (e.g. src/FEM/Equation/PlaneStrain.h:54). -/
noncomputable def IC.sum {d : ℕ} (q : IC ℝ d) (f : (Fin d → ℝ) → ℝ) : ℝ :=
  ∑ g, f (q.points g) * ∏ k, q.weights g k

/-- `∫ x^k` over `[-1, 1]`. -/
theorem integral_monomial (k : ℕ) : ∫ x in (-1 : ℝ)..1, x ^ k = (1 - (-1) ^ (k + 1)) / (k + 1) := by
  rw [integral_pow]
  simp

/-- A rule on the line is exact for polynomials of degree at most `m` as soon as it is exact for the
monomials. -/
theorem line_exact (q : IC ℝ 1) (m : ℕ)
    (h : ∀ k ≤ m, ∑ g, q.points g 0 ^ k * q.weights g 0 = (1 - (-1) ^ (k + 1)) / (k + 1))
    (p : Polynomial ℝ) (hp : p.natDegree ≤ m) :
    q.sum (fun r => p.eval (r 0)) = ∫ x in (-1 : ℝ)..1, p.eval x := by
  unfold IC.sum
  simp only [Polynomial.eval_eq_sum_range' (Nat.lt_succ_of_le hp), Fin.prod_univ_one, Finset.sum_mul]
  rw [Finset.sum_comm, intervalIntegral.integral_finset_sum]
  · refine Finset.sum_congr rfl fun k hk => ?_
    rw [intervalIntegral.integral_const_mul, integral_monomial,
      ← h k (Nat.lt_succ_iff.1 (Finset.mem_range.1 hk)), Finset.mul_sum]
    exact Finset.sum_congr rfl fun g _ => by ring
  · intro k _
    exact (Continuous.intervalIntegrable (by fun_prop) _ _)

theorem inv_sqrt3_sq : (1 / √3 : ℝ) ^ 2 = 1 / 3 := by
  rw [div_pow, Real.sq_sqrt (by norm_num), one_pow]

theorem sqrt35_sq : (√(3 / 5) : ℝ) ^ 2 = 3 / 5 := Real.sq_sqrt (by norm_num)

/-- **C31**: `Gauss1Line`, degree 1. -/
theorem C31_gauss1Line (p : Polynomial ℝ) (hp : p.natDegree ≤ 1) :
    IC.gauss1Line.sum (fun r => p.eval (r 0)) = ∫ x in (-1 : ℝ)..1, p.eval x := by
  refine line_exact _ 1 (fun k hk => ?_) p hp
  show ∑ g : Fin 1, _ = _
  interval_cases k <;> simp [IC.gauss1Line] <;> norm_num

/-- **C31**: `Gauss2Line`, degree 3. -/
theorem C31_gauss2Line (p : Polynomial ℝ) (hp : p.natDegree ≤ 3) :
    IC.gauss2Line.sum (fun r => p.eval (r 0)) = ∫ x in (-1 : ℝ)..1, p.eval x := by
  refine line_exact _ 3 (fun k hk => ?_) p hp
  have h := inv_sqrt3_sq
  have e : ∀ s : ℝ, s ^ 2 = 1 / 3 → (-s) ^ k + s ^ k = (1 - (-1) ^ (k + 1)) / (k + 1) := by
    intro s hs
    interval_cases k
    · norm_num
    · norm_num
    · linear_combination 2 * hs
    · norm_num
      ring
  have := e _ h
  have h0 : ∑ g, IC.gauss2Line.points g 0 ^ k * IC.gauss2Line.weights g 0
      = (-(1 / √3)) ^ k + (1 / √3) ^ k := by
    show ∑ g : Fin 2, _ = _
    rw [Fin.sum_univ_two]
    simp [IC.gauss2Line, neg_div]
  rw [h0, this]

/-- **C31**: `NewtonCotes1Line`, degree 1. -/
theorem C31_newtonCotes1Line (p : Polynomial ℝ) (hp : p.natDegree ≤ 1) :
    IC.newtonCotes1Line.sum (fun r => p.eval (r 0)) = ∫ x in (-1 : ℝ)..1, p.eval x := by
  refine line_exact _ 1 (fun k hk => ?_) p hp
  show ∑ g : Fin 1, _ = _
  interval_cases k <;> simp [IC.newtonCotes1Line] <;> norm_num

/-- **C31**: `NewtonCotes3Line`, degree 3. -/
theorem C31_newtonCotes3Line (p : Polynomial ℝ) (hp : p.natDegree ≤ 3) :
    IC.newtonCotes3Line.sum (fun r => p.eval (r 0)) = ∫ x in (-1 : ℝ)..1, p.eval x := by
  refine line_exact _ 3 (fun k hk => ?_) p hp
  show ∑ g : Fin 3, _ = _
  interval_cases k <;> simp [IC.newtonCotes3Line, Fin.sum_univ_succ] <;> norm_num

/-- **C31**: `NewtonCotes5Line`, degree 5. -/
theorem C31_newtonCotes5Line (p : Polynomial ℝ) (hp : p.natDegree ≤ 5) :
    IC.newtonCotes5Line.sum (fun r => p.eval (r 0)) = ∫ x in (-1 : ℝ)..1, p.eval x := by
  refine line_exact _ 5 (fun k hk => ?_) p hp
  show ∑ g : Fin 5, _ = _
  interval_cases k <;> simp [IC.newtonCotes5Line, Fin.sum_univ_succ] <;> norm_num

/-- **C31**: `NewtonCotes7Line`, degree 7. -/
theorem C31_newtonCotes7Line (p : Polynomial ℝ) (hp : p.natDegree ≤ 7) :
    IC.newtonCotes7Line.sum (fun r => p.eval (r 0)) = ∫ x in (-1 : ℝ)..1, p.eval x := by
  refine line_exact _ 7 (fun k hk => ?_) p hp
  show ∑ g : Fin 7, _ = _
  interval_cases k <;> simp [IC.newtonCotes7Line, Fin.sum_univ_succ] <;> norm_num

/-! ### Squares and cubes -/

/-- `∫ x^k` over `[-1, 1]`, by value. -/
noncomputable def mono (k : ℕ) : ℝ := (1 - (-1) ^ (k + 1)) / (k + 1)

/-- Exactness on the square, from the monomials. -/
theorem square_exact (q : IC ℝ 2) (m : ℕ)
    (h : ∀ a ≤ m, ∀ b ≤ m, ∑ g, q.points g 0 ^ a * q.points g 1 ^ b
      * (q.weights g 0 * q.weights g 1) = mono a * mono b) (c : ℕ → ℕ → ℝ) :
    q.sum (fun r => ∑ a ∈ Finset.range (m + 1), ∑ b ∈ Finset.range (m + 1),
        c a b * (r 0 ^ a * r 1 ^ b))
      = ∫ x in (-1 : ℝ)..1, ∫ y in (-1 : ℝ)..1, ∑ a ∈ Finset.range (m + 1),
        ∑ b ∈ Finset.range (m + 1), c a b * (x ^ a * y ^ b) := by
  have e1 : ∀ x : ℝ, ∫ y in (-1 : ℝ)..1, ∑ a ∈ Finset.range (m + 1),
      ∑ b ∈ Finset.range (m + 1), c a b * (x ^ a * y ^ b)
      = ∑ a ∈ Finset.range (m + 1), ∑ b ∈ Finset.range (m + 1), c a b * mono b * x ^ a := by
    intro x
    rw [intervalIntegral.integral_finset_sum
      fun a _ => (Continuous.intervalIntegrable (by fun_prop) _ _)]
    refine Finset.sum_congr rfl fun a _ => ?_
    rw [intervalIntegral.integral_finset_sum
      fun b _ => (Continuous.intervalIntegrable (by fun_prop) _ _)]
    refine Finset.sum_congr rfl fun b _ => ?_
    rw [intervalIntegral.integral_const_mul, intervalIntegral.integral_const_mul, integral_monomial,
      mono]
    ring
  simp only [e1]
  rw [intervalIntegral.integral_finset_sum
    fun a _ => (Continuous.intervalIntegrable (by fun_prop) _ _)]
  unfold IC.sum
  simp only [Finset.sum_mul, Fin.prod_univ_two]
  rw [Finset.sum_comm]
  refine Finset.sum_congr rfl fun a ha => ?_
  rw [intervalIntegral.integral_finset_sum
    fun b _ => (Continuous.intervalIntegrable (by fun_prop) _ _), Finset.sum_comm]
  refine Finset.sum_congr rfl fun b hb => ?_
  rw [intervalIntegral.integral_const_mul, integral_monomial, mul_assoc]
  have := h a (Nat.lt_succ_iff.1 (Finset.mem_range.1 ha)) b (Nat.lt_succ_iff.1 (Finset.mem_range.1 hb))
  rw [mul_comm (mono b)]
  change _ = c a b * (mono a * mono b)
  rw [← this, Finset.mul_sum]
  exact Finset.sum_congr rfl fun g _ => by ring

/-- Exactness on the cube, from the monomials. -/
theorem cube_exact (q : IC ℝ 3) (m : ℕ)
    (h : ∀ a ≤ m, ∀ b ≤ m, ∀ e ≤ m, ∑ g, q.points g 0 ^ a * q.points g 1 ^ b * q.points g 2 ^ e
      * (q.weights g 0 * q.weights g 1 * q.weights g 2) = mono a * mono b * mono e)
    (c : ℕ → ℕ → ℕ → ℝ) :
    q.sum (fun r => ∑ a ∈ Finset.range (m + 1), ∑ b ∈ Finset.range (m + 1),
        ∑ e ∈ Finset.range (m + 1), c a b e * (r 0 ^ a * r 1 ^ b * r 2 ^ e))
      = ∫ x in (-1 : ℝ)..1, ∫ y in (-1 : ℝ)..1, ∫ z in (-1 : ℝ)..1, ∑ a ∈ Finset.range (m + 1),
        ∑ b ∈ Finset.range (m + 1), ∑ e ∈ Finset.range (m + 1), c a b e * (x ^ a * y ^ b * z ^ e) := by
  have e1 : ∀ x y : ℝ, ∫ z in (-1 : ℝ)..1, ∑ a ∈ Finset.range (m + 1),
      ∑ b ∈ Finset.range (m + 1), ∑ e ∈ Finset.range (m + 1), c a b e * (x ^ a * y ^ b * z ^ e)
      = ∑ a ∈ Finset.range (m + 1), ∑ b ∈ Finset.range (m + 1), ∑ e ∈ Finset.range (m + 1),
        c a b e * mono e * x ^ a * y ^ b := by
    intro x y
    rw [intervalIntegral.integral_finset_sum
      fun a _ => (Continuous.intervalIntegrable (by fun_prop) _ _)]
    refine Finset.sum_congr rfl fun a _ => ?_
    rw [intervalIntegral.integral_finset_sum
      fun b _ => (Continuous.intervalIntegrable (by fun_prop) _ _)]
    refine Finset.sum_congr rfl fun b _ => ?_
    rw [intervalIntegral.integral_finset_sum
      fun b _ => (Continuous.intervalIntegrable (by fun_prop) _ _)]
    refine Finset.sum_congr rfl fun e _ => ?_
    rw [intervalIntegral.integral_const_mul, intervalIntegral.integral_const_mul, integral_monomial,
      mono]
    ring
  have e2 : ∀ x : ℝ, ∫ y in (-1 : ℝ)..1, ∑ a ∈ Finset.range (m + 1),
      ∑ b ∈ Finset.range (m + 1), ∑ e ∈ Finset.range (m + 1), c a b e * mono e * x ^ a * y ^ b
      = ∑ a ∈ Finset.range (m + 1), ∑ b ∈ Finset.range (m + 1), ∑ e ∈ Finset.range (m + 1),
        c a b e * mono e * mono b * x ^ a := by
    intro x
    rw [intervalIntegral.integral_finset_sum
      fun a _ => (Continuous.intervalIntegrable (by fun_prop) _ _)]
    refine Finset.sum_congr rfl fun a _ => ?_
    rw [intervalIntegral.integral_finset_sum
      fun b _ => (Continuous.intervalIntegrable (by fun_prop) _ _)]
    refine Finset.sum_congr rfl fun b _ => ?_
    rw [intervalIntegral.integral_finset_sum
      fun b _ => (Continuous.intervalIntegrable (by fun_prop) _ _)]
    refine Finset.sum_congr rfl fun e _ => ?_
    rw [intervalIntegral.integral_const_mul, integral_monomial]
    simp only [mono]
    ring
  simp only [e1, e2]
  rw [intervalIntegral.integral_finset_sum
    fun a _ => (Continuous.intervalIntegrable (by fun_prop) _ _)]
  unfold IC.sum
  simp only [Finset.sum_mul, Fin.prod_univ_three]
  rw [Finset.sum_comm]
  refine Finset.sum_congr rfl fun a ha => ?_
  rw [intervalIntegral.integral_finset_sum
    fun b _ => (Continuous.intervalIntegrable (by fun_prop) _ _), Finset.sum_comm]
  refine Finset.sum_congr rfl fun b hb => ?_
  rw [intervalIntegral.integral_finset_sum
    fun b _ => (Continuous.intervalIntegrable (by fun_prop) _ _), Finset.sum_comm]
  refine Finset.sum_congr rfl fun e he => ?_
  rw [intervalIntegral.integral_const_mul, integral_monomial]
  have := h a (Nat.lt_succ_iff.1 (Finset.mem_range.1 ha)) b (Nat.lt_succ_iff.1 (Finset.mem_range.1 hb))
    e (Nat.lt_succ_iff.1 (Finset.mem_range.1 he))
  change _ = c a b e * mono e * mono b * mono a
  rw [show c a b e * mono e * mono b * mono a = c a b e * (mono a * mono b * mono e) by ring,
    ← this, Finset.mul_sum]
  exact Finset.sum_congr rfl fun g _ => by ring

theorem two_point (s : ℝ) (hs : s ^ 2 = 1 / 3) (k : ℕ) (hk : k ≤ 3) :
    (-s) ^ k + s ^ k = mono k := by
  unfold mono
  interval_cases k
  · norm_num
  · norm_num
  · linear_combination 2 * hs
  · norm_num
    ring

theorem three_point (s : ℝ) (hs : s ^ 2 = 3 / 5) (k : ℕ) (hk : k ≤ 5) :
    (-s) ^ k * (5 / 9) + 0 ^ k * (8 / 9) + s ^ k * (5 / 9) = mono k := by
  unfold mono
  interval_cases k
  · norm_num
  · norm_num
  · norm_num
    linear_combination (10 / 9) * hs
  · norm_num
    ring
  · norm_num
    linear_combination (10 / 9) * (s ^ 2 + 3 / 5) * hs
  · norm_num
    ring

/-- **C31**: `Gauss1Square`, degree 1 in each variable. -/
theorem C31_gauss1Square (c : ℕ → ℕ → ℝ) :
    IC.gauss1Square.sum (fun r => ∑ a ∈ Finset.range 2, ∑ b ∈ Finset.range 2,
        c a b * (r 0 ^ a * r 1 ^ b))
      = ∫ x in (-1 : ℝ)..1, ∫ y in (-1 : ℝ)..1, ∑ a ∈ Finset.range 2, ∑ b ∈ Finset.range 2,
        c a b * (x ^ a * y ^ b) := by
  refine square_exact _ 1 (fun a ha b hb => ?_) c
  show ∑ g : Fin 1, _ = _
  interval_cases a <;> interval_cases b <;> simp [IC.gauss1Square, mono] <;> norm_num

/-- **C31**: `Gauss4Square`, degree 3 in each variable. -/
theorem C31_gauss4Square (c : ℕ → ℕ → ℝ) :
    IC.gauss4Square.sum (fun r => ∑ a ∈ Finset.range 4, ∑ b ∈ Finset.range 4,
        c a b * (r 0 ^ a * r 1 ^ b))
      = ∫ x in (-1 : ℝ)..1, ∫ y in (-1 : ℝ)..1, ∑ a ∈ Finset.range 4, ∑ b ∈ Finset.range 4,
        c a b * (x ^ a * y ^ b) := by
  refine square_exact _ 3 (fun a ha b hb => ?_) c
  rw [← two_point _ inv_sqrt3_sq a ha, ← two_point _ inv_sqrt3_sq b hb]
  show ∑ g : Fin 4, _ = _
  simp only [IC.gauss4Square, Fin.sum_univ_four, neg_div]
  simp
  ring

/-- **C31**: `Gauss9Square`, degree 5 in each variable. -/
theorem C31_gauss9Square (c : ℕ → ℕ → ℝ) :
    IC.gauss9Square.sum (fun r => ∑ a ∈ Finset.range 6, ∑ b ∈ Finset.range 6,
        c a b * (r 0 ^ a * r 1 ^ b))
      = ∫ x in (-1 : ℝ)..1, ∫ y in (-1 : ℝ)..1, ∑ a ∈ Finset.range 6, ∑ b ∈ Finset.range 6,
        c a b * (x ^ a * y ^ b) := by
  refine square_exact _ 5 (fun a ha b hb => ?_) c
  rw [← three_point _ sqrt35_sq a ha, ← three_point _ sqrt35_sq b hb]
  show ∑ g : Fin 9, _ = _
  simp only [IC.gauss9Square]
  generalize √(3 / 5) = s
  simp only [Fin.sum_univ_succ, Fin.sum_univ_zero]
  simp
  ring

/-- **C31**: `Gauss8Cubic`, degree 3 in each variable. -/
theorem C31_gauss8Cubic (c : ℕ → ℕ → ℕ → ℝ) :
    IC.gauss8Cubic.sum (fun r => ∑ a ∈ Finset.range 4, ∑ b ∈ Finset.range 4, ∑ e ∈ Finset.range 4,
        c a b e * (r 0 ^ a * r 1 ^ b * r 2 ^ e))
      = ∫ x in (-1 : ℝ)..1, ∫ y in (-1 : ℝ)..1, ∫ z in (-1 : ℝ)..1, ∑ a ∈ Finset.range 4,
        ∑ b ∈ Finset.range 4, ∑ e ∈ Finset.range 4, c a b e * (x ^ a * y ^ b * z ^ e) := by
  refine cube_exact _ 3 (fun a ha b hb e he => ?_) c
  rw [← two_point _ inv_sqrt3_sq a ha, ← two_point _ inv_sqrt3_sq b hb,
    ← two_point _ inv_sqrt3_sq e he]
  show ∑ g : Fin 8, _ = _
  simp only [IC.gauss8Cubic, Fin.sum_univ_eight, neg_div]
  generalize 1 / √3 = s
  simp
  ring

set_option maxHeartbeats 4000000 in
/-- **C31**: `Gauss27Cubic`, degree 5 in each variable. -/
theorem C31_gauss27Cubic (c : ℕ → ℕ → ℕ → ℝ) :
    IC.gauss27Cubic.sum (fun r => ∑ a ∈ Finset.range 6, ∑ b ∈ Finset.range 6, ∑ e ∈ Finset.range 6,
        c a b e * (r 0 ^ a * r 1 ^ b * r 2 ^ e))
      = ∫ x in (-1 : ℝ)..1, ∫ y in (-1 : ℝ)..1, ∫ z in (-1 : ℝ)..1, ∑ a ∈ Finset.range 6,
        ∑ b ∈ Finset.range 6, ∑ e ∈ Finset.range 6, c a b e * (x ^ a * y ^ b * z ^ e) := by
  refine cube_exact _ 5 (fun a ha b hb e he => ?_) c
  rw [← three_point _ sqrt35_sq a ha, ← three_point _ sqrt35_sq b hb,
    ← three_point _ sqrt35_sq e he]
  show ∑ g : Fin 27, _ = _
  simp only [IC.gauss27Cubic]
  generalize √(3 / 5) = s
  simp only [Fin.sum_univ_succ, Fin.sum_univ_zero]
  simp
  ring

/-! ### Triangle and tetrahedron -/

theorem integral_cubic (a b c0 c1 c2 c3 : ℝ) :
    ∫ x in a..b, (c0 + c1 * x + c2 * x ^ 2 + c3 * x ^ 3)
      = c0 * (b - a) + c1 * ((b ^ 2 - a ^ 2) / 2) + c2 * ((b ^ 3 - a ^ 3) / 3)
        + c3 * ((b ^ 4 - a ^ 4) / 4) := by
  rw [intervalIntegral.integral_add (Continuous.intervalIntegrable (by fun_prop) _ _)
      (Continuous.intervalIntegrable (by fun_prop) _ _),
    intervalIntegral.integral_add (Continuous.intervalIntegrable (by fun_prop) _ _)
      (Continuous.intervalIntegrable (by fun_prop) _ _),
    intervalIntegral.integral_add (Continuous.intervalIntegrable (by fun_prop) _ _)
      (Continuous.intervalIntegrable (by fun_prop) _ _)]
  rw [intervalIntegral.integral_const_mul c1 (fun x => x), integral_id]
  simp only [intervalIntegral.integral_const, intervalIntegral.integral_const_mul, integral_pow,
    smul_eq_mul]
  norm_num
  ring

theorem integral_triangle (c0 c1 c2 c3 c4 c5 : ℝ) :
    ∫ x in (0 : ℝ)..1, ∫ y in (0 : ℝ)..(1 - x),
      (c0 + c1 * x + c2 * y + c3 * x ^ 2 + c4 * x * y + c5 * y ^ 2)
      = c0 / 2 + c1 / 6 + c2 / 6 + c3 / 12 + c4 / 24 + c5 / 12 := by
  have e : ∀ x : ℝ, ∫ y in (0 : ℝ)..(1 - x),
      (c0 + c1 * x + c2 * y + c3 * x ^ 2 + c4 * x * y + c5 * y ^ 2)
      = (c0 + c2 / 2 + c5 / 3) + (-c0 + c1 - c2 + c4 / 2 - c5) * x
        + (-c1 + c2 / 2 + c3 - c4 + c5) * x ^ 2 + (-c3 + c4 / 2 - c5 / 3) * x ^ 3 := by
    intro x
    have := integral_cubic 0 (1 - x) (c0 + c1 * x + c3 * x ^ 2) (c2 + c4 * x) c5 0
    rw [show (fun y : ℝ => c0 + c1 * x + c2 * y + c3 * x ^ 2 + c4 * x * y + c5 * y ^ 2)
      = fun y => (c0 + c1 * x + c3 * x ^ 2) + (c2 + c4 * x) * y + c5 * y ^ 2 + 0 * y ^ 3 by
        funext y; ring, this]
    ring
  simp only [e]
  rw [integral_cubic]
  ring

/-- **C31**: `Gauss1Triangle`, total degree 1. -/
theorem C31_gauss1Triangle (c0 c1 c2 : ℝ) :
    IC.gauss1Triangle.sum (fun r => c0 + c1 * r 0 + c2 * r 1)
      = ∫ x in (0 : ℝ)..1, ∫ y in (0 : ℝ)..(1 - x), (c0 + c1 * x + c2 * y) := by
  have := integral_triangle c0 c1 c2 0 0 0
  simp only [zero_mul, add_zero] at this
  rw [this]
  have h2 : (√2 : ℝ) ^ 2 = 2 := Real.sq_sqrt (by norm_num)
  have h0 : (√2 : ℝ) ≠ 0 := by positivity
  show ∑ g : Fin 1, _ = _
  simp only [IC.gauss1Triangle, Fin.prod_univ_two, Fin.sum_univ_one]
  simp
  field_simp
  rw [h2]
  ring

/-- **C31**: `Gauss3Triangle`, total degree 2. -/
theorem C31_gauss3Triangle (c0 c1 c2 c3 c4 c5 : ℝ) :
    IC.gauss3Triangle.sum (fun r => c0 + c1 * r 0 + c2 * r 1 + c3 * r 0 ^ 2 + c4 * r 0 * r 1
        + c5 * r 1 ^ 2)
      = ∫ x in (0 : ℝ)..1, ∫ y in (0 : ℝ)..(1 - x),
        (c0 + c1 * x + c2 * y + c3 * x ^ 2 + c4 * x * y + c5 * y ^ 2) := by
  rw [integral_triangle]
  have h2 : (√6 : ℝ) ^ 2 = 6 := Real.sq_sqrt (by norm_num)
  have h0 : (√6 : ℝ) ≠ 0 := by positivity
  show ∑ g : Fin 3, _ = _
  simp only [IC.gauss3Triangle, Fin.prod_univ_two, Fin.sum_univ_three]
  simp
  field_simp
  rw [h2]
  ring

/-- **C31**: `Gauss1Tetrahedron`, total degree 1. -/
theorem C31_gauss1Tetrahedron (c0 c1 c2 c3 : ℝ) :
    IC.gauss1Tetrahedron.sum (fun r => c0 + c1 * r 0 + c2 * r 1 + c3 * r 2)
      = ∫ x in (0 : ℝ)..1, ∫ y in (0 : ℝ)..(1 - x), ∫ z in (0 : ℝ)..(1 - x - y),
        (c0 + c1 * x + c2 * y + c3 * z) := by
  have e1 : ∀ x y : ℝ, ∫ z in (0 : ℝ)..(1 - x - y), (c0 + c1 * x + c2 * y + c3 * z)
      = (c0 + c3 / 2) + (-c0 + c1 - c3) * x + (-c0 + c2 - c3) * y + (-c1 + c3 / 2) * x ^ 2
        + (-c1 - c2 + c3) * x * y + (-c2 + c3 / 2) * y ^ 2 := by
    intro x y
    have := integral_cubic 0 (1 - x - y) (c0 + c1 * x + c2 * y) c3 0 0
    simp only [zero_mul, add_zero] at this
    rw [this]
    ring
  simp only [e1]
  rw [integral_triangle]
  have h0 : (cbrt 6 : ℝ) ≠ 0 := by unfold cbrt; positivity
  have h3 : (cbrt 6 : ℝ) ^ 3 = 6 := by
    unfold cbrt
    rw [← Real.rpow_natCast, ← Real.rpow_mul (by norm_num)]
    norm_num
  show ∑ g : Fin 1, _ = _
  simp only [IC.gauss1Tetrahedron, Fin.prod_univ_three, Fin.sum_univ_one]
  simp
  field_simp
  rw [h3]
  ring

/-- Each rule's weights sum to the measure of its domain (degree 0). -/
example : IC.gauss9Square.sum (fun _ => 1) = 4 := by
  have := C31_gauss9Square (fun a b => if a = 0 ∧ b = 0 then 1 else 0)
  simp [Finset.sum_range_succ] at this
  rw [this]
  norm_num

/-- `x^3 + x^2` is integrated exactly by the two-point rule. -/
example : IC.gauss2Line.sum (fun r => (Polynomial.X ^ 3 + Polynomial.X ^ 2 : Polynomial ℝ).eval (r 0))
    = 2 / 3 := by
  rw [C31_gauss2Line]
  · simp
    norm_num
  · compute_degree

end Pansfem
