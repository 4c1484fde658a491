/-
C27: partition of unity.  C28: nodal values.  C29: `dNdr` is the derivative of `N`.
C30: affine fields are reproduced.
-/
import Verif.Model.Shape
import Mathlib.Algebra.BigOperators.Fin
import Mathlib.Algebra.CharZero.Defs
import Mathlib.Analysis.Calculus.Deriv.Pow
import Mathlib.Analysis.Calculus.Deriv.Mul
import Mathlib.Analysis.Calculus.Deriv.Add
import Mathlib.LinearAlgebra.Matrix.NonsingularInverse
import Mathlib.LinearAlgebra.Matrix.Determinant.Basic
import Mathlib.LinearAlgebra.Matrix.Notation
import Mathlib.Tactic.FinCases
import Mathlib.Tactic.FieldSimp
import Mathlib.Tactic.Ring
import Mathlib.Tactic.NormNum

namespace Pansfem

variable {K : Type} [Field K] [CharZero K]

/-- **C27**: the shape functions of every family sum to one everywhere. -/
theorem C27_sum_N (f : Family) (r : Fin f.d → K) : ∑ i, (f.sf : SF K f.d f.n).N r i = 1 := by
  cases f
  case line2 => simp [Family.sf, SF.line2, Fin.sum_univ_succ]; ring
  case line3 => simp [Family.sf, SF.line3, Fin.sum_univ_succ]; ring
  case triangle3 => simp [Family.sf, SF.triangle3, Fin.sum_univ_succ]
  case triangle6 => simp [Family.sf, SF.triangle6, Fin.sum_univ_succ]; ring
  case square4 => simp [Family.sf, SF.square4, Fin.sum_univ_succ]; ring
  case square8 => simp [Family.sf, SF.square8, Fin.sum_univ_succ]; ring
  case tetrahedron4 => simp [Family.sf, SF.tetrahedron4, Fin.sum_univ_succ]
  case cubic8 => simp [Family.sf, SF.cubic8, Fin.sum_univ_succ]; ring
  case cubic20 => simp [Family.sf, SF.cubic20, Fin.sum_univ_succ]; ring

/-- **C27**: the derivatives of the shape functions of every family sum to zero in every
direction. -/
theorem C27_sum_dNdr (f : Family) (r : Fin f.d → K) (k : Fin f.d) :
    ∑ i, (f.sf : SF K f.d f.n).dNdr r k i = 0 := by
  cases f
  case line2 => fin_cases k <;> simp [Family.sf, SF.line2, Fin.sum_univ_succ] <;> ring
  case line3 => fin_cases k <;> simp [Family.sf, SF.line3, Fin.sum_univ_succ] <;> ring
  case triangle3 => fin_cases k <;> simp [Family.sf, SF.triangle3, Fin.sum_univ_succ] <;> ring
  case triangle6 => fin_cases k <;> simp [Family.sf, SF.triangle6, Fin.sum_univ_succ] <;> ring
  case square4 => fin_cases k <;> simp [Family.sf, SF.square4, Fin.sum_univ_succ] <;> ring
  case square8 => fin_cases k <;> simp [Family.sf, SF.square8, Fin.sum_univ_succ] <;> ring
  case tetrahedron4 => fin_cases k <;> simp [Family.sf, SF.tetrahedron4, Fin.sum_univ_succ] <;> ring
  case cubic8 => fin_cases k <;> simp [Family.sf, SF.cubic8, Fin.sum_univ_succ] <;> ring
  case cubic20 => fin_cases k <;> simp [Family.sf, SF.cubic20, Fin.sum_univ_succ] <;> ring

/-- A point outside the element, with shape functions of both signs. -/
example : List.ofFn ((SF.square4 : SF ℚ 2 4).N ![3, 1 / 2]) = [-1 / 4, 1 / 2, 3 / 2, -3 / 4] ∧
    ∑ i, (SF.square4 : SF ℚ 2 4).N ![3, 1 / 2] i = 1 := by
  refine ⟨?_, C27_sum_N .square4 _⟩
  simp [SF.square4]
  norm_num

/-- `pts` lists the nodes of `s`: as many points as shape functions, and shape function `i` is 1 at
point `i` and 0 at every other point. -/
def Nodal {d n : ℕ} (s : SF K d n) (pts : List (Fin d → K)) : Prop :=
  pts.length = n ∧ ∀ i j : Fin n,
    (pts[(j : ℕ)]?).map (fun p => s.N p i) = some (if i = j then 1 else 0)

set_option maxHeartbeats 4000000 in
theorem nodal_square8 : Nodal (SF.square8 : SF K 2 8) SF.square8.points :=
  ⟨rfl, fun i j => by
    fin_cases j <;> simp only [SF.square8, List.getElem?_cons_succ, List.getElem?_cons_zero,
      Option.map_some, Option.some.injEq] <;> revert i <;> simp [Fin.forall_fin_succ] <;> norm_num⟩

set_option maxHeartbeats 4000000 in
theorem nodal_cubic8 : Nodal (SF.cubic8 : SF K 3 8) SF.cubic8.points :=
  ⟨rfl, fun i j => by
    fin_cases j <;> simp only [SF.cubic8, List.getElem?_cons_succ, List.getElem?_cons_zero,
      Option.map_some, Option.some.injEq] <;> revert i <;> simp [Fin.forall_fin_succ] <;> norm_num⟩

/-- **C28**, eight of the nine families.  The claim for the 20-node brick is false, see
`C28_cubic20_false`; with its entry 12 removed the list is right, see `C28_cubic20_partial`. -/
theorem C28_nodal_partial (f : Family) (hf : f ≠ .cubic20) :
    Nodal (f.sf : SF K f.d f.n) f.sf.points := by
  cases f
  case line2 => exact ⟨rfl, fun i j => by
    fin_cases i <;> fin_cases j <;> simp [Family.sf, SF.line2] <;> norm_num⟩
  case line3 => exact ⟨rfl, fun i j => by
    fin_cases i <;> fin_cases j <;> simp [Family.sf, SF.line3] <;> norm_num⟩
  case triangle3 => exact ⟨rfl, fun i j => by
    fin_cases i <;> fin_cases j <;> simp [Family.sf, SF.triangle3] <;> norm_num⟩
  case triangle6 => exact ⟨rfl, fun i j => by
    fin_cases i <;> fin_cases j <;> simp [Family.sf, SF.triangle6] <;> norm_num⟩
  case square4 => exact ⟨rfl, fun i j => by
    fin_cases i <;> fin_cases j <;> simp [Family.sf, SF.square4] <;> norm_num⟩
  case tetrahedron4 => exact ⟨rfl, fun i j => by
    fin_cases i <;> fin_cases j <;> simp [Family.sf, SF.tetrahedron4] <;> norm_num⟩
  case square8 => exact nodal_square8
  case cubic8 => exact nodal_cubic8
  case cubic20 => exact absurd rfl hf

omit [CharZero K] in
/-- **C28** fails for `ShapeFunction20Cubic`: `Points` has 21 entries, and from entry 12 on they are
not the nodes of the shape functions with the same index; every shape function from 12 on vanishes
at the entry of its own index. -/
theorem C28_cubic20_false : ¬ Nodal (SF.cubic20 : SF K 3 20) SF.cubic20.points ∧
    (SF.cubic20 : SF K 3 20).points.length = 21 ∧
    ∀ i : Fin 20, 12 ≤ i → (SF.cubic20.points[(i : ℕ)]?).map (fun p => (SF.cubic20 : SF K 3 20).N p i)
      = some 0 := by
  refine ⟨fun h => ?_, rfl, fun i hi => ?_⟩
  · have := h.1
    simp [SF.cubic20] at this
  · fin_cases i <;> first | (exfalso; revert hi; decide) | simp [SF.cubic20]

set_option maxHeartbeats 8000000 in
/-- With the spurious entry 12 removed, the list of the 20-node brick is the list of its nodes. -/
theorem C28_cubic20_partial : Nodal (SF.cubic20 : SF K 3 20) (SF.cubic20.points.eraseIdx 12) :=
  ⟨rfl, fun i j => by
    fin_cases j <;> simp only [SF.cubic20, List.eraseIdx, List.getElem?_cons_succ, List.getElem?_cons_zero,
      Option.map_some, Option.some.injEq] <;> revert i <;> simp [Fin.forall_fin_succ] <;> norm_num⟩

/-! ### C29 -/

/-- A function that agrees with its second order Taylor expansion has the derivative read off it. -/
theorem hasDerivAt_of_quadratic (f : ℝ → ℝ) (x D : ℝ)
    (h : ∀ t, f t = f x + D * (t - x) + ((f 1 + f (-1)) / 2 - f 0) * (t - x) ^ 2) :
    HasDerivAt f D x := by
  have h1 : HasDerivAt (fun t : ℝ => t - x) 1 x := (hasDerivAt_id x).sub_const x
  have h2 := (((h1.const_mul D).const_add (f x))).add
    ((h1.pow 2).const_mul ((f 1 + f (-1)) / 2 - f 0))
  have h3 : HasDerivAt f (D * 1 + ((f 1 + f (-1)) / 2 - f 0) * (((2 : ℕ) : ℝ) * (x - x) ^ (2 - 1) * 1))
      x := by
    refine h2.congr_of_eventuallyEq (Filter.Eventually.of_forall fun t => ?_)
    simp only [Pi.add_apply, Pi.pow_apply]
    exact h t
  simpa using h3

set_option maxHeartbeats 4000000 in
theorem deriv_line2 (r : Fin 1 → ℝ) (k : Fin 1) (i : Fin 2) :
    HasDerivAt (fun t => (SF.line2 : SF ℝ 1 2).N (Function.update r k t) i)
      ((SF.line2 : SF ℝ 1 2).dNdr r k i) (r k) := by
  apply hasDerivAt_of_quadratic
  intro t
  rw [Function.update_eq_self]
  fin_cases k <;> fin_cases i <;> simp [SF.line2, Function.update] <;> ring

set_option maxHeartbeats 4000000 in
theorem deriv_line3 (r : Fin 1 → ℝ) (k : Fin 1) (i : Fin 3) :
    HasDerivAt (fun t => (SF.line3 : SF ℝ 1 3).N (Function.update r k t) i)
      ((SF.line3 : SF ℝ 1 3).dNdr r k i) (r k) := by
  apply hasDerivAt_of_quadratic
  intro t
  rw [Function.update_eq_self]
  fin_cases k <;> fin_cases i <;> simp [SF.line3, Function.update] <;> ring

set_option maxHeartbeats 4000000 in
theorem deriv_triangle3 (r : Fin 2 → ℝ) (k : Fin 2) (i : Fin 3) :
    HasDerivAt (fun t => (SF.triangle3 : SF ℝ 2 3).N (Function.update r k t) i)
      ((SF.triangle3 : SF ℝ 2 3).dNdr r k i) (r k) := by
  apply hasDerivAt_of_quadratic
  intro t
  rw [Function.update_eq_self]
  fin_cases k <;> fin_cases i <;> simp [SF.triangle3, Function.update] <;> first | (left; ring1) | ring1

set_option maxHeartbeats 4000000 in
theorem deriv_triangle6 (r : Fin 2 → ℝ) (k : Fin 2) (i : Fin 6) :
    HasDerivAt (fun t => (SF.triangle6 : SF ℝ 2 6).N (Function.update r k t) i)
      ((SF.triangle6 : SF ℝ 2 6).dNdr r k i) (r k) := by
  apply hasDerivAt_of_quadratic
  intro t
  rw [Function.update_eq_self]
  fin_cases k <;> fin_cases i <;> simp [SF.triangle6, Function.update] <;> ring

set_option maxHeartbeats 4000000 in
theorem deriv_square4 (r : Fin 2 → ℝ) (k : Fin 2) (i : Fin 4) :
    HasDerivAt (fun t => (SF.square4 : SF ℝ 2 4).N (Function.update r k t) i)
      ((SF.square4 : SF ℝ 2 4).dNdr r k i) (r k) := by
  apply hasDerivAt_of_quadratic
  intro t
  rw [Function.update_eq_self]
  fin_cases k <;> fin_cases i <;> simp [SF.square4, Function.update] <;> ring

set_option maxHeartbeats 4000000 in
theorem deriv_square8 (r : Fin 2 → ℝ) (k : Fin 2) (i : Fin 8) :
    HasDerivAt (fun t => (SF.square8 : SF ℝ 2 8).N (Function.update r k t) i)
      ((SF.square8 : SF ℝ 2 8).dNdr r k i) (r k) := by
  apply hasDerivAt_of_quadratic
  intro t
  rw [Function.update_eq_self]
  fin_cases k <;> fin_cases i <;> simp [SF.square8, Function.update] <;> ring

set_option maxHeartbeats 4000000 in
theorem deriv_tetrahedron4 (r : Fin 3 → ℝ) (k : Fin 3) (i : Fin 4) :
    HasDerivAt (fun t => (SF.tetrahedron4 : SF ℝ 3 4).N (Function.update r k t) i)
      ((SF.tetrahedron4 : SF ℝ 3 4).dNdr r k i) (r k) := by
  apply hasDerivAt_of_quadratic
  intro t
  rw [Function.update_eq_self]
  fin_cases k <;> fin_cases i <;> simp [SF.tetrahedron4, Function.update] <;> ring

set_option maxHeartbeats 4000000 in
theorem deriv_cubic8 (r : Fin 3 → ℝ) (k : Fin 3) (i : Fin 8) :
    HasDerivAt (fun t => (SF.cubic8 : SF ℝ 3 8).N (Function.update r k t) i)
      ((SF.cubic8 : SF ℝ 3 8).dNdr r k i) (r k) := by
  apply hasDerivAt_of_quadratic
  intro t
  rw [Function.update_eq_self]
  fin_cases k <;> fin_cases i <;> simp [SF.cubic8, Function.update] <;> ring

set_option maxHeartbeats 4000000 in
theorem deriv_cubic20 (r : Fin 3 → ℝ) (k : Fin 3) (i : Fin 20) :
    HasDerivAt (fun t => (SF.cubic20 : SF ℝ 3 20).N (Function.update r k t) i)
      ((SF.cubic20 : SF ℝ 3 20).dNdr r k i) (r k) := by
  apply hasDerivAt_of_quadratic
  intro t
  rw [Function.update_eq_self]
  fin_cases k <;> fin_cases i <;> simp [SF.cubic20, Function.update] <;> ring

/-- **C29**: entry `(k, i)` of `dNdr` is the partial derivative of shape function `i` along
coordinate `k`, at every point. -/
theorem C29_derivative (f : Family) (r : Fin f.d → ℝ) (k : Fin f.d) (i : Fin f.n) :
    HasDerivAt (fun t => (f.sf : SF ℝ f.d f.n).N (Function.update r k t) i)
      ((f.sf : SF ℝ f.d f.n).dNdr r k i) (r k) := by
  cases f
  case line2 => exact deriv_line2 r k i
  case line3 => exact deriv_line3 r k i
  case triangle3 => exact deriv_triangle3 r k i
  case triangle6 => exact deriv_triangle6 r k i
  case square4 => exact deriv_square4 r k i
  case square8 => exact deriv_square8 r k i
  case tetrahedron4 => exact deriv_tetrahedron4 r k i
  case cubic8 => exact deriv_cubic8 r k i
  case cubic20 => exact deriv_cubic20 r k i

/-- The derivative is not constant: a 3-node line at `r = 1/4`. -/
example : HasDerivAt (fun t => (SF.line3 : SF ℝ 1 3).N (Function.update ![1 / 4] 0 t) 2) (-(1 / 2))
    (1 / 4) := by
  have := deriv_line3 ![1 / 4] 0 2
  have e : (SF.line3 : SF ℝ 1 3).dNdr ![1 / 4] 0 2 = -(1 / 2) := by
    simp [SF.line3]; norm_num
  rwa [e] at this

/-! ### C30 -/

/-- **C30**: an affine field `a + b . x` given by its values at the nodes `X` is reproduced at the
image of every parametric point. -/
theorem C30_affine (f : Family) {D : ℕ} (X : Matrix (Fin f.n) (Fin D) K) (a : K) (b : Fin D → K)
    (r : Fin f.d → K) :
    ∑ i, (f.sf : SF K f.d f.n).N r i * (a + ∑ c, b c * X i c)
      = a + ∑ c, b c * ∑ i, (f.sf : SF K f.d f.n).N r i * X i c := by
  simp only [mul_add, Finset.sum_add_distrib, ← Finset.sum_mul, C27_sum_N, one_mul, Finset.mul_sum]
  rw [Finset.sum_comm]
  congr 1
  refine Finset.sum_congr rfl fun c _ => Finset.sum_congr rfl fun i _ => ?_
  ring

/-- **C30**: its gradient computed with `dNdX = (dNdr X)⁻¹ dNdr`, as the element routines do, is `b`
wherever the Jacobian is not zero. -/
theorem C30_gradient (f : Family) (X : Matrix (Fin f.n) (Fin f.d) K) (a : K) (b : Fin f.d → K)
    (r : Fin f.d → K) (hJ : ((f.sf : SF K f.d f.n).dNdr r * X).det ≠ 0) :
    (((f.sf : SF K f.d f.n).dNdr r * X)⁻¹ * (f.sf : SF K f.d f.n).dNdr r).mulVec
      (fun i => a + ∑ c, b c * X i c) = b := by
  have e : (fun i => a + ∑ c, b c * X i c) = (fun _ => a) + X.mulVec b := by
    funext i
    simp only [Pi.add_apply, Matrix.mulVec, dotProduct]
    congr 1
    exact Finset.sum_congr rfl fun c _ => mul_comm _ _
  have e0 : ((f.sf : SF K f.d f.n).dNdr r).mulVec (fun _ => a) = 0 := by
    funext k
    simp only [Matrix.mulVec, dotProduct, ← Finset.sum_mul, C27_sum_dNdr, zero_mul, Pi.zero_apply]
  rw [e, ← Matrix.mulVec_mulVec, Matrix.mulVec_add, e0, zero_add, Matrix.mulVec_mulVec,
    Matrix.mulVec_mulVec, Matrix.mul_assoc, Matrix.nonsing_inv_mul _ (isUnit_iff_ne_zero.2 hJ), Matrix.one_mulVec]

/-- The hypothesis of `C30_gradient` on a sheared, stretched triangle. -/
example : ((SF.triangle3 : SF ℚ 2 3).dNdr ![1 / 3, 1 / 3] * (!![2, 1; 0, 3; 0, 0] : Matrix (Fin 3) (Fin 2) ℚ)).det = 6 := by
  simp [SF.triangle3, Matrix.det_fin_two, Matrix.mul_apply, Fin.sum_univ_succ]
  norm_num

end Pansfem
