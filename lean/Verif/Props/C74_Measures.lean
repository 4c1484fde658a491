/-
C74: `Area`, `Volume` and `CenterOfGravity`.  C75: `NumericIntegrationOnLine`.
-/
import Verif.Props.C40_General
import Verif.Props.C37_Nonlinear
import Verif.Props.C31_Quadrature
import Mathlib.MeasureTheory.Integral.IntervalIntegral.Basic

noncomputable section

namespace Pansfem

open Matrix

/-! ### Area and volume -/

section Affine
variable {K : Type} [Field K] {n d : ℕ}

theorem jac_affine {sf : SF K d n} (h : Complete sf) (X : Matrix (Fin n) (Fin d) K) (A : Matrix (Fin d) (Fin d) K)
    (c r : Fin d → K) : (jac sf (X * Aᵀ + translation n c) r).det = A.det * (jac sf X r).det := by
  rw [jac_translation h, jac, jac, ← Matrix.mul_assoc, det_mul, det_transpose, mul_comm]

/-- **C74**: the area of an affine image is the determinant times the area, for all shape functions and
rules. -/
theorem C74_area_affine {sf : SF K 2 n} (h : Complete sf) (ic : IC K 2) (X : Matrix (Fin n) (Fin 2) K)
    (A : Matrix (Fin 2) (Fin 2) K) (c : Fin 2 → K) :
    area sf ic (X * Aᵀ + translation n c) = A.det * area sf ic X := by
  simp only [area, jac_affine h, Finset.mul_sum, mul_assoc]

/-- **C74**: the same for the volume. -/
theorem C74_volume_affine {sf : SF K 3 n} (h : Complete sf) (ic : IC K 3) (X : Matrix (Fin n) (Fin 3) K)
    (A : Matrix (Fin 3) (Fin 3) K) (c : Fin 3 → K) :
    volume sf ic (X * Aᵀ + translation n c) = A.det * volume sf ic X := by
  simp only [volume, jac_affine h, Finset.mul_sum, mul_assoc]

end Affine

theorem sum_gauss1Triangle : ∑ g, IC.gauss1Triangle.weights g 0 * IC.gauss1Triangle.weights g 1 = 1 / 2 := by
  show ∑ g : Fin 1, _ = _
  simp only [Fin.sum_univ_one, IC.gauss1Triangle, Matrix.cons_val_zero, Matrix.cons_val_one]
  rw [div_mul_div_comm, Real.mul_self_sqrt (by norm_num), one_mul]

theorem sum_gauss3Triangle : ∑ g, IC.gauss3Triangle.weights g 0 * IC.gauss3Triangle.weights g 1 = 1 / 2 := by
  show ∑ g : Fin 3, _ = _
  have h : (1 / √6) * (1 / √6) = (1 / 6 : ℝ) := by
    rw [div_mul_div_comm, Real.mul_self_sqrt (by norm_num), one_mul]
  simp only [Fin.sum_univ_three, IC.gauss3Triangle, Matrix.cons_val_zero, Matrix.cons_val_one,
    Matrix.cons_val, h]
  norm_num

/-- **C74**: the area of a three-node triangle is half the cross product of two edges, positive for
counterclockwise nodes. -/
theorem C74_area_triangle3 {ic : IC ℝ 2} (hw : ∑ g, ic.weights g 0 * ic.weights g 1 = 1 / 2)
    (X : Matrix (Fin 3) (Fin 2) ℝ) : area SF.triangle3 ic X
      = 1 / 2 * ((X 1 0 - X 0 0) * (X 2 1 - X 0 1) - (X 2 0 - X 0 0) * (X 1 1 - X 0 1)) := by
  have h : ∀ r, (jac SF.triangle3 X r).det
      = (X 1 0 - X 0 0) * (X 2 1 - X 0 1) - (X 2 0 - X 0 0) * (X 1 1 - X 0 1) := by
    intro r
    rw [det_fin_two]
    simp [jac, Matrix.mul_apply, Fin.sum_univ_succ, SF.triangle3]
    ring
  simp only [area, h, mul_assoc]
  rw [← Finset.mul_sum, hw, mul_comm]

/-- **C74**: the area of a four-node element is given by the shoelace formula. -/
theorem C74_area_square4 {ic : IC ℝ 2} (h0 : ∑ g, ic.weights g 0 * ic.weights g 1 = 4)
    (h1 : ∑ g, ic.points g 0 * (ic.weights g 0 * ic.weights g 1) = 0)
    (h2 : ∑ g, ic.points g 1 * (ic.weights g 0 * ic.weights g 1) = 0) (X : Matrix (Fin 4) (Fin 2) ℝ) :
    area SF.square4 ic X = 1 / 2 * ((X 0 0 * X 1 1 - X 1 0 * X 0 1) + (X 1 0 * X 2 1 - X 2 0 * X 1 1)
      + (X 2 0 * X 3 1 - X 3 0 * X 2 1) + (X 3 0 * X 0 1 - X 0 0 * X 3 1)) := by
  have h : ∃ a b : ℝ, ∀ r, (jac SF.square4 X r).det
      = 1 / 8 * ((X 0 0 * X 1 1 - X 1 0 * X 0 1) + (X 1 0 * X 2 1 - X 2 0 * X 1 1)
        + (X 2 0 * X 3 1 - X 3 0 * X 2 1) + (X 3 0 * X 0 1 - X 0 0 * X 3 1)) + a * r 0 + b * r 1 := by
    refine ⟨1 / 8 * ((X 1 0 - X 0 0) * (X 2 1 - X 3 1) - (X 2 0 - X 3 0) * (X 1 1 - X 0 1)),
      1 / 8 * ((X 0 0 - X 3 0) * (X 2 1 - X 1 1) - (X 2 0 - X 1 0) * (X 0 1 - X 3 1)), fun r => ?_⟩
    rw [det_fin_two]
    simp [jac, Matrix.mul_apply, Fin.sum_univ_succ, SF.square4]
    ring
  obtain ⟨a, b, h⟩ := h
  generalize (X 0 0 * X 1 1 - X 1 0 * X 0 1) + (X 1 0 * X 2 1 - X 2 0 * X 1 1)
        + (X 2 0 * X 3 1 - X 3 0 * X 2 1) + (X 3 0 * X 0 1 - X 0 0 * X 3 1) = S at h ⊢
  simp only [area, h, mul_assoc, add_mul, Finset.sum_add_distrib]
  rw [← Finset.mul_sum, ← Finset.mul_sum, ← Finset.mul_sum, ← Finset.mul_sum, h0, h1, h2]
  ring

theorem gauss4Square_moments : ∑ g, IC.gauss4Square.weights g 0 * IC.gauss4Square.weights g 1 = 4 ∧
    ∑ g, IC.gauss4Square.points g 0 * (IC.gauss4Square.weights g 0 * IC.gauss4Square.weights g 1) = 0 ∧
    ∑ g, IC.gauss4Square.points g 1 * (IC.gauss4Square.weights g 0 * IC.gauss4Square.weights g 1) = 0 := by
  refine ⟨?_, ?_, ?_⟩ <;> show ∑ g : Fin 4, _ = _ <;> simp [IC.gauss4Square, Fin.sum_univ_four] <;> ring

theorem gauss1Square_moments : ∑ g, IC.gauss1Square.weights g 0 * IC.gauss1Square.weights g 1 = 4 ∧
    ∑ g, IC.gauss1Square.points g 0 * (IC.gauss1Square.weights g 0 * IC.gauss1Square.weights g 1) = 0 ∧
    ∑ g, IC.gauss1Square.points g 1 * (IC.gauss1Square.weights g 0 * IC.gauss1Square.weights g 1) = 0 := by
  refine ⟨?_, ?_, ?_⟩ <;> show ∑ g : Fin 1, _ = _ <;> simp [IC.gauss1Square]
  norm_num

/-- **C74**: the volume of a four-node tetrahedron is a sixth of the determinant of its edges. -/
theorem C74_volume_tetrahedron4 (X : Matrix (Fin 4) (Fin 3) ℝ) :
    volume SF.tetrahedron4 IC.gauss1Tetrahedron X
      = 1 / 6 * (Matrix.of fun (i j : Fin 3) => X i.castSucc j - X 3 j).det := by
  have h : ∀ r, jac SF.tetrahedron4 X r = Matrix.of fun (i j : Fin 3) => X i.castSucc j - X 3 j := by
    intro r
    ext i j
    fin_cases i <;> simp [jac, Matrix.mul_apply, Fin.sum_univ_succ, SF.tetrahedron4] <;> ring
  have hw : ∑ g, IC.gauss1Tetrahedron.weights g 0 * IC.gauss1Tetrahedron.weights g 1
      * IC.gauss1Tetrahedron.weights g 2 = 1 / 6 := by
    show ∑ g : Fin 1, _ = _
    have hc : cbrt 6 * cbrt 6 * cbrt 6 = 6 := by
      rw [cbrt, ← Real.rpow_add (by norm_num), ← Real.rpow_add (by norm_num)]
      norm_num
    simp only [Fin.sum_univ_one, IC.gauss1Tetrahedron, Matrix.cons_val_zero, Matrix.cons_val_one, Matrix.cons_val]
    rw [div_mul_div_comm, div_mul_div_comm, hc]
    norm_num
  simp only [volume, h, mul_assoc]
  simp only [mul_assoc] at hw
  rw [← Finset.mul_sum, hw, mul_comm]

/-- The unit cube, numbered as the eight-node element expects. -/
def unitCube : Matrix (Fin 8) (Fin 3) ℝ :=
  Matrix.of ![![0, 0, 0], ![1, 0, 0], ![1, 1, 0], ![0, 1, 0], ![0, 0, 1], ![1, 0, 1], ![1, 1, 1], ![0, 1, 1]]

/-- **C74**: the volume of a parallelepiped given by eight nodes. -/
theorem C74_volume_cubic8 (A : Matrix (Fin 3) (Fin 3) ℝ) (c : Fin 3 → ℝ) :
    volume SF.cubic8 IC.gauss8Cubic (unitCube * Aᵀ + translation 8 c) = A.det := by
  rw [C74_volume_affine complete_cubic8]
  have h : ∀ r, jac SF.cubic8 unitCube r = (1 / 2 : ℝ) • 1 := by
    intro r
    ext i j
    fin_cases i <;> fin_cases j <;>
      simp [jac, Matrix.mul_apply, Fin.sum_univ_succ, SF.cubic8, unitCube] <;> ring
  have : volume SF.cubic8 IC.gauss8Cubic unitCube = 1 := by
    simp only [volume, h, det_smul, det_one]
    show ∑ g : Fin 8, _ = _
    simp [IC.gauss8Cubic, Fin.sum_univ_eight]
    norm_num
  rw [this, mul_one]

/-! ### Centre of gravity -/

/-- **C74**: `CenterOfGravity` is the mean of the nodes. -/
theorem C74_center {K : Type} [Field K] [DecidableEq K] [CharZero K] {V : Type} [AddCommGroup V] [Module K V]
    {x : List V} {element : List ℕ} (val : ℕ → V) (hne : element ≠ []) (hx : ∀ k ∈ element, x[k]? = some (val k)) :
    centerOfGravity K x element = some ((element.length : K)⁻¹ • (element.map val).sum) := by
  have h0 : ∃ v, x[0]? = some v := by
    obtain ⟨k, hk⟩ := List.exists_mem_of_ne_nil _ hne
    have h := List.getElem?_eq_some_iff.1 (hx k hk)
    exact ⟨x[0]'(by obtain ⟨h, -⟩ := h; omega), List.getElem?_eq_getElem _⟩
  obtain ⟨v, hv⟩ := h0
  rw [centerOfGravity, hv, Option.bind_eq_bind, Option.bind_some, elementAverage, foldlM_gather hx]
  simp only [Option.bind_eq_bind, Option.bind_some, divCount, zero_add]
  rw [if_neg (Nat.cast_ne_zero.2 (List.length_pos_of_ne_nil hne).ne')]

/-- **C74**: it moves with the element. -/
theorem C74_center_translation {K : Type} [Field K] [DecidableEq K] [CharZero K] {V : Type} [AddCommGroup V]
    [Module K V] {x : List V} {element : List ℕ} {p : V} (h : centerOfGravity K x element = some p)
    (hne : element ≠ []) (hx : ∀ k ∈ element, k < x.length) (c : V) :
    centerOfGravity K (x.map (· + c)) element = some (p + c) := by
  have e : ∀ k ∈ element, x[k]? = some (x[k]?.getD 0) := fun k hk => by
    rw [List.getElem?_eq_getElem (hx k hk)]; rfl
  rw [C74_center _ hne e] at h
  rw [C74_center (fun k => x[k]?.getD 0 + c) hne (fun k hk => by rw [List.getElem?_map, e k hk]; rfl),
    ← Option.some.inj h, List.sum_map_add, smul_add]
  congr 2
  rw [List.map_const', List.sum_replicate, ← Nat.cast_smul_eq_nsmul K, smul_smul, inv_mul_cancel₀, one_smul]
  exact Nat.cast_ne_zero.2 (List.length_pos_of_ne_nil hne).ne'

/-- **C74**: it is the image of the centre of the reference element. -/
theorem C74_center_isoparametric {d : ℕ} (x : Fin 3 → Fin d → ℝ) (y : Fin 4 → Fin d → ℝ) :
    centerOfGravity ℝ (List.ofFn x) [0, 1, 2] = some ((SF.triangle3 (K := ℝ)).N ![1 / 3, 1 / 3] ᵥ* Matrix.of x) ∧
    centerOfGravity ℝ (List.ofFn y) [0, 1, 2, 3] = some ((SF.square4 (K := ℝ)).N ![0, 0] ᵥ* Matrix.of y) ∧
    centerOfGravity ℝ (List.ofFn y) [0, 1, 2, 3]
      = some ((SF.tetrahedron4 (K := ℝ)).N ![1 / 4, 1 / 4, 1 / 4] ᵥ* Matrix.of y) := by
  refine ⟨?_, ?_, ?_⟩
  · rw [C74_center (fun k => (List.ofFn x)[k]?.getD 0) (by simp) (by simp)]
    congr 1
    ext a
    simp [vecMul, dotProduct, Fin.sum_univ_succ, SF.triangle3]
    ring
  · rw [C74_center (fun k => (List.ofFn y)[k]?.getD 0) (by simp) (by simp)]
    congr 1
    ext a
    simp [vecMul, dotProduct, Fin.sum_univ_succ, SF.square4]
    ring
  · rw [C74_center (fun k => (List.ofFn y)[k]?.getD 0) (by simp) (by simp)]
    congr 1
    ext a
    simp [vecMul, dotProduct, Fin.sum_univ_succ, SF.tetrahedron4]
    ring

/-! ### Integration along a line -/

theorem lineElement_line2 (X : Matrix (Fin 2) (Fin 1) ℝ) (r : Fin 1 → ℝ) :
    lineElement SF.line2 X r = |X 1 0 - X 0 0| / 2 := by
  have : ((SF.line2.dNdr r * X) * (SF.line2.dNdr r * X).transpose) 0 0 = ((X 1 0 - X 0 0) / 2) ^ 2 := by
    simp [Matrix.mul_apply, vecMul, dotProduct, Fin.sum_univ_succ, SF.line2]
    ring
  rw [lineElement, this, Real.sqrt_sq_eq_abs, abs_div, abs_two]

theorem point_line2 (X : Matrix (Fin 2) (Fin 1) ℝ) (r : Fin 1 → ℝ) :
    X.transpose.mulVec (SF.line2.N r) = fun _ => (X 1 0 - X 0 0) / 2 * r 0 + (X 0 0 + X 1 0) / 2 := by
  ext a
  fin_cases a
  simp [mulVec, dotProduct, Fin.sum_univ_succ, SF.line2]
  ring

/-- **C75**: on a two-node line the routine returns the integral over the interval of its nodes, for every
polynomial the rule integrates exactly on the reference line. -/
theorem C75_line2 {ic : IC ℝ 1} {m : ℕ}
    (hq : ∀ p : Polynomial ℝ, p.natDegree ≤ m → ic.sum (fun r => p.eval (r 0)) = ∫ x in (-1 : ℝ)..1, p.eval x)
    (X : Matrix (Fin 2) (Fin 1) ℝ) (p : Polynomial ℝ) (hp : p.natDegree ≤ m) :
    numericIntegrationOnLine SF.line2 ic X (fun x => p.eval (x 0))
      = ∫ x in (min (X 0 0) (X 1 0))..(max (X 0 0) (X 1 0)), p.eval x := by
  set h := (X 1 0 - X 0 0) / 2 with hh
  set c := (X 0 0 + X 1 0) / 2 with hc
  have h1 : numericIntegrationOnLine SF.line2 ic X (fun x => p.eval (x 0))
      = |h| * ic.sum (fun r => (p.comp (Polynomial.C h * Polynomial.X + Polynomial.C c)).eval (r 0)) := by
    rw [numericIntegrationOnLine, IC.sum, Finset.mul_sum]
    refine Finset.sum_congr rfl fun g _ => ?_
    rw [point_line2, lineElement_line2, Polynomial.eval_comp]
    simp [hh, abs_div]
    ring
  have h2 : (p.comp (Polynomial.C h * Polynomial.X + Polynomial.C c)).natDegree ≤ m := by
    refine (Polynomial.natDegree_comp_le).trans ?_
    exact (Nat.mul_le_mul_left _ Polynomial.natDegree_linear_le).trans (by simpa using hp)
  rw [h1, hq _ h2]
  have h3 : ∀ x, (p.comp (Polynomial.C h * Polynomial.X + Polynomial.C c)).eval x = p.eval (h * x + c) := by
    intro x
    simp [Polynomial.eval_comp]
  simp only [h3]
  have h4 : h * ∫ x in (-1 : ℝ)..1, p.eval (h * x + c) = ∫ x in (X 0 0)..(X 1 0), p.eval x := by
    rw [intervalIntegral.mul_integral_comp_mul_add (f := fun x => p.eval x) h c]
    congr 1 <;> rw [hh, hc] <;> ring
  rcases le_total (X 0 0) (X 1 0) with hle | hle
  · rw [abs_of_nonneg (by rw [hh]; linarith), h4, min_eq_left hle, max_eq_right hle]
  · rw [abs_of_nonpos (by rw [hh]; linarith), neg_mul, h4, min_eq_right hle, max_eq_left hle,
      intervalIntegral.integral_symm (X 0 0)]

/-- **C75** for the two-point rule and cubic polynomials. -/
theorem C75_gauss2Line (X : Matrix (Fin 2) (Fin 1) ℝ) (p : Polynomial ℝ) (hp : p.natDegree ≤ 3) :
    numericIntegrationOnLine SF.line2 IC.gauss2Line X (fun x => p.eval (x 0))
      = ∫ x in (min (X 0 0) (X 1 0))..(max (X 0 0) (X 1 0)), p.eval x :=
  C75_line2 C31_gauss2Line X p hp

/-- **C75**: nodes with other than one coordinate fail the assertion of `Vstack`. -/
theorem C75_coordinates {K : Type} [Zero K] {x : List (Vec K)} {i : ℕ} {element : List ℕ} {v : Vec K}
    (hv : x[i]? = some v) (hs : v.size ≠ 1) : stackNodes 1 x (i :: element) = none := by
  have ht : v.transpose.bind (fun B => (Mat.zeros 0 1 : Mat K).vstack B) = none := by
    unfold Vec.transpose
    have : ∀ l : List K, (Mat.zeros 0 1 : Mat K).vstack ⟨1, v.size, l⟩ = none := by
      intro l
      rw [Mat.vstack, if_neg]
      exact fun h => hs h.symm
    cases h : (List.range v.size).mapM fun i => v.values[i]? <;> simp_all
  rw [stackNodes, List.foldlM_cons]
  simp only [hv, Option.bind_eq_bind, Option.bind_some]
  rw [show (v.transpose.bind fun B => (Mat.zeros 0 1 : Mat K).vstack B) = none from ht]
  rfl

/-- Nodes in reverse order: the integral of `x^3` over `[1, 3]`. -/
example : numericIntegrationOnLine SF.line2 IC.gauss2Line !![3; 1] (fun x => (Polynomial.X ^ 3).eval (x 0)) = 20 := by
  rw [C75_gauss2Line _ _ (by simp)]
  simp [integral_pow]
  norm_num

example : area SF.square4 IC.gauss4Square !![0, 0; 2, 0; 3, 2; 0, 1] = 7 / 2 := by
  obtain ⟨h0, h1, h2⟩ := gauss4Square_moments
  rw [C74_area_square4 h0 h1 h2]
  simp
  norm_num

example : centerOfGravity ℚ [![(0 : ℚ), 0], ![3, 0], ![0, 6]] [0, 1, 2] = some ![1, 2] := by
  decide +kernel

end Pansfem
