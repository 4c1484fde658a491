/-
C34: the quadrilateral with four points has no zero-energy modes but the rigid motions.
-/
import Verif.Props.C34_Energy
import Verif.Lemmas.Quads

open Matrix

namespace Pansfem

/-- The sums of nodal values in the derivatives of the bilinear interpolation. -/
def bilinear4 (f : Fin 4 → ℝ) : Fin 3 → ℝ := ![-f 0 + f 1 + f 2 - f 3, -f 0 - f 1 + f 2 + f 3, f 0 - f 1 + f 2 - f 3]

theorem square4_dp (f : Fin 4 → ℝ) (r : Fin 2 → ℝ) :
    ∑ i, SF.square4.dNdr r 0 i * f i = (bilinear4 f 0 + bilinear4 f 2 * r 1) / 4 := by
  simp [SF.square4, bilinear4, Fin.sum_univ_succ]
  ring

theorem square4_dq (f : Fin 4 → ℝ) (r : Fin 2 → ℝ) :
    ∑ i, SF.square4.dNdr r 1 i * f i = (bilinear4 f 1 + bilinear4 f 2 * r 0) / 4 := by
  simp [SF.square4, bilinear4, Fin.sum_univ_succ]
  ring

/-- The gradient of a field, multiplied by the Jacobian determinant. -/
theorem gradAt_det {n : ℕ} (sf : SF ℝ 2 n) (X : Matrix (Fin n) (Fin 2) ℝ) (r : Fin 2 → ℝ)
    (h : (sf.dNdr r * X).det ≠ 0) (f : Fin n → ℝ) :
    (sf.dNdr r * X).det * ∑ i, gradAt sf X r 0 i * f i =
        (∑ i, sf.dNdr r 1 i * X i 1) * (∑ i, sf.dNdr r 0 i * f i) -
          (∑ i, sf.dNdr r 0 i * X i 1) * ∑ i, sf.dNdr r 1 i * f i ∧
      (sf.dNdr r * X).det * ∑ i, gradAt sf X r 1 i * f i =
        (∑ i, sf.dNdr r 0 i * X i 0) * (∑ i, sf.dNdr r 1 i * f i) -
          (∑ i, sf.dNdr r 1 i * X i 0) * ∑ i, sf.dNdr r 0 i * f i := by
  have hJ : (sf.dNdr r * X) * gradAt sf X r = sf.dNdr r := by
    rw [gradAt, ← Matrix.mul_assoc, Matrix.mul_nonsing_inv _ (Ne.isUnit h), Matrix.one_mul]
  have hrow : ∀ l : Fin 2, (sf.dNdr r * X) l 0 * (∑ i, gradAt sf X r 0 i * f i) +
      (sf.dNdr r * X) l 1 * (∑ i, gradAt sf X r 1 i * f i) = ∑ i, sf.dNdr r l i * f i := by
    intro l
    have e : ∑ i, ((sf.dNdr r * X) * gradAt sf X r) l i * f i =
        (sf.dNdr r * X) l 0 * (∑ i, gradAt sf X r 0 i * f i) +
          (sf.dNdr r * X) l 1 * (∑ i, gradAt sf X r 1 i * f i) := by
      simp only [Matrix.mul_apply (M := sf.dNdr r * X), Fin.sum_univ_two, add_mul,
        Finset.sum_add_distrib, Finset.mul_sum, mul_assoc]
    rw [← e, hJ]
  have e : ∀ l k : Fin 2, ∑ i, sf.dNdr r l i * X i k = (sf.dNdr r * X) l k := fun l k => (Matrix.mul_apply).symm
  rw [e, e, e, e, det_fin_two, ← hrow 0, ← hrow 1]
  constructor <;> ring

/-- A linear polynomial that vanishes at the four points is zero. -/
theorem gauss4_linear {a b c : ℝ}
    (h : ∀ g : Fin IC.gauss4Square.N, a + b * IC.gauss4Square.points g 0 + c * IC.gauss4Square.points g 1 = 0) :
    a = 0 ∧ b = 0 ∧ c = 0 := by
  have g0 := h (0 : Fin 4)
  have g1 := h (1 : Fin 4)
  have g2 := h (2 : Fin 4)
  have g3 := h (3 : Fin 4)
  simp [IC.gauss4Square, div_eq_mul_inv] at g0 g1 g2 g3
  have hs : (√3)⁻¹ ≠ (0 : ℝ) := by positivity
  refine ⟨by linarith, (mul_eq_zero.1 (show b * (√3)⁻¹ = 0 by linarith)).resolve_right hs,
    (mul_eq_zero.1 (show c * (√3)⁻¹ = 0 by linarith)).resolve_right hs⟩

/-- Without strain at the four points a quadrilateral moves rigidly. -/
theorem quad4_rigid {X : Matrix (Fin 4) (Fin 2) ℝ}
    (hX : ∀ g : Fin IC.gauss4Square.N, 0 < (SF.square4.dNdr (IC.gauss4Square.points g) * X).det) {u : Fin 4 × Fin 2 → ℝ}
    (hu : ∀ g : Fin IC.gauss4Square.N, strain2 (gradAt SF.square4 X (IC.gauss4Square.points g)) u = 0) :
    ∃ a w, u = rigid2 X a w := by
  obtain ⟨y, hy⟩ : ∃ y, y = bilinear4 fun i => X i 1 := ⟨_, rfl⟩
  obtain ⟨x, hx⟩ : ∃ x, x = bilinear4 fun i => X i 0 := ⟨_, rfl⟩
  obtain ⟨f, hf⟩ : ∃ f, f = bilinear4 fun i => u (i, 0) := ⟨_, rfl⟩
  obtain ⟨v, hv⟩ : ∃ v, v = bilinear4 fun i => u (i, 1) := ⟨_, rfl⟩
  have key : ∀ g : Fin IC.gauss4Square.N,
      ((y 1 * f 0 - y 0 * f 1) + (y 2 * f 0 - y 0 * f 2) * IC.gauss4Square.points g 0 +
        (y 1 * f 2 - y 2 * f 1) * IC.gauss4Square.points g 1 = 0) ∧
      ((x 0 * v 1 - x 1 * v 0) + (x 0 * v 2 - x 2 * v 0) * IC.gauss4Square.points g 0 +
        (x 2 * v 1 - x 1 * v 2) * IC.gauss4Square.points g 1 = 0) ∧
      ((x 0 * f 1 - x 1 * f 0 + (y 1 * v 0 - y 0 * v 1)) +
        (x 0 * f 2 - x 2 * f 0 + (y 2 * v 0 - y 0 * v 2)) * IC.gauss4Square.points g 0 +
        (x 2 * f 1 - x 1 * f 2 + (y 1 * v 2 - y 2 * v 1)) * IC.gauss4Square.points g 1 = 0) := by
    intro g
    obtain ⟨d1, d2⟩ := gradAt_det SF.square4 X _ (hX g).ne' fun i => u (i, 0)
    obtain ⟨d3, d4⟩ := gradAt_det SF.square4 X _ (hX g).ne' fun i => u (i, 1)
    have s0 : ∑ i, gradAt SF.square4 X (IC.gauss4Square.points g) 0 i * u (i, 0) = 0 := congrFun (hu g) 0
    have s1 : ∑ i, gradAt SF.square4 X (IC.gauss4Square.points g) 1 i * u (i, 1) = 0 := congrFun (hu g) 1
    have s2 : (∑ i, gradAt SF.square4 X (IC.gauss4Square.points g) 1 i * u (i, 0)) +
      ∑ i, gradAt SF.square4 X (IC.gauss4Square.points g) 0 i * u (i, 1) = 0 := congrFun (hu g) 2
    rw [square4_dp (fun i => X i 1), square4_dq (fun i => X i 1), square4_dp (fun i => u (i, 0)),
      square4_dq (fun i => u (i, 0)), ← hy, ← hf, s0] at d1
    rw [square4_dp (fun i => X i 0), square4_dq (fun i => X i 0), square4_dp (fun i => u (i, 0)),
      square4_dq (fun i => u (i, 0)), ← hx, ← hf] at d2
    rw [square4_dp (fun i => X i 1), square4_dq (fun i => X i 1), square4_dp (fun i => u (i, 1)),
      square4_dq (fun i => u (i, 1)), ← hy, ← hv] at d3
    rw [square4_dp (fun i => X i 0), square4_dq (fun i => X i 0), square4_dp (fun i => u (i, 1)),
      square4_dq (fun i => u (i, 1)), ← hx, ← hv, s1] at d4
    refine ⟨by linear_combination -16 * d1, by linear_combination -16 * d4, ?_⟩
    linear_combination -16 * d2 - 16 * d3 + 16 * (SF.square4.dNdr (IC.gauss4Square.points g) * X).det * s2
  obtain ⟨a0, a1, a2⟩ := gauss4_linear fun g => (key g).1
  obtain ⟨b0, b1, b2⟩ := gauss4_linear fun g => (key g).2.1
  obtain ⟨c0, -, -⟩ := gauss4_linear fun g => (key g).2.2
  have hD : x 0 * y 1 - x 1 * y 0 ≠ 0 := by
    intro h0
    have hd : ∀ g : Fin IC.gauss4Square.N, 16 * (SF.square4.dNdr (IC.gauss4Square.points g) * X).det =
        (x 0 * y 1 - x 1 * y 0) + (x 0 * y 2 - x 2 * y 0) * IC.gauss4Square.points g 0 +
          (x 2 * y 1 - x 1 * y 2) * IC.gauss4Square.points g 1 := by
      intro g
      have e : ∀ l k : Fin 2, (SF.square4.dNdr (IC.gauss4Square.points g) * X) l k =
        ∑ i, SF.square4.dNdr (IC.gauss4Square.points g) l i * X i k := fun l k => Matrix.mul_apply
      rw [det_fin_two, e, e, e, e, square4_dp (fun i => X i 1), square4_dq (fun i => X i 1),
        square4_dp (fun i => X i 0), square4_dq (fun i => X i 0), ← hx, ← hy]
      ring
    have p0 := hd (0 : Fin 4)
    have p1 := hd (3 : Fin 4)
    have q0 := hX (0 : Fin 4)
    have q1 := hX (3 : Fin 4)
    have e0 : (IC.gauss4Square.points (0 : Fin 4) 0 : ℝ) = -IC.gauss4Square.points (3 : Fin 4) 0 := by
      simp [IC.gauss4Square, neg_div]
    have e1 : (IC.gauss4Square.points (0 : Fin 4) 1 : ℝ) = -IC.gauss4Square.points (3 : Fin 4) 1 := by
      simp [IC.gauss4Square, neg_div]
    rw [e0, e1, h0] at p0
    rw [h0] at p1
    linarith
  obtain ⟨l, hl⟩ : ∃ l, l = (x 0 * f 1 - x 1 * f 0) / (x 0 * y 1 - x 1 * y 0) := ⟨_, rfl⟩
  have hl' : l * (x 0 * y 1 - x 1 * y 0) = x 0 * f 1 - x 1 * f 0 := by rw [hl, div_mul_cancel₀ _ hD]
  have fy : ∀ k : Fin 3, f k = l * y k := by
    intro k
    refine mul_left_cancel₀ hD ?_
    match k with
    | 0 => linear_combination (-y 0) * hl' + x 0 * a0
    | 1 => linear_combination (-y 1) * hl' + x 1 * a0
    | 2 => linear_combination (-y 2) * hl' + x 0 * a2 + x 1 * a1
  have vx : ∀ k : Fin 3, v k = -l * x k := by
    intro k
    refine mul_left_cancel₀ hD ?_
    match k with
    | 0 => linear_combination x 0 * hl' + y 0 * b0 + x 0 * c0
    | 1 => linear_combination x 1 * hl' + y 1 * b0 + x 1 * c0
    | 2 => linear_combination x 2 * hl' + y 1 * b1 + y 0 * b2 + x 2 * c0
  have f0 := fy 0; have f1 := fy 1; have f2 := fy 2
  have v0 := vx 0; have v1 := vx 1; have v2 := vx 2
  simp only [hf, hv, hx, hy, bilinear4, Matrix.cons_val_zero, Matrix.cons_val_one, Matrix.cons_val_two,
    Matrix.head_cons, Matrix.tail_cons] at f0 f1 f2 v0 v1 v2
  refine ⟨![(u (0, 0) + u (1, 0) + u (2, 0) + u (3, 0)) / 4 - l * (X 0 1 + X 1 1 + X 2 1 + X 3 1) / 4,
    (u (0, 1) + u (1, 1) + u (2, 1) + u (3, 1)) / 4 + l * (X 0 0 + X 1 0 + X 2 0 + X 3 0) / 4], -l, ?_⟩
  funext p
  obtain ⟨i, j⟩ := p
  match i, j with
  | 0, 0 => simp [rigid2]; linear_combination (-f0 - f1 + f2) / 4
  | 1, 0 => simp [rigid2]; linear_combination (f0 - f1 - f2) / 4
  | 2, 0 => simp [rigid2]; linear_combination (f0 + f1 + f2) / 4
  | 3, 0 => simp [rigid2]; linear_combination (-f0 + f1 - f2) / 4
  | 0, 1 => simp [rigid2]; linear_combination (-v0 - v1 + v2) / 4
  | 1, 1 => simp [rigid2]; linear_combination (v0 - v1 - v2) / 4
  | 2, 1 => simp [rigid2]; linear_combination (v0 + v1 + v2) / 4
  | 3, 1 => simp [rigid2]; linear_combination (-v0 + v1 - v2) / 4

/-- **C34**: the quadrilateral with four points has no other zero-energy modes: its stiffness kills exactly the rigid
motions. -/
theorem C34_quad_kernel {X : Matrix (Fin 4) (Fin 2) ℝ} {E V t : ℝ}
    (hX : ∀ g : Fin IC.gauss4Square.N, 0 < (SF.square4.dNdr (IC.gauss4Square.points g) * X).det) (ht : 0 < t)
    (hE : 0 < E) (h1 : -1 < V) (h2 : 2 * V < 1) {Ke : Matrix (Fin 4 × Fin 2) (Fin 4 × Fin 2) ℝ}
    (h : planeStrainStiffness SF.square4 IC.gauss4Square X E V t = some Ke) (u : Fin 4 × Fin 2 → ℝ) :
    Ke *ᵥ u = 0 ↔ ∃ a w, u = rigid2 X a w := by
  constructor
  · intro hu
    refine quad4_rigid hX fun g => C34_zero_energy (fun g => ?_) ht hE h1 h2 h (u := u) (by rw [hu, dotProduct_zero]) g
    rw [measure2, gauss4_weights, gauss4_weights, mul_one, mul_one]
    exact hX g
  · rintro ⟨a, w, rfl⟩
    exact C33_planeStrain complete_square4 h a w

/-- A quadrilateral that is no parallelogram. -/
example : ∃ Ke, planeStrainStiffness SF.square4 IC.gauss4Square !![0, 0; 2, 0; 3, 4; 0, 1] 1 (1 / 4) 1 = some Ke ∧
    ∀ u, Ke *ᵥ u = 0 ↔ ∃ a w, u = rigid2 !![0, 0; 2, 0; 3, 4; 0, 1] a w := by
  have hX : ∀ g : Fin IC.gauss4Square.N,
      0 < (SF.square4.dNdr (IC.gauss4Square.points g) * !![(0 : ℝ), 0; 2, 0; 3, 4; 0, 1]).det := by
    intro g
    have h0 := abs_lt.1 (gauss4_coord g 0).2
    have h1 := abs_lt.1 (gauss4_coord g 1).2
    rw [det_fin_two]
    simp [SF.square4, Matrix.mul_apply, Fin.sum_univ_succ]
    nlinarith
  obtain ⟨Ke, h⟩ := Option.isSome_iff_exists.1 ((C32_planeStrain_defined (E := (1 : ℝ)) (V := 1 / 4) (t := 1)).2
    ⟨by norm_num, fun g => (hX g).ne'⟩)
  exact ⟨Ke, h, C34_quad_kernel hX (by norm_num) (by norm_num) (by norm_num) (by norm_num) h⟩

end Pansfem
