/-
Meshes of rectangles: links between nodes, and integrals over an element.
-/
import Verif.Lemmas.DecoupledStep
import Verif.Lemmas.SquareHeld4

noncomputable section

open Matrix

namespace Pansfem

/-! ### Links -/

section
variable (m : SquareMesh ℝ)

theorem square4_step {fixed : List (ℕ × ℕ)} {i j : ℕ} (hi : i < m.nx) (hj : j < m.ny) {a b : ℕ}
    (ha : a ∈ quad (squareNode m.ny) (· + 1) (i, j)) (hb : b ∈ quad (squareNode m.ny) (· + 1) (i, j))
    (h : Anchored (squareCells4 m) fixed a) : Anchored (squareCells4 m) fixed b :=
  .step (List.mem_map_of_mem (mem_grid.2 ⟨i, hi, j, hj, rfl⟩)) hb ha h

/-- A mesh with one given node is linked to it. -/
theorem square4_anchored (hx : 0 < m.nx) (hy : 0 < m.ny) {fixed : List (ℕ × ℕ)} {i₀ j₀ : ℕ} (hi₀ : i₀ ≤ m.nx)
    (hj₀ : j₀ ≤ m.ny) (h₀ : (squareNode m.ny i₀ j₀, 0) ∈ fixed) :
    ∀ n < (m.nx + 1) * (m.ny + 1), Anchored (squareCells4 m) fixed n := by
  have right : ∀ i < m.nx, ∀ j ≤ m.ny, (Anchored (squareCells4 m) fixed (squareNode m.ny i j) ↔
      Anchored (squareCells4 m) fixed (squareNode m.ny (i + 1) j)) := by
    intro i hi j hj
    by_cases hj' : j < m.ny
    · exact ⟨square4_step m hi hj' (by simp [quad]) (by simp [quad]), square4_step m hi hj' (by simp [quad]) (by simp [quad])⟩
    · obtain ⟨k, rfl⟩ : ∃ k, j = k + 1 := ⟨j - 1, by omega⟩
      exact ⟨square4_step m hi (j := k) (by omega) (by simp [quad]) (by simp [quad]),
        square4_step m hi (j := k) (by omega) (by simp [quad]) (by simp [quad])⟩
  have up : ∀ i ≤ m.nx, ∀ j < m.ny, (Anchored (squareCells4 m) fixed (squareNode m.ny i j) ↔
      Anchored (squareCells4 m) fixed (squareNode m.ny i (j + 1))) := by
    intro i hi j hj
    by_cases hi' : i < m.nx
    · exact ⟨square4_step m hi' hj (by simp [quad]) (by simp [quad]), square4_step m hi' hj (by simp [quad]) (by simp [quad])⟩
    · obtain ⟨k, rfl⟩ : ∃ k, i = k + 1 := ⟨i - 1, by omega⟩
      exact ⟨square4_step m (i := k) (by omega) hj (by simp [quad]) (by simp [quad]),
        square4_step m (i := k) (by omega) hj (by simp [quad]) (by simp [quad])⟩
  have row : ∀ j ≤ m.ny, ∀ i ≤ m.nx, (Anchored (squareCells4 m) fixed (squareNode m.ny 0 j) ↔
      Anchored (squareCells4 m) fixed (squareNode m.ny i j)) := by
    intro j hj i
    induction i with
    | zero => exact fun _ => Iff.rfl
    | succ i ih => exact fun hi => (ih (by omega)).trans (right i (by omega) j hj)
  have col : ∀ j ≤ m.ny, (Anchored (squareCells4 m) fixed (squareNode m.ny 0 0) ↔
      Anchored (squareCells4 m) fixed (squareNode m.ny 0 j)) := by
    intro j
    induction j with
    | zero => exact fun _ => Iff.rfl
    | succ j ih => exact fun hj => (ih (by omega)).trans (up 0 (by omega) j (by omega))
  have h00 := (col j₀ hj₀).2 ((row j₀ hj₀ i₀ hi₀).2 (.fixed h₀))
  intro n hn
  have hlt : n / (m.ny + 1) < m.nx + 1 := Nat.div_lt_of_lt_mul (by rw [mul_comm]; exact hn)
  have hmod : n % (m.ny + 1) < m.ny + 1 := Nat.mod_lt _ (by omega)
  have := (row _ (show n % (m.ny + 1) ≤ m.ny by omega) _ (show n / (m.ny + 1) ≤ m.nx by omega)).1
    ((col _ (show n % (m.ny + 1) ≤ m.ny by omega)).1 h00)
  rwa [show squareNode m.ny (n / (m.ny + 1)) (n % (m.ny + 1)) = n from Nat.div_add_mod n (m.ny + 1)] at this

end

/-! ### Integrals over a rectangle -/

/-- The nodes of a rectangle. -/
def rect (p q a b : ℝ) : Matrix (Fin 4) (Fin 2) ℝ := !![p, q; p + a, q; p + a, q + b; p, q + b]

section
variable {p q a b : ℝ}

theorem rect_det (r : Fin 2 → ℝ) : (SF.square4.dNdr r * rect p q a b).det = a * b / 4 := by
  rw [Matrix.det_fin_two]
  simp [SF.square4, rect, Matrix.mul_apply, Fin.sum_univ_succ]
  ring

theorem rect_measure (g : Fin IC.gauss4Square.N) : measure2 SF.square4 IC.gauss4Square (rect p q a b) g = a * b / 4 := by
  rw [measure2, rect_det, gauss4_weights, gauss4_weights, mul_one, mul_one]

theorem rect_grad (ha : a ≠ 0) (hb : b ≠ 0) (r : Fin 2 → ℝ) (f : Fin 4 → ℝ) :
    interp (gradAt SF.square4 (rect p q a b) r 0) f = (bilinear4 f 0 + bilinear4 f 2 * r 1) / (2 * a) ∧
    interp (gradAt SF.square4 (rect p q a b) r 1) f = (bilinear4 f 1 + bilinear4 f 2 * r 0) / (2 * b) := by
  have hd : (SF.square4.dNdr r * rect p q a b).det ≠ 0 := by
    rw [rect_det]
    positivity
  obtain ⟨h0, h1⟩ := gradAt_det SF.square4 (rect p q a b) r hd f
  have e : ∀ k, ∑ i, SF.square4.dNdr r 0 i * rect p q a b i k = ![a / 2, 0] k ∧
      ∑ i, SF.square4.dNdr r 1 i * rect p q a b i k = ![0, b / 2] k := by
    intro k
    rw [square4_dp, square4_dq]
    fin_cases k <;> constructor <;> simp [bilinear4, rect] <;> ring
  rw [rect_det, (e 0).1, (e 0).2, square4_dp, square4_dq] at h1
  rw [rect_det, (e 1).1, (e 1).2, square4_dp, square4_dq] at h0
  simp only [cons_val_zero, cons_val_one, zero_mul, sub_zero] at h0 h1
  unfold interp
  constructor
  · field_simp
    field_simp at h0
    linarith
  · field_simp
    field_simp at h1
    linarith

theorem inv_sqrt_three : (√3)⁻¹ * (√3)⁻¹ = (1 / 3 : ℝ) := by
  rw [← mul_inv, Real.mul_self_sqrt (by norm_num)]
  norm_num

/-- The integral of a bilinear polynomial in two shape functions. -/
theorem rect_integral (f : (Fin 2 → ℝ) → ℝ) {c0 c1 c2 c3 c4 c5 c6 c7 c8 : ℝ}
    (h : ∀ r, f r = c0 + c1 * r 0 + c2 * r 1 + c3 * (r 0 * r 1) + c4 * r 0 ^ 2 + c5 * r 1 ^ 2 + c6 * (r 0 ^ 2 * r 1) +
      c7 * (r 0 * r 1 ^ 2) + c8 * (r 0 ^ 2 * r 1 ^ 2)) :
    ∑ g, measure2 SF.square4 IC.gauss4Square (rect p q a b) g * f (IC.gauss4Square.points g) =
      a * b * (c0 + c4 / 3 + c5 / 3 + c8 / 9) := by
  simp only [rect_measure, h]
  show ∑ g : Fin 4, _ = _
  have hs := inv_sqrt_three
  simp only [Fin.sum_univ_four, IC.gauss4Square, div_eq_mul_inv, cons_val_zero, cons_val_one, cons_val, one_mul]
  generalize (√3)⁻¹ = s at hs
  have h2 : s ^ 2 = 1 / 3 := by rw [pow_two, hs]
  have h4 : s ^ 4 = 1 / 9 := by
    rw [show s ^ 4 = (s ^ 2) ^ 2 by ring, h2]
    norm_num
  ring_nf
  rw [h2, h4]
  ring

end

/-! ### Cells of the mesh -/

theorem squareNode_eq {ny i j i' j' : ℕ} (hj : j ≤ ny) (hj' : j' ≤ ny) :
    squareNode ny i j = squareNode ny i' j' ↔ i = i' ∧ j = j' :=
  ⟨fun h => squareNode_inj hj hj' h, fun h => by rw [h.1, h.2]⟩

theorem squareNode_lt {nx ny i j : ℕ} (hi : i ≤ nx) (hj : j ≤ ny) : squareNode ny i j < (nx + 1) * (ny + 1) := by
  unfold squareNode
  calc (ny + 1) * i + j < (ny + 1) * i + (ny + 1) := by omega
    _ = (ny + 1) * (i + 1) := by ring
    _ ≤ (ny + 1) * (nx + 1) := Nat.mul_le_mul_left _ (by omega)
    _ = _ := by ring

section
variable (m : SquareMesh ℝ)

theorem cell_coords {i j : ℕ} (hi : i < m.nx) (hj : j < m.ny) :
    nodeCoords (asVectors (squareNodes4 m)) (quad (squareNode m.ny) (· + 1) (i, j)) =
      rect (m.x * ((i : ℝ) / m.nx)) (m.y * ((j : ℝ) / m.ny)) (m.x / m.nx) (m.y / m.ny) := by
  have hn : ∀ i' j', i' ≤ m.nx → j' ≤ m.ny → ∀ k : Fin 2, (nodal (asVectors (squareNodes4 m)) (squareNode m.ny i' j') k).getD 0 =
      ![m.x * ((i' : ℝ) / m.nx), m.y * ((j' : ℝ) / m.ny)] k := by
    intro i' j' hi' hj' k
    obtain ⟨h1, h2⟩ := coord_asVectors (squareNodes4_at m hi' hj')
    match k with
    | 0 => exact h1
    | 1 => exact h2
  ext r k
  unfold nodeCoords
  match r with
  | 0 =>
    refine (hn i j (by omega) (by omega) k).trans ?_
    fin_cases k <;> simp [rect]
  | 1 =>
    refine (hn (i + 1) j (by omega) (by omega) k).trans ?_
    fin_cases k <;> simp [rect] <;> ring
  | 2 =>
    refine (hn (i + 1) (j + 1) (by omega) (by omega) k).trans ?_
    fin_cases k <;> simp [rect] <;> ring
  | 3 =>
    refine (hn i (j + 1) (by omega) (by omega) k).trans ?_
    fin_cases k <;> simp [rect] <;> ring

theorem cell_comp (i j : ℕ) (w : ℕ → ℕ → ℝ) (a : ℕ) : nodeComp (quad (squareNode m.ny) (· + 1) (i, j)) w a =
    ![w (squareNode m.ny i j) a, w (squareNode m.ny (i + 1) j) a, w (squareNode m.ny (i + 1) (j + 1)) a,
      w (squareNode m.ny i (j + 1)) a] := by
  funext r
  match r with
  | 0 => rfl
  | 1 => rfl
  | 2 => rfl
  | 3 => rfl

end

/-! ### Convection and divergence next to the lid -/

section
variable {P : DecoupledProgram} {r : List ℕ} {p q a b : ℝ}

/-- Convection and viscosity for a velocity along the lid that grows linearly in the element. -/
theorem cell_shear (hr : nodeCoords P.x r = rect p q a b) (ha : a ≠ 0) (hb : b ≠ 0) {w u : ℕ → ℕ → ℝ} {t : ℝ}
    (h0 : nodeComp r u 0 = ![0, 0, t, t]) (h1 : nodeComp r u 1 = 0) :
    (∑ g, measure2 SF.square4 IC.gauss4Square (nodeCoords P.x r) g * ∑ c : Fin 2, (P.rho * valueAt r w g c *
      ∑ k : Fin 2, valueAt r u g k * derivAt P r u g k c + P.mu * ∑ k : Fin 2, derivAt P r w g k c * derivAt P r u g k c)) =
      P.mu * t * a / (2 * b) * bilinear4 (nodeComp r w 0) 1 := by
  have d0 : ∀ g, derivAt P r u g 0 0 = 0 := by
    intro g
    rw [derivAt, hr, (rect_grad ha hb _ _).1, h0]
    simp [bilinear4]
  have d1 : ∀ g, derivAt P r u g 1 0 = t / b := by
    intro g
    rw [derivAt, hr, (rect_grad ha hb _ _).2, h0]
    simp [bilinear4]
    field_simp
    ring
  have d2 : ∀ g (k : Fin 2), derivAt P r u g k 1 = 0 := fun g k => by rw [derivAt, h1]; simp [interp]
  have v1 : ∀ g, valueAt r u g 1 = 0 := fun g => by rw [valueAt, h1]; simp [interp]
  obtain ⟨f, hf⟩ : ∃ f : (Fin 2 → ℝ) → ℝ, f = fun ρ => P.mu * ((bilinear4 (nodeComp r w 0) 1 +
      bilinear4 (nodeComp r w 0) 2 * ρ 0) / (2 * b) * (t / b)) := ⟨_, rfl⟩
  have hg : ∀ g, (∑ c : Fin 2, (P.rho * valueAt r w g c * ∑ k : Fin 2, valueAt r u g k * derivAt P r u g k c +
      P.mu * ∑ k : Fin 2, derivAt P r w g k c * derivAt P r u g k c)) =
      f (IC.gauss4Square.points g) := by
    intro g
    rw [hf]
    have e : derivAt P r w g 1 0 = (bilinear4 (nodeComp r w 0) 1 + bilinear4 (nodeComp r w 0) 2 *
        IC.gauss4Square.points g 0) / (2 * b) := by
      rw [derivAt, hr, (rect_grad ha hb _ _).2]
    simp only [Fin.sum_univ_two, Fin.val_zero, Fin.val_one, d0, d1, d2, v1, e]
    ring
  rw [Finset.sum_congr rfl fun g _ => by rw [hg g], hr]
  refine (rect_integral f (c0 := P.mu * t * bilinear4 (nodeComp r w 0) 1 / (2 * b * b))
    (c1 := P.mu * t * bilinear4 (nodeComp r w 0) 2 / (2 * b * b))
    (c2 := 0) (c3 := 0) (c4 := 0) (c5 := 0) (c6 := 0) (c7 := 0) (c8 := 0) fun ρ => ?_).trans ?_
  · rw [hf]
    field_simp
    ring
  · field_simp
    ring

/-- The divergence in the upper left element, weighted by the shape function of the corner. -/
theorem cell_divergence (hr : nodeCoords P.x r = rect p q a b) (ha : a ≠ 0) (hb : b ≠ 0) {w v : ℕ → ℕ → ℝ} {s t : ℝ}
    (hw : nodeComp r w 0 = ![0, 0, 0, 1]) (h0 : nodeComp r v 0 = ![0, s, 1, 1]) (h1 : nodeComp r v 1 = ![0, t, 0, 0]) :
    (∑ g, measure2 SF.square4 IC.gauss4Square (nodeCoords P.x r) g *
      (valueAt r w g 0 * ∑ k : Fin 2, derivAt P r v g k k)) = (b * s - a * t) / 12 := by
  obtain ⟨f, hf⟩ : ∃ f : (Fin 2 → ℝ) → ℝ, f = fun ρ => 1 / 4 * (1 - ρ 0) * (1 + ρ 1) *
      (s * (1 - ρ 1) / (2 * a) - t * (1 + ρ 0) / (2 * b)) := ⟨_, rfl⟩
  have hg : ∀ g, valueAt r w g 0 * ∑ k : Fin 2, derivAt P r v g k k =
      f (IC.gauss4Square.points g) := by
    intro g
    rw [hf]
    rw [Fin.sum_univ_two, valueAt, derivAt, derivAt, hr, (rect_grad ha hb _ _).1, (rect_grad ha hb _ _).2, hw]
    simp only [Fin.val_zero, Fin.val_one, h0, h1]
    simp [interp, Fin.sum_univ_succ, bilinear4, SF.square4]
    left
    ring
  rw [Finset.sum_congr rfl fun g _ => by rw [hg g], hr]
  refine (rect_integral f (c0 := s / (8 * a) - t / (8 * b)) (c1 := - s / (8 * a)) (c2 := - t / (8 * b)) (c3 := 0)
    (c4 := t / (8 * b)) (c5 := - s / (8 * a)) (c6 := t / (8 * b)) (c7 := s / (8 * a)) (c8 := 0) fun ρ => ?_).trans ?_
  · rw [hf]
    field_simp
    ring
  · field_simp
    ring

end

end Pansfem
