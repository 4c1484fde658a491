/-
The driven cavity on a grid of rectangles with eight velocity nodes and four pressure nodes: integrals over the cells, the
velocities that have no gradient, and the pressures that do no work.
-/
import Verif.Lemmas.Rect8
import Verif.Spec.ProgramStokes
import Verif.Props.C128_Determined

noncomputable section

open Matrix

namespace Pansfem

/-! ### Integrals over a rectangle -/

section
variable {p q a b : ℝ}

theorem sqrt35_mul : √(3 / 5) * √(3 / 5) = (3 / 5 : ℝ) := Real.mul_self_sqrt (by norm_num)

theorem rect_measure9 (g : Fin IC.gauss9Square.N) : measure2 SF.square4 IC.gauss9Square (rect p q a b) g =
    a * b / 4 * (IC.gauss9Square : IC ℝ 2).weights g 0 * (IC.gauss9Square : IC ℝ 2).weights g 1 := by
  rw [measure2, rect_det]

/-- The derivatives of velocities on a rectangle. -/
theorem rect_grad8 (ha : a ≠ 0) (hb : b ≠ 0) (r : Fin 2 → ℝ) (f : Fin 8 → ℝ) :
    interp (gradMix SF.square8 SF.square4 (rect p q a b) r 0) f = 2 / a * ∑ i, SF.square8.dNdr r 0 i * f i ∧
    interp (gradMix SF.square8 SF.square4 (rect p q a b) r 1) f = 2 / b * ∑ i, SF.square8.dNdr r 1 i * f i := by
  have hJ : SF.square4.dNdr r * rect p q a b = !![a / 2, 0; 0, b / 2] := by
    ext i j
    fin_cases i <;> fin_cases j <;> simp [SF.square4, rect, Matrix.mul_apply, Fin.sum_univ_succ] <;> ring
  have hI : (!![a / 2, 0; 0, b / 2] : Matrix (Fin 2) (Fin 2) ℝ)⁻¹ = !![2 / a, 0; 0, 2 / b] := by
    refine Matrix.inv_eq_right_inv ?_
    ext i j
    fin_cases i <;> fin_cases j <;> simp [Matrix.mul_apply, Fin.sum_univ_two] <;> field_simp
  unfold gradMix interp
  rw [hJ, hI]
  constructor <;>
  · rw [Finset.mul_sum]
    refine Finset.sum_congr rfl fun i _ => ?_
    simp [Matrix.mul_apply, Fin.sum_univ_two]
    ring

/-- The integral of a polynomial of degree three in each variable. -/
theorem rect_integral9 (f : (Fin 2 → ℝ) → ℝ) {c : Fin 4 → Fin 4 → ℝ}
    (h : ∀ r, f r = ∑ i : Fin 4, ∑ j : Fin 4, c i j * (r 0 ^ (i : ℕ) * r 1 ^ (j : ℕ))) :
    ∑ g, measure2 SF.square4 IC.gauss9Square (rect p q a b) g * f (IC.gauss9Square.points g) =
      a * b * (c 0 0 + c 2 0 / 3 + c 0 2 / 3 + c 2 2 / 9) := by
  have hs := sqrt35_mul
  simp only [rect_measure9, h]
  show ∑ g : Fin 9, _ = _
  simp only [Fin.sum_univ_succ (n := 8), Fin.sum_univ_eight, Fin.sum_univ_four, IC.gauss9Square]
  generalize √(3 / 5) = s at hs ⊢
  simp
  have h2 : s ^ 2 = 3 / 5 := by rw [pow_two, hs]
  have h4 : s ^ 4 = 9 / 25 := by
    rw [show s ^ 4 = (s ^ 2) ^ 2 by ring, h2]
    norm_num
  ring_nf
  simp only [h2, h4]
  ring

/-- The integral of the product of a bilinear polynomial and a divergence. -/
theorem rect_product (f : (Fin 2 → ℝ) → ℝ) {Q0 Qp Qq Qr D00 D01 D02 D10 D11 D20 : ℝ}
    (h : ∀ r, f r = (Q0 + Qp * r 0 + Qq * r 1 + Qr * (r 0 * r 1)) *
      (D00 + D01 * r 1 + D02 * r 1 ^ 2 + D10 * r 0 + D11 * (r 0 * r 1) + D20 * r 0 ^ 2)) :
    ∑ g, measure2 SF.square4 IC.gauss9Square (rect p q a b) g * f (IC.gauss9Square.points g) =
      a * b * (Q0 * D00 + (Q0 * D20 + Qp * D10) / 3 + (Q0 * D02 + Qq * D01) / 3 + Qr * D11 / 9) := by
  rw [rect_integral9 f (c := ![![Q0 * D00, Q0 * D01 + Qq * D00, Q0 * D02 + Qq * D01, Qq * D02],
    ![Q0 * D10 + Qp * D00, Q0 * D11 + Qp * D01 + Qq * D10 + Qr * D00, Qp * D02 + Qq * D11 + Qr * D01, Qr * D02],
    ![Q0 * D20 + Qp * D10, Qq * D20 + Qp * D11 + Qr * D10, Qr * D11, 0], ![Qp * D20, Qr * D20, 0, 0]]) fun r => by
      rw [h]
      simp [Fin.sum_univ_four]
      ring]
  simp

end

/-- Four times the integral of `q` times the derivative of `u` by the first coordinate over the reference square, divided by its
area. -/
def fluxU (q : Fin 4 → ℝ) (u : Fin 8 → ℝ) : ℝ :=
  (q 0 + q 1 + q 2 + q 3) * (serendipity u 1 0 + serendipity u 1 2 / 3) + bilinear4 q 0 * (2 * serendipity u 2 0) / 3 +
    bilinear4 q 1 * serendipity u 1 1 / 3 + bilinear4 q 2 * (2 * serendipity u 2 1) / 9

/-- The same with the derivative by the second coordinate. -/
def fluxV (q : Fin 4 → ℝ) (v : Fin 8 → ℝ) : ℝ :=
  (q 0 + q 1 + q 2 + q 3) * (serendipity v 0 1 + serendipity v 2 1 / 3) + bilinear4 q 0 * serendipity v 1 1 / 3 +
    bilinear4 q 1 * (2 * serendipity v 0 2) / 3 + bilinear4 q 2 * (2 * serendipity v 1 2) / 9

/-! ### Cells -/

/-- The cell `(i, j)`: nodes of the velocities, nodes of the pressure. -/
def cell8 (nx ny i j : ℕ) : List ℕ × List ℕ :=
  ([cornerNo ny i j, cornerNo ny (i + 1) j, cornerNo ny (i + 1) (j + 1), cornerNo ny i (j + 1),
    levelNo nx ny i j, uprightNo nx ny (i + 1) j, levelNo nx ny i (j + 1), uprightNo nx ny i j],
   [cornerNo ny i j, cornerNo ny (i + 1) j, cornerNo ny (i + 1) (j + 1), cornerNo ny i (j + 1)])

/-- Velocity `a` at the nodes of a cell. -/
def cellVel (nx ny i j : ℕ) (w : ℕ → ℕ → ℝ) (a : ℕ) : Fin 8 → ℝ :=
  ![w (cornerNo ny i j) a, w (cornerNo ny (i + 1) j) a, w (cornerNo ny (i + 1) (j + 1)) a, w (cornerNo ny i (j + 1)) a,
    w (levelNo nx ny i j) a, w (uprightNo nx ny (i + 1) j) a, w (levelNo nx ny i (j + 1)) a, w (uprightNo nx ny i j) a]

/-- The pressure at the nodes of a cell. -/
def cellPres (ny i j : ℕ) (w : ℕ → ℕ → ℝ) : Fin 4 → ℝ :=
  ![w (cornerNo ny i j) 2, w (cornerNo ny (i + 1) j) 2, w (cornerNo ny (i + 1) (j + 1)) 2, w (cornerNo ny i (j + 1)) 2]

theorem cell8_vel (nx ny i j : ℕ) (w : ℕ → ℕ → ℝ) (a : ℕ) :
    (fun l : Fin 8 => w ((cell8 nx ny i j).1[(l : ℕ)]?.getD 0) a) = cellVel nx ny i j w a := by
  funext l
  fin_cases l <;> rfl

theorem cell8_pres (nx ny i j : ℕ) (w : ℕ → ℕ → ℝ) :
    (fun l : Fin 4 => w ((cell8 nx ny i j).2[(l : ℕ)]?.getD 0) 2) = cellPres ny i j w := by
  funext l
  fin_cases l <;> rfl

namespace Cavity8
variable {nx ny : ℕ} {value : ℝ} {x : List (Vec ℝ)} {elements : List (List ℕ × List ℕ)} {bc : List ((ℕ × ℕ) × ℝ)}

theorem mem (h : Cavity8 nx ny value x elements bc) {e : List ℕ × List ℕ} :
    e ∈ elements ↔ ∃ i < nx, ∃ j < ny, cell8 nx ny i j = e := by
  rw [h.cells]
  simp only [List.mem_map, mem_grid]
  exact ⟨fun ⟨c, ⟨i, hi, j, hj, hc⟩, he⟩ => ⟨i, hi, j, hj, by rw [← he, ← hc]; rfl⟩,
    fun ⟨i, hi, j, hj, he⟩ => ⟨(i, j), ⟨i, hi, j, hj, rfl⟩, he⟩⟩

theorem coords (h : Cavity8 nx ny value x elements bc) {i j : ℕ} (hi : i < nx) (hj : j < ny) :
    (steadyMesh x elements).coords (cell8 nx ny i j) = rect ((i : ℝ) / nx) ((j : ℝ) / ny) (1 / nx) (1 / ny) := by
  have hn : ∀ i' ≤ nx, ∀ j' ≤ ny, ∀ k : Fin 2, (nodal x (cornerNo ny i' j') k).getD 0 = ![(i' : ℝ) / nx, (j' : ℝ) / ny] k := by
    intro i' hi' j' hj' k
    rw [nodal, h.corner i' hi' j' hj']
    fin_cases k <;> rfl
  ext l k
  show (nodal x ((cell8 nx ny i j).2[(l : ℕ)]?.getD 0) k).getD 0 = _
  fin_cases l
  · refine (hn i hi.le j hj.le k).trans ?_
    fin_cases k <;> rfl
  · refine (hn (i + 1) hi j hj.le k).trans ?_
    fin_cases k <;> simp [rect, add_div]
  · refine (hn (i + 1) hi (j + 1) hj k).trans ?_
    fin_cases k <;> simp [rect, add_div]
  · refine (hn i hi.le (j + 1) hj k).trans ?_
    fin_cases k <;> simp [rect, add_div]

/-- The derivatives of a velocity at the integration points of a cell. -/
theorem dvel (h : Cavity8 nx ny value x elements bc) {i j : ℕ} (hi : i < nx) (hj : j < ny) (w : ℕ → ℕ → ℝ)
    (g : Fin IC.gauss9Square.N) (a : ℕ) :
    (steadyMesh x elements).dvel (cell8 nx ny i j) w g 0 a =
      2 * nx * ∑ l, SF.square8.dNdr (IC.gauss9Square.points g) 0 l * cellVel nx ny i j w a l ∧
    (steadyMesh x elements).dvel (cell8 nx ny i j) w g 1 a =
      2 * ny * ∑ l, SF.square8.dNdr (IC.gauss9Square.points g) 1 l * cellVel nx ny i j w a l := by
  have h1 : (1 / (nx : ℝ)) ≠ 0 := by
    have : (0 : ℝ) < nx := by exact_mod_cast (by omega : 0 < nx)
    positivity
  have h2 : (1 / (ny : ℝ)) ≠ 0 := by
    have : (0 : ℝ) < ny := by exact_mod_cast (by omega : 0 < ny)
    positivity
  obtain ⟨g1, g2⟩ := rect_grad8 (p := (i : ℝ) / nx) (q := (j : ℝ) / ny) h1 h2 (IC.gauss9Square.points g) (cellVel nx ny i j w a)
  constructor
  · unfold FlowMesh.dvel
    rw [h.coords hi hj, cell8_vel]
    refine g1.trans ?_
    rw [div_div_eq_mul_div, div_one]
  · unfold FlowMesh.dvel
    rw [h.coords hi hj, cell8_vel]
    refine g2.trans ?_
    rw [div_div_eq_mul_div, div_one]

/-- The pressure at the integration points of a cell. -/
theorem pres {i j : ℕ} (w : ℕ → ℕ → ℝ) (g : Fin IC.gauss9Square.N) :
    (steadyMesh x elements).pres (cell8 nx ny i j) w g =
      ((cellPres ny i j w 0 + cellPres ny i j w 1 + cellPres ny i j w 2 + cellPres ny i j w 3) +
        bilinear4 (cellPres ny i j w) 0 * IC.gauss9Square.points g 0 + bilinear4 (cellPres ny i j w) 1 * IC.gauss9Square.points g 1 +
        bilinear4 (cellPres ny i j w) 2 * (IC.gauss9Square.points g 0 * IC.gauss9Square.points g 1)) / 4 := by
  unfold FlowMesh.pres
  rw [cell8_pres]
  show interp (SF.square4.N (IC.gauss9Square.points g)) _ = _
  simp only [interp, SF.square4, bilinear4, Fin.sum_univ_four]
  simp
  ring

theorem positive (h : Cavity8 nx ny value x elements bc) : (steadyMesh x elements).Positive := by
  intro e he g
  obtain ⟨i, hi, j, hj, rfl⟩ := h.mem.1 he
  rw [h.coords hi hj]
  refine (show (0 : ℝ) < _ from ?_).trans_eq (rect_measure9 g).symm
  have h1 : (0 : ℝ) < nx := by exact_mod_cast (by omega : 0 < nx)
  have h2 : (0 : ℝ) < ny := by exact_mod_cast (by omega : 0 < ny)
  have h3 := (gauss9_weights g).1
  have h4 := (gauss9_weights g).2
  positivity

/-- The work of the pressure `q` on the velocities `w`. -/
theorem expand (h : Cavity8 nx ny value x elements bc) (q w : ℕ → ℕ → ℝ) :
    (steadyMesh x elements).expand q w = ∑ i ∈ Finset.range nx, ∑ j ∈ Finset.range ny,
      (fluxU (cellPres ny i j q) (cellVel nx ny i j w 0) / (2 * ny) + fluxV (cellPres ny i j q) (cellVel nx ny i j w 1) / (2 * nx)) := by
  unfold FlowMesh.expand FlowMesh.integral
  rw [show (steadyMesh x elements).elements = _ from h.cells, List.map_map, map_grid, sum_grid]
  refine Finset.sum_congr rfl fun i hi => Finset.sum_congr rfl fun j hj => ?_
  have hi := Finset.mem_range.1 hi
  have hj := Finset.mem_range.1 hj
  have h1 : (0 : ℝ) < nx := by exact_mod_cast (by omega : 0 < nx)
  have h2 : (0 : ℝ) < ny := by exact_mod_cast (by omega : 0 < ny)
  show ∑ g, measure2 SF.square4 IC.gauss9Square ((steadyMesh x elements).coords (cell8 nx ny i j)) g *
    ((steadyMesh x elements).pres (cell8 nx ny i j) q g * ∑ k : Fin 2, (steadyMesh x elements).dvel (cell8 nx ny i j) w g k k) = _
  rw [h.coords hi hj]
  obtain ⟨F, hF⟩ : ∃ F : (Fin 2 → ℝ) → ℝ, F =
      (fun r : Fin 2 → ℝ => ((cellPres ny i j q 0 + cellPres ny i j q 1 + cellPres ny i j q 2 + cellPres ny i j q 3) +
        bilinear4 (cellPres ny i j q) 0 * r 0 + bilinear4 (cellPres ny i j q) 1 * r 1 +
        bilinear4 (cellPres ny i j q) 2 * (r 0 * r 1)) / 4 *
        (2 * nx * (serendipity (cellVel nx ny i j w 0) 1 0 + serendipity (cellVel nx ny i j w 0) 1 1 * r 1 +
            serendipity (cellVel nx ny i j w 0) 1 2 * r 1 ^ 2 +
            (2 * serendipity (cellVel nx ny i j w 0) 2 0 + 2 * serendipity (cellVel nx ny i j w 0) 2 1 * r 1) * r 0) +
          2 * ny * (serendipity (cellVel nx ny i j w 1) 0 1 + 2 * serendipity (cellVel nx ny i j w 1) 0 2 * r 1 +
            (serendipity (cellVel nx ny i j w 1) 1 1 + 2 * serendipity (cellVel nx ny i j w 1) 1 2 * r 1) * r 0 +
            serendipity (cellVel nx ny i j w 1) 2 1 * r 0 ^ 2))) := ⟨_, rfl⟩
  have hs : ∀ g : Fin IC.gauss9Square.N, (steadyMesh x elements).pres (cell8 nx ny i j) q g *
      ∑ k : Fin 2, (steadyMesh x elements).dvel (cell8 nx ny i j) w g k k = F (IC.gauss9Square.points g) := by
    intro g
    rw [hF]
    have hr : IC.gauss9Square.points g = ![(IC.gauss9Square : IC ℝ 2).points g 0, IC.gauss9Square.points g 1] := by
      ext k
      fin_cases k <;> rfl
    rw [pres, Fin.sum_univ_two]
    show _ * ((steadyMesh x elements).dvel (cell8 nx ny i j) w g 0 0 + (steadyMesh x elements).dvel (cell8 nx ny i j) w g 1 1) = _
    rw [(h.dvel hi hj w g 0).1, (h.dvel hi hj w g 1).2]
    rw [hr, square8_dp, square8_dq]
    simp only [cons_val_zero, cons_val_one]
  simp only [hs]
  refine (rect_product (p := (i : ℝ) / nx) (q := (j : ℝ) / ny) (a := 1 / nx) (b := 1 / ny) F
    (Q0 := (cellPres ny i j q 0 + cellPres ny i j q 1 + cellPres ny i j q 2 + cellPres ny i j q 3) / 4)
    (Qp := bilinear4 (cellPres ny i j q) 0 / 4) (Qq := bilinear4 (cellPres ny i j q) 1 / 4)
    (Qr := bilinear4 (cellPres ny i j q) 2 / 4)
    (D00 := 2 * nx * serendipity (cellVel nx ny i j w 0) 1 0 + 2 * ny * serendipity (cellVel nx ny i j w 1) 0 1)
    (D01 := 2 * nx * serendipity (cellVel nx ny i j w 0) 1 1 + 2 * ny * (2 * serendipity (cellVel nx ny i j w 1) 0 2))
    (D02 := 2 * nx * serendipity (cellVel nx ny i j w 0) 1 2)
    (D10 := 2 * nx * (2 * serendipity (cellVel nx ny i j w 0) 2 0) + 2 * ny * serendipity (cellVel nx ny i j w 1) 1 1)
    (D11 := 2 * nx * (2 * serendipity (cellVel nx ny i j w 0) 2 1) + 2 * ny * (2 * serendipity (cellVel nx ny i j w 1) 1 2))
    (D20 := 2 * ny * serendipity (cellVel nx ny i j w 1) 2 1) fun r => by rw [hF]; ring).trans ?_
  unfold fluxU fluxV
  field_simp
  ring

end Cavity8

end Pansfem
