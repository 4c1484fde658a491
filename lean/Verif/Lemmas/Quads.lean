/-
Meshes of convex quadrilaterals: the elements with four nodes have positive Jacobians there.
-/
import Verif.Props.C81_Homogenization
import Verif.Props.C52_SquareMesh
import Verif.Props.C88_WeakForm
import Verif.Lemmas.ProgramElement
import Verif.Spec.ProgramDesign

namespace Pansfem

open Matrix

/-- The coordinates of the nodes of an element. -/
def nodeCoords (x : List (Vec ℝ)) (e : List ℕ) : Matrix (Fin 4) (Fin 2) ℝ :=
  fun i k => (nodal x (e[(i : ℕ)]?.getD 0) k).getD 0

theorem gather_coords {x : List (Vec ℝ)} {e : List ℕ} {X : Matrix (Fin 4) (Fin 2) ℝ} (h : gather x e 4 2 = some X) :
    X = nodeCoords x e := by
  ext i k
  have hl := gather_length h
  have hi : (i : ℕ) < e.length := by rw [hl]; exact i.2
  have h1 := gather_entry h i k
  rw [List.getElem?_eq_getElem hi] at h1
  unfold nodeCoords
  rw [List.getElem?_eq_getElem hi, Option.getD_some, show nodal x e[(i : ℕ)] k = _ from h1]
  rfl

/-- The nodes of a mesher as vectors. -/
def asVectors (nodes : List (ℝ × ℝ)) : List (Vec ℝ) := nodes.map fun p => ⟨[p.1, p.2]⟩

theorem asVectors_at {nodes : List (ℝ × ℝ)} {m : ℕ} {p : ℝ × ℝ} (h : nodes[m]? = some p) :
    nodal (asVectors nodes) m 0 = some p.1 ∧ nodal (asVectors nodes) m 1 = some p.2 := by
  simp [nodal, asVectors, h, Vec.at?, Vec.size]

/-- The Jacobian of a quadrilateral is the mean of the turns at its corners, weighted by the shape functions. -/
theorem jacobian_turns (p q r s : ℝ × ℝ) (c : Fin 2 → ℝ) :
    (SF.square4.dNdr c * !![p.1, p.2; q.1, q.2; r.1, r.2; s.1, s.2]).det =
      (SF.square4.N c 0 * turn s p q + SF.square4.N c 1 * turn p q r + SF.square4.N c 2 * turn q r s +
        SF.square4.N c 3 * turn r s p) / 4 := by
  rw [Matrix.det_fin_two]
  simp [SF.square4, Matrix.mul_apply, Fin.sum_univ_succ, turn]
  ring

theorem gauss4_weights (g : Fin IC.gauss4Square.N) (k : Fin 2) : IC.gauss4Square.weights g k = 1 := by
  change Fin 4 at g
  fin_cases g <;> fin_cases k <;> rfl

/-- The elements have four existing nodes and positive measures. -/
theorem quads_parts {x : List (Vec ℝ)} {elements : List (List ℕ)} (h : Quads x elements) :
    ∀ e ∈ elements, e.length = 4 ∧ (∀ m ∈ e, ∀ j < 2, (nodal x m j).isSome) ∧
      ∀ g, 0 < measure2 SF.square4 IC.gauss4Square (nodeCoords x e) g := by
  intro e he
  obtain ⟨X, hX, hg⟩ := h e he
  have hl := gather_length hX
  refine ⟨hl, fun m hm j hj => ?_, fun g => ?_⟩
  · obtain ⟨i, hi, rfl⟩ := List.mem_iff_getElem.1 hm
    have := gather_entry hX ⟨i, by omega⟩ ⟨j, hj⟩
    simp only [List.getElem?_eq_getElem hi, Option.getD_some] at this
    rw [this]; rfl
  · rw [measure2, gauss4_weights, gauss4_weights, ← gather_coords hX, mul_one, mul_one]
    exact hg g

/-- Convex quadrilaterals have positive Jacobians. -/
theorem convex_quads {nodes : List (ℝ × ℝ)} {elements : List (List ℕ)} (h : ∀ e ∈ elements, ConvexQuad nodes e) :
    Quads (asVectors nodes) elements := by
  intro e he
  obtain ⟨a, b, c, d, p, q, r, s, rfl, ha, hb, hc, hd, t1, t2, t3, t4⟩ := h e he
  have hc' : ∀ m ∈ [a, b, c, d], ∀ j : Fin 2, (nodal (asVectors nodes) m j).isSome := by
    intro m hm j
    have : ∃ v, nodes[m]? = some v := by
      simp only [List.mem_cons, List.not_mem_nil, or_false] at hm
      rcases hm with rfl | rfl | rfl | rfl
      exacts [⟨_, ha⟩, ⟨_, hb⟩, ⟨_, hc⟩, ⟨_, hd⟩]
    obtain ⟨v, hv⟩ := this
    have h2 := asVectors_at hv
    fin_cases j
    · simp [h2.1]
    · simp [h2.2]
  obtain ⟨X, hX'⟩ := Option.isSome_iff_exists.1 (gather_isSome (n := 4) rfl hc')
  refine ⟨X, hX', fun g => ?_⟩
  · have hX : nodeCoords (asVectors nodes) [a, b, c, d] = !![p.1, p.2; q.1, q.2; r.1, r.2; s.1, s.2] := by
      ext i k
      fin_cases i <;> fin_cases k <;>
        simp [nodeCoords, asVectors_at ha, asVectors_at hb, asVectors_at hc, asVectors_at hd]
    rw [gather_coords hX', hX, jacobian_turns]
    have h0 := abs_lt.1 (gauss4_coord g 0).2
    have h1 := abs_lt.1 (gauss4_coord g 1).2
    have n0 : 0 < (SF.square4 : SF ℝ 2 4).N (IC.gauss4Square.points g) 0 := by
      simp [SF.square4]; exact mul_pos (by linarith) (by linarith)
    have n1 : 0 < (SF.square4 : SF ℝ 2 4).N (IC.gauss4Square.points g) 1 := by
      simp [SF.square4]; exact mul_pos (by linarith) (by linarith)
    have n2 : 0 < (SF.square4 : SF ℝ 2 4).N (IC.gauss4Square.points g) 2 := by
      simp [SF.square4]; exact mul_pos (by linarith) (by linarith)
    have n3 : 0 < (SF.square4 : SF ℝ 2 4).N (IC.gauss4Square.points g) 3 := by
      simp [SF.square4]; exact mul_pos (by linarith) (by linarith)
    have := mul_pos n0 t4
    have := mul_pos n1 t1
    have := mul_pos n2 t2
    have := mul_pos n3 t3
    linarith

theorem regular_of_measure {X : Matrix (Fin 4) (Fin 2) ℝ} (h : ∀ g, 0 < measure2 SF.square4 IC.gauss4Square X g) :
    Regular SF.square4 IC.gauss4Square X := by
  intro g hg
  have := h g
  rw [measure2, hg] at this
  simp at this

/-- A nodal field whose interpolation vanishes at the four integration points is zero. -/
theorem square4_zero {w : Fin 4 → ℝ}
    (h : ∀ g, interp ((SF.square4 : SF ℝ 2 4).N (IC.gauss4Square.points g)) w = 0) : w = 0 := by
  have h3 : (√3 : ℝ) ^ 2 = 3 := Real.sq_sqrt (by norm_num)
  have hp : (0 : ℝ) < √3 := Real.sqrt_pos.2 (by norm_num)
  have hi : (√3)⁻¹ * (√3)⁻¹ = (1 / 3 : ℝ) := by
    rw [← mul_inv, ← sq, h3]; norm_num
  have hs : (√3)⁻¹ ≠ (0 : ℝ) := (inv_pos.2 hp).ne'
  have g0 := h (0 : Fin 4)
  have g1 := h (1 : Fin 4)
  have g2 := h (2 : Fin 4)
  have g3 := h (3 : Fin 4)
  simp [interp, SF.square4, IC.gauss4Square, Fin.sum_univ_succ, div_eq_mul_inv] at g0 g1 g2 g3
  set s : ℝ := (√3)⁻¹
  have a0 : w 0 + w 1 + w 2 + w 3 = 0 := by linarith
  have a1 : s * (-w 0 + w 1 + w 2 - w 3) = 0 := by linarith
  have a2 : s * (-w 0 - w 1 + w 2 + w 3) = 0 := by linarith
  have a3 : s * s * (w 0 - w 1 + w 2 - w 3) = 0 := by linarith
  have b1 := (mul_eq_zero.1 a1).resolve_left hs
  have b2 := (mul_eq_zero.1 a2).resolve_left hs
  have b3 := (mul_eq_zero.1 a3).resolve_left (mul_ne_zero hs hs)
  funext i
  fin_cases i <;> simp <;> linarith

end Pansfem
