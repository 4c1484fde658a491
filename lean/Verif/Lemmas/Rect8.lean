/-
Rectangles with eight nodes: no strain at the nine integration points means rigid motion.
-/
import Verif.Spec.ProgramLattice
import Verif.Lemmas.ProgramVibration

noncomputable section

open Matrix

namespace Pansfem

/-- The nodes of the reference square. -/
def ref8 : Fin 8 → Fin 2 → ℝ :=
  ![![-1, -1], ![1, -1], ![1, 1], ![-1, 1], ![0, -1], ![1, 0], ![0, 1], ![-1, 0]]

/-- The element is the rectangle with centre `o` and half sides `h`. -/
def Rect8 (x : List (Vec ℝ)) (e : List ℕ) (o h : Fin 2 → ℝ) : Prop :=
  HasCoords x e ∧ e.length = 8 ∧ 0 < h 0 ∧ 0 < h 1 ∧
    ∀ (i : Fin 8) (j : Fin 2), coord x (e[(i : ℕ)]?.getD 0) j = o j + h j * ref8 i j

variable {x : List (Vec ℝ)} {e : List ℕ} {o h : Fin 2 → ℝ}

theorem rect8_jacobian (hr : Rect8 x e o h) (r : Fin 2 → ℝ) :
    SF.square8.dNdr r * nodeRows 8 x e = !![h 0, 0; 0, h 1] := by
  obtain ⟨-, -, -, -, hc⟩ := hr
  have hX : nodeRows 8 x e = Matrix.of fun i j => o j + h j * ref8 i j := by
    ext i j
    exact hc i j
  rw [hX]
  ext i j
  fin_cases i <;> fin_cases j <;> simp [SF.square8, Matrix.mul_apply, Fin.sum_univ_succ, ref8] <;> ring

theorem rect8_quad (hr : Rect8 x e o h) : HasCoords x e ∧ e.length = 8 ∧
    ∀ g : Fin IC.gauss9Square.N, 0 < (SF.square8.dNdr (IC.gauss9Square.points g) * nodeRows 8 x e).det := by
  refine ⟨hr.1, hr.2.1, fun g => ?_⟩
  rw [rect8_jacobian hr, det_fin_two_of]
  have := mul_pos hr.2.2.1 hr.2.2.2.1
  linarith

theorem rect8_inverse (hr : Rect8 x e o h) (r : Fin 2 → ℝ) :
    (SF.square8.dNdr r * nodeRows 8 x e)⁻¹ = !![(h 0)⁻¹, 0; 0, (h 1)⁻¹] := by
  rw [rect8_jacobian hr]
  apply Matrix.inv_eq_left_inv
  have h0 := hr.2.2.1.ne'
  have h1 := hr.2.2.2.1.ne'
  ext i j
  fin_cases i <;> fin_cases j <;> simp [Matrix.mul_apply, h0, h1]

theorem square8_dp (v : Fin 8 → ℝ) (p q : ℝ) : ∑ i, SF.square8.dNdr ![p, q] 0 i * v i =
    serendipity v 1 0 + serendipity v 1 1 * q + serendipity v 1 2 * q ^ 2 +
      (2 * serendipity v 2 0 + 2 * serendipity v 2 1 * q) * p := by
  simp [SF.square8, serendipity, Fin.sum_univ_succ]
  ring

theorem square8_dq (v : Fin 8 → ℝ) (p q : ℝ) : ∑ i, SF.square8.dNdr ![p, q] 1 i * v i =
    serendipity v 0 1 + 2 * serendipity v 0 2 * q +
      (serendipity v 1 1 + 2 * serendipity v 1 2 * q) * p + serendipity v 2 1 * p ^ 2 := by
  simp [SF.square8, serendipity, Fin.sum_univ_succ]
  ring

theorem square8_nodes (v : Fin 8 → ℝ) (i : Fin 8) : v i =
    (serendipity v 0 0 + serendipity v 0 1 * ref8 i 1 + serendipity v 0 2 * ref8 i 1 ^ 2) +
      (serendipity v 1 0 + serendipity v 1 1 * ref8 i 1 + serendipity v 1 2 * ref8 i 1 ^ 2) * ref8 i 0 +
      (serendipity v 2 0 + serendipity v 2 1 * ref8 i 1 + serendipity v 2 2 * ref8 i 1 ^ 2) * ref8 i 0 ^ 2 := by
  fin_cases i <;> simp [serendipity, ref8] <;> ring

theorem gauss9_grid {P : ℝ → ℝ → Prop}
    (hP : ∀ g : Fin 9, P (IC.gauss9Square.points g 0) (IC.gauss9Square.points g 1)) :
    ∀ p ∈ [-√(3 / 5 : ℝ), 0, √(3 / 5)], ∀ q ∈ [-√(3 / 5 : ℝ), 0, √(3 / 5)], P p q := by
  intro p hp q hq
  simp only [List.mem_cons, List.not_mem_nil, or_false] at hp hq
  rcases hp with rfl | rfl | rfl <;> rcases hq with rfl | rfl | rfl
  · exact hP 0
  · exact hP 3
  · exact hP 6
  · exact hP 1
  · exact hP 4
  · exact hP 7
  · exact hP 2
  · exact hP 5
  · exact hP 8

/-- A rectangle without strain moves rigidly. -/
theorem rect8_rigid (hr : Rect8 x e o h) {v : ℕ → ℕ → ℝ} (hv : ∀ g, strainAt x e v g = 0) :
    ∃ a b w, ∀ m ∈ e, ∀ j < 2, v m j = rigidAt x a b w m j := by
  have h0 := hr.2.2.1
  have h1 := hr.2.2.2.1
  obtain ⟨u, hu⟩ : ∃ u : Fin 8 → ℝ, u = fun (i : Fin 8) => v (e[(i : ℕ)]?.getD 0) 0 := ⟨_, rfl⟩
  obtain ⟨w, hw⟩ : ∃ w : Fin 8 → ℝ, w = fun (i : Fin 8) => v (e[(i : ℕ)]?.getD 0) 1 := ⟨_, rfl⟩
  have hstrain : ∀ g : Fin 9, ((h 0)⁻¹ * ∑ i, SF.square8.dNdr (IC.gauss9Square.points g) 0 i * u i = 0 ∧
      (h 1)⁻¹ * ∑ i, SF.square8.dNdr (IC.gauss9Square.points g) 1 i * w i = 0) ∧
      (h 1)⁻¹ * (∑ i, SF.square8.dNdr (IC.gauss9Square.points g) 1 i * u i) +
        (h 0)⁻¹ * (∑ i, SF.square8.dNdr (IC.gauss9Square.points g) 0 i * w i) = 0 := by
    intro g
    have e0 := congrFun (hv g) 0
    have e1 := congrFun (hv g) 1
    have e2 := congrFun (hv g) 2
    simp only [strainAt, rect8_inverse hr] at e0 e1 e2
    refine ⟨⟨?_, ?_⟩, ?_⟩
    · refine Eq.trans ?_ e0
      simp [hu, Finset.mul_sum, Matrix.mul_apply, Fin.sum_univ_two, mul_assoc]
    · refine Eq.trans ?_ e1
      simp [hw, Finset.mul_sum, Matrix.mul_apply, Fin.sum_univ_two, mul_assoc]
    · refine Eq.trans ?_ e2
      simp [hu, hw, Finset.mul_sum, Matrix.mul_apply, Fin.sum_univ_two, mul_assoc]
  have hpt : ∀ g : Fin 9, IC.gauss9Square.points g =
      ![IC.gauss9Square.points g 0, IC.gauss9Square.points g 1] := by
    intro g
    funext j
    fin_cases j <;> rfl
  have hs : √(3 / 5 : ℝ) ≠ 0 := by positivity
  have hc0 := biquad_zero hs (c := ![![serendipity u 1 0, serendipity u 1 1, serendipity u 1 2],
      ![2 * serendipity u 2 0, 2 * serendipity u 2 1, 0], ![0, 0, 0]]) (gauss9_grid fun g => by
    have := (hstrain g).1.1
    rw [hpt g, square8_dp] at this
    have := (mul_eq_zero.1 this).resolve_left (inv_ne_zero h0.ne')
    simp
    linear_combination this)
  have hc1 := biquad_zero hs (c := ![![serendipity w 0 1, 2 * serendipity w 0 2, 0],
      ![serendipity w 1 1, 2 * serendipity w 1 2, 0], ![serendipity w 2 1, 0, 0]]) (gauss9_grid fun g => by
    have := (hstrain g).1.2
    rw [hpt g, square8_dq] at this
    have := (mul_eq_zero.1 this).resolve_left (inv_ne_zero h1.ne')
    simp
    linear_combination this)
  have u10 := hc0 0 0
  have u11 := hc0 0 1
  have u12 := hc0 0 2
  have u20 := hc0 1 0
  have u21 := hc0 1 1
  have w01 := hc1 0 0
  have w02 := hc1 0 1
  have w11 := hc1 1 0
  have w12 := hc1 1 1
  have w21 := hc1 2 0
  simp at u10 u11 u12 u20 u21 w01 w02 w11 w12 w21
  have hc2 := biquad_zero hs (c := ![![(h 1)⁻¹ * serendipity u 0 1 + (h 0)⁻¹ * serendipity w 1 0,
      (h 1)⁻¹ * (2 * serendipity u 0 2), 0], ![(h 0)⁻¹ * (2 * serendipity w 2 0), 0, 0], ![0, 0, 0]])
      (gauss9_grid fun g => by
    have := (hstrain g).2
    rw [hpt g, square8_dq, square8_dp, u11, u12, u21, w11, w12, w21] at this
    simp
    linear_combination this)
  have s0 := hc2 0 0
  have s1 := hc2 0 1
  have s2 := hc2 1 0
  simp [h0.ne', h1.ne'] at s0 s1 s2
  have u22 : serendipity u 2 2 = 0 := by simp [serendipity]
  have w22 : serendipity w 2 2 = 0 := by simp [serendipity]
  have hx : ∀ i : Fin 8, coord x (e[(i : ℕ)]?.getD 0) 0 = o 0 + h 0 * ref8 i 0 := fun i => hr.2.2.2.2 i 0
  have hy : ∀ i : Fin 8, coord x (e[(i : ℕ)]?.getD 0) 1 = o 1 + h 1 * ref8 i 1 := fun i => hr.2.2.2.2 i 1
  refine ⟨serendipity u 0 0 - (h 1)⁻¹ * serendipity u 0 1 * o 1, serendipity w 0 0 + (h 1)⁻¹ * serendipity u 0 1 * o 0,
    -((h 1)⁻¹ * serendipity u 0 1), fun m hm j hj => ?_⟩
  obtain ⟨k, hk, rfl⟩ := List.getElem_of_mem hm
  have hk8 : k < 8 := by rw [← hr.2.1]; exact hk
  have ek : e[(((⟨k, hk8⟩ : Fin 8)) : ℕ)]?.getD 0 = e[k] := by simp [hk]
  have hx := hx ⟨k, hk8⟩
  have hy := hy ⟨k, hk8⟩
  have hui := square8_nodes u ⟨k, hk8⟩
  have hwi := square8_nodes w ⟨k, hk8⟩
  rw [u10, u11, u12, u20, u21, u22, s1] at hui
  rw [w01, w02, w11, w12, w21, w22, s2] at hwi
  have hui := (congrFun hu ⟨k, hk8⟩).symm.trans hui
  have hwi := (congrFun hw ⟨k, hk8⟩).symm.trans hwi
  simp only [ek] at hx hy hui hwi
  have hj2 : j = 0 ∨ j = 1 := by omega
  have i0 : h 1 * (h 1)⁻¹ = 1 := mul_inv_cancel₀ h1.ne'
  have i1 : h 0 * (h 0)⁻¹ = 1 := mul_inv_cancel₀ h0.ne'
  rcases hj2 with rfl | rfl
  · rw [rigidAt, if_pos rfl, hy, hui]
    linear_combination (-serendipity u 0 1 * ref8 ⟨k, hk8⟩ 1) * i0
  · rw [rigidAt, if_neg one_ne_zero, hx, hwi]
    linear_combination (h 0 * ref8 ⟨k, hk8⟩ 0) * s0 - (serendipity w 1 0 * ref8 ⟨k, hk8⟩ 0) * i1

end Pansfem
