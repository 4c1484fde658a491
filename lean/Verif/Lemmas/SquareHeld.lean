/-
The quadratic square meshes are rectangles with eight nodes and are held at their left side.
-/
import Verif.Lemmas.Rect8
import Verif.Lemmas.Quads
import Verif.Props.C53_QuadraticMesh

noncomputable section

open Matrix

namespace Pansfem

variable (m : SquareMesh ℝ)

theorem coord_asVectors {nodes : List (ℝ × ℝ)} {n : ℕ} {p : ℝ × ℝ} (h : nodes[n]? = some p) :
    coord (asVectors nodes) n 0 = p.1 ∧ coord (asVectors nodes) n 1 = p.2 := by
  obtain ⟨h1, h2⟩ := asVectors_at h
  simp [coord, h1, h2]

/-- The nodes of a cell with their places. -/
theorem square2_cell {i j : ℕ} (hi : i < m.nx) (hj : j < m.ny) (k : Fin 8) :
    (squareNodes2 m)[(quad2 m.nx m.ny (i, j))[(k : ℕ)]?.getD 0]? =
      some (m.x * ((i + 1 / 2 : ℝ) / m.nx) + m.x / (2 * m.nx) * ref8 k 0,
        m.y * ((j + 1 / 2 : ℝ) / m.ny) + m.y / (2 * m.ny) * ref8 k 1) := by
  have hx : (m.nx : ℝ) ≠ 0 := Nat.cast_ne_zero.2 (by omega)
  have hy : (m.ny : ℝ) ≠ 0 := Nat.cast_ne_zero.2 (by omega)
  have c : ∀ i' j' : ℕ, i' ≤ m.nx → j' ≤ m.ny → _ := fun i' j' h1 h2 => squareNodes2_corner m (i := i') (j := j') h1 h2
  have e : (0.5 : ℝ) = 1 / 2 := by norm_num
  have close : ∀ {n : ℕ} {p q : ℝ × ℝ}, (squareNodes2 m)[n]? = some p → p = q → (squareNodes2 m)[n]? = some q :=
    fun h1 h2 => h2 ▸ h1
  match k with
  | 0 => refine close (c i j (by omega) (by omega)) (Prod.ext ?_ ?_) <;> simp [ref8] <;> field_simp <;> ring
  | 1 => refine close (c (i + 1) j (by omega) (by omega)) (Prod.ext ?_ ?_) <;> simp [ref8] <;> field_simp <;> ring
  | 2 => refine close (c (i + 1) (j + 1) (by omega) (by omega)) (Prod.ext ?_ ?_) <;> simp [ref8] <;> field_simp <;> ring
  | 3 => refine close (c i (j + 1) (by omega) (by omega)) (Prod.ext ?_ ?_) <;> simp [ref8] <;> field_simp <;> ring
  | 4 => refine close (squareNodes2_horizontal m (i := i) (j := j) hi (by omega)) (Prod.ext ?_ ?_) <;>
           simp [ref8, e] <;> field_simp <;> ring
  | 5 => refine close (squareNodes2_vertical m (i := i + 1) (j := j) (by omega) hj) (Prod.ext ?_ ?_) <;>
           simp [ref8, e] <;> field_simp <;> ring
  | 6 => refine close (squareNodes2_horizontal m (i := i) (j := j + 1) hi (by omega)) (Prod.ext ?_ ?_) <;>
           simp [ref8, e] <;> field_simp <;> ring
  | 7 => refine close (squareNodes2_vertical m (i := i) (j := j) (by omega) hj) (Prod.ext ?_ ?_) <;>
           simp [ref8, e] <;> field_simp <;> ring

theorem square2_rect (h1 : 0 < m.x) (h2 : 0 < m.y) {i j : ℕ} (hi : i < m.nx) (hj : j < m.ny) :
    Rect8 (asVectors (squareNodes2 m)) (quad2 m.nx m.ny (i, j))
      ![m.x * ((i + 1 / 2 : ℝ) / m.nx), m.y * ((j + 1 / 2 : ℝ) / m.ny)] ![m.x / (2 * m.nx), m.y / (2 * m.ny)] := by
  have hx : (0 : ℝ) < m.nx := Nat.cast_pos.2 (by omega)
  have hy : (0 : ℝ) < m.ny := Nat.cast_pos.2 (by omega)
  refine ⟨?_, rfl, ?_, ?_, ?_⟩
  · intro n hn
    obtain ⟨k, hk, rfl⟩ := List.getElem_of_mem hn
    have := asVectors_at (square2_cell m hi hj ⟨k, hk⟩)
    simp only [List.getElem?_eq_getElem hk, Option.getD_some] at this
    rw [this.1, this.2]
    exact ⟨rfl, rfl⟩
  · simp; positivity
  · simp; positivity
  · intro k d
    have := coord_asVectors (square2_cell m hi hj k)
    match d with
    | 0 => exact this.1
    | 1 => exact this.2

/-- Every node belongs to a cell. -/
theorem square2_covered (hx : 0 < m.nx) (hy : 0 < m.ny) {n : ℕ} (hn : n < (squareNodes2 m).length) :
    ∃ i < m.nx, ∃ j < m.ny, n ∈ quad2 m.nx m.ny (i, j) := by
  rw [squareNodes2_length] at hn
  have split : ∀ {a b n : ℕ}, n < a * b → ∃ i < a, ∃ j < b, n = b * i + j := fun {a b n} h =>
    ⟨n / b, Nat.div_lt_of_lt_mul (by rwa [mul_comm]), n % b,
      Nat.mod_lt _ (Nat.pos_of_ne_zero fun hb => by simp [hb] at h), (Nat.div_add_mod _ _).symm⟩
  simp only [quad2, quad, squareNode, List.cons_append, List.nil_append, List.mem_cons, List.not_mem_nil, or_false]
  by_cases c1 : n < (m.nx + 1) * (m.ny + 1)
  · obtain ⟨i, hi, j, hj, rfl⟩ := split c1
    by_cases h1 : i < m.nx <;> by_cases h2 : j < m.ny
    · exact ⟨i, h1, j, h2, Or.inl rfl⟩
    · refine ⟨i, h1, j - 1, by omega, Or.inr (Or.inr (Or.inr (Or.inl ?_)))⟩
      omega
    · refine ⟨i - 1, by omega, j, h2, Or.inr (Or.inl ?_)⟩
      rw [Nat.sub_add_cancel (by omega)]
    · refine ⟨i - 1, by omega, j - 1, by omega, Or.inr (Or.inr (Or.inl ?_))⟩
      rw [Nat.sub_add_cancel (by omega), Nat.sub_add_cancel (by omega)]
  · by_cases c2 : n < (m.nx + 1) * (m.ny + 1) + (m.nx + 1) * m.ny
    · obtain ⟨i, hi, j, hj, e⟩ := split (a := m.nx + 1) (b := m.ny) (n := n - (m.nx + 1) * (m.ny + 1)) (by omega)
      by_cases h1 : i < m.nx
      · refine ⟨i, h1, j, hj, Or.inr (Or.inr (Or.inr (Or.inr (Or.inr (Or.inr (Or.inr ?_))))))⟩
        omega
      · refine ⟨i - 1, by omega, j, hj, Or.inr (Or.inr (Or.inr (Or.inr (Or.inr (Or.inl ?_)))))⟩
        rw [Nat.sub_add_cancel (by omega)]
        omega
    · obtain ⟨i, hi, j, hj, e⟩ := split (a := m.nx) (b := m.ny + 1)
        (n := n - ((m.nx + 1) * (m.ny + 1) + (m.nx + 1) * m.ny)) (by omega)
      have e2 : (m.nx + 1) * (2 * m.ny + 1) = (m.nx + 1) * (m.ny + 1) + (m.nx + 1) * m.ny := by ring
      by_cases h2 : j < m.ny
      · refine ⟨i, hi, j, h2, Or.inr (Or.inr (Or.inr (Or.inr (Or.inl ?_))))⟩
        omega
      · refine ⟨i, hi, j - 1, by omega, Or.inr (Or.inr (Or.inr (Or.inr (Or.inr (Or.inr (Or.inl ?_))))))⟩
        rw [Nat.sub_add_cancel (by omega)]
        omega

/-- The elements of the quadratic mesh. -/
def squareCells2 : List (List ℕ) := (grid m.nx m.ny Prod.mk).map (quad2 m.nx m.ny)

theorem square2_quads (h1 : 0 < m.x) (h2 : 0 < m.y) : Quads8 (asVectors (squareNodes2 m)) (squareCells2 m) := by
  intro e he
  obtain ⟨c, hc, rfl⟩ := List.mem_map.1 he
  obtain ⟨i, hi, j, hj, rfl⟩ := mem_grid.1 hc
  exact rect8_quad (square2_rect m h1 h2 hi hj)

/-- The mesh is held if its left corner nodes are fixed in both directions. -/
theorem square2_held (hx : 0 < m.nx) (hy : 0 < m.ny) (h1 : 0 < m.x) (h2 : 0 < m.y) {bc : List ((ℕ × ℕ) × ℝ)}
    (hb : ∀ j ≤ m.ny, ∀ d < 2, (squareNode m.ny 0 j, d) ∈ bc.map Prod.fst) :
    HeldMesh (asVectors (squareNodes2 m)) (squareCells2 m) bc := by
  intro v hv hs
  have hyp : (0 : ℝ) < m.ny := Nat.cast_pos.2 hy
  -- a cell without strain whose left corners stand still does not move
  have step : ∀ i < m.nx, ∀ j < m.ny, (∀ d < 2, v (squareNode m.ny i j) d = 0) →
      (∀ d < 2, v (squareNode m.ny i (j + 1)) d = 0) → ∀ n ∈ quad2 m.nx m.ny (i, j), ∀ d < 2, v n d = 0 := by
    intro i hi j hj z1 z2
    obtain ⟨a, b, w, hr⟩ := rect8_rigid (square2_rect m h1 h2 hi hj)
      (hs _ (List.mem_map_of_mem (mem_grid.2 ⟨i, hi, j, hj, rfl⟩)))
    have m1 : squareNode m.ny i j ∈ quad2 m.nx m.ny (i, j) := by simp [quad2, quad]
    have m2 : squareNode m.ny i (j + 1) ∈ quad2 m.nx m.ny (i, j) := by simp [quad2, quad]
    obtain ⟨cx, cy⟩ := coord_asVectors (squareNodes2_corner m (i := i) (j := j) (by omega) (by omega))
    obtain ⟨cx', cy'⟩ := coord_asVectors (squareNodes2_corner m (i := i) (j := j + 1) (by omega) (by omega))
    have e1 := hr _ m1 0 (by omega)
    have e2 := hr _ m2 0 (by omega)
    have e3 := hr _ m1 1 (by omega)
    rw [z1 0 (by omega), rigidAt, if_pos rfl, cy] at e1
    rw [z2 0 (by omega), rigidAt, if_pos rfl, cy'] at e2
    rw [z1 1 (by omega), rigidAt, if_neg one_ne_zero, cx] at e3
    have hw : w = 0 := by
      have : w * (m.y / m.ny) = 0 := by
        have e : m.y * (((j + 1 : ℕ) : ℝ) / m.ny) = m.y * ((j : ℝ) / m.ny) + m.y / m.ny := by push_cast; ring
        rw [e] at e2
        linear_combination e2 - e1
      exact (mul_eq_zero.1 this).resolve_right (div_pos h2 hyp).ne'
    subst hw
    intro n hn d hd
    rw [hr n hn d hd, rigidAt]
    split_ifs
    · linarith
    · linarith
  have cols : ∀ i ≤ m.nx, ∀ j ≤ m.ny, ∀ d < 2, v (squareNode m.ny i j) d = 0 := by
    intro i
    induction i with
    | zero => exact fun _ j hj d hd => hv _ _ fun h => h.2.2 (hb j hj d hd)
    | succ i ih =>
      intro hi j hj d hd
      by_cases c : j < m.ny
      · exact step i (by omega) j c (ih (by omega) j (by omega)) (ih (by omega) (j + 1) (by omega)) _
          (by simp [quad2, quad]) d hd
      · refine step i (by omega) (j - 1) (by omega) (ih (by omega) (j - 1) (by omega))
          (ih (by omega) (j - 1 + 1) (by omega)) _ ?_ d hd
        have : j - 1 + 1 = j := by omega
        simp [quad2, quad, this]
  funext n d
  by_cases hn : n < (squareNodes2 m).length ∧ d < 2
  · obtain ⟨i, hi, j, hj, hm⟩ := square2_covered m hx hy hn.1
    exact step i hi j hj (cols i (by omega) j (by omega)) (cols i (by omega) (j + 1) (by omega)) n hm d hn.2
  · refine hv n d fun h => hn ⟨?_, h.2.1⟩
    have := h.1
    rwa [asVectors, List.length_map] at this

end Pansfem
