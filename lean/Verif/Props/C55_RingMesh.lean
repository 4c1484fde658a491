/-
C55: the ring shaped meshes; C90, C92: their areas and orientations.
-/
import Verif.Props.C54_Fixedlist
import Mathlib.Analysis.SpecialFunctions.Trigonometric.Basic
import Mathlib.Tactic.NormNum
import Mathlib.Tactic.FieldSimp
import Mathlib.Tactic.LinearCombination
import Mathlib.Tactic.Linarith

namespace Pansfem

/-! ### The lists as functions of the position -/

/-- The number of node `j` of ring `i`. -/
def ringNode (n i j : ℕ) : ℕ := n * i + j

/-- The next position on a ring. -/
def next (n j : ℕ) : ℕ := (j + 1) % n

theorem ringElements_eq (rows n : ℕ) :
    ringElements rows n = some ((grid rows n Prod.mk).map (quad (ringNode n) (next n))) := by
  unfold ringElements
  rw [fill_grid rows n, map_grid]
  congr 1
  unfold grid
  refine List.flatMap_congr fun i _ => List.map_congr_left fun j hj => ?_
  show [n * i + j % n, n * (i + 1) + j % n, n * (i + 1) + (j + 1) % n, n * i + (j + 1) % n] = _
  rw [Nat.mod_eq_of_lt (List.mem_range.1 hj)]
  rfl

/-- The edge number `k`: the inner ring clockwise, then the outer ring counter-clockwise. -/
def ringEdge (rows n k : ℕ) : List ℕ :=
  if k < n then [(n - k) % n, n - k - 1] else [n * rows + (k - n), n * rows + (k - n + 1) % n]

theorem ringEdges_eq (rows n : ℕ) :
    ringEdges rows n = some ((List.range (2 * n)).map (ringEdge rows n)) := by
  unfold ringEdges
  apply fill_eq
  · intro w hw
    simp only [List.mem_flatMap, List.mem_range, List.mem_cons, List.not_mem_nil, or_false] at hw
    obtain ⟨i, hi, rfl | rfl⟩ := hw
    · refine ⟨by simp only; omega, ?_⟩
      simp only [ringEdge]
      rw [if_pos (by omega), show n - (n - i - 1) = i + 1 by omega, show i + 1 - 1 = i by omega]
    · refine ⟨by simp only; omega, ?_⟩
      simp only [ringEdge]
      rw [if_neg (by omega), show i + n - n = i by omega]
  · intro k hk
    simp only [List.mem_flatMap, List.mem_range, List.mem_cons, List.not_mem_nil, or_false]
    by_cases h : k < n
    · exact ⟨_, ⟨n - k - 1, by omega, Or.inl rfl⟩, by simp only; omega⟩
    · exact ⟨_, ⟨k - n, by omega, Or.inr rfl⟩, by simp only; omega⟩

theorem next_cases {n j : ℕ} (h : j < n) :
    (j + 1 < n ∧ next n j = j + 1) ∨ (j + 1 = n ∧ next n j = 0) := by
  unfold next
  by_cases h' : j + 1 < n
  · exact Or.inl ⟨h', Nat.mod_eq_of_lt h'⟩
  · have : j + 1 = n := by omega
    exact Or.inr ⟨this, by rw [this, Nat.mod_self]⟩

theorem next_lt {n j : ℕ} (h : j < n) : next n j < n := Nat.mod_lt _ (by omega)

theorem exists_next {n j : ℕ} (h : j < n) : ∃ j' < n, next n j' = j := by
  rcases Nat.eq_zero_or_pos j with rfl | h0
  · exact ⟨n - 1, by omega, by unfold next; rw [show n - 1 + 1 = n by omega, Nat.mod_self]⟩
  · exact ⟨j - 1, by omega, by unfold next; rw [show j - 1 + 1 = j by omega, Nat.mod_eq_of_lt h]⟩

theorem ringCells (rows n : ℕ) (hn : 3 ≤ n) :
    Cells (ringNode n) (next n) (fun i j => i ≤ rows ∧ j < n) (grid rows n Prod.mk) where
  nodup := grid_nodup fun i _ j _ i' _ j' _ e => by simpa using e
  vert := by
    intro c hc
    obtain ⟨i, hi, j, hj, rfl⟩ := mem_grid.1 hc
    exact ⟨⟨by simp only; omega, hj⟩, ⟨by simp only; omega, hj⟩, ⟨by simp only; omega, next_lt hj⟩,
      ⟨by simp only; omega, next_lt hj⟩⟩
  inj := fun _ _ _ _ h h' e => row_inj h.2 h'.2 e
  sinj := by
    intro c hc c' hc' e
    obtain ⟨i, hi, j, hj, rfl⟩ := mem_grid.1 hc
    obtain ⟨i', hi', j', hj', rfl⟩ := mem_grid.1 hc'
    simp only at e ⊢
    rcases next_cases hj with h | h <;> rcases next_cases hj' with h' | h' <;> omega
  sne := by
    intro c hc
    obtain ⟨i, hi, j, hj, rfl⟩ := mem_grid.1 hc
    simp only
    rcases next_cases hj with h | h <;> omega
  stwo := by
    intro c hc c' hc' e
    obtain ⟨i, hi, j, hj, rfl⟩ := mem_grid.1 hc
    obtain ⟨i', hi', j', hj', rfl⟩ := mem_grid.1 hc'
    simp only at e ⊢
    rcases next_cases hj with h | h <;> rcases next_cases hj' with h' | h' <;> omega

theorem mem_ringEdges (rows n a b : ℕ) :
    [a, b] ∈ (List.range (2 * n)).map (ringEdge rows n) ↔
      (∃ j < n, a = ringNode n 0 (next n j) ∧ b = ringNode n 0 j) ∨
      (∃ j < n, a = ringNode n rows j ∧ b = ringNode n rows (next n j)) := by
  rw [List.mem_map]
  constructor
  · rintro ⟨k, hk, e⟩
    rw [List.mem_range] at hk
    unfold ringEdge at e
    split_ifs at e with h
    · simp only [List.cons.injEq, and_true] at e
      refine Or.inl ⟨n - k - 1, by omega, ?_, ?_⟩
      · rw [← e.1]; unfold ringNode next; rw [show n - k - 1 + 1 = n - k by omega]; omega
      · rw [← e.2]; unfold ringNode; omega
    · simp only [List.cons.injEq, and_true] at e
      exact Or.inr ⟨k - n, by omega, e.1.symm, e.2.symm⟩
  · rintro (⟨j, hj, rfl, rfl⟩ | ⟨j, hj, rfl, rfl⟩)
    · refine ⟨n - j - 1, List.mem_range.2 (by omega), ?_⟩
      unfold ringEdge ringNode next
      rw [if_pos (by omega), show n - (n - j - 1) = j + 1 by omega, show j + 1 - 1 = j by omega]
      simp
    · refine ⟨j + n, List.mem_range.2 (by omega), ?_⟩
      unfold ringEdge
      rw [if_neg (by omega), show j + n - n = j by omega]
      rfl

/-- The two halves of the list of edges. -/
theorem ringEdges_split (rows n : ℕ) :
    (List.range (2 * n)).map (ringEdge rows n) =
      ((List.range n).map fun k => [(n - k) % n, n - k - 1]) ++
      (List.range n).map fun k => [n * rows + k, n * rows + (k + 1) % n] := by
  rw [two_mul, List.range_add, List.map_append, List.map_map]
  congr 1
  · refine List.map_congr_left fun k hk => ?_
    unfold ringEdge; rw [if_pos (List.mem_range.1 hk)]
  · refine List.map_congr_left fun k _ => ?_
    simp only [Function.comp, ringEdge]
    rw [if_neg (by omega), show n + k - n = k by omega]

theorem ringEdge_inj {rows n k k' : ℕ} (hr : 0 < rows) (hn : 3 ≤ n) (_ : k < 2 * n) (_ : k' < 2 * n)
    (h : ringEdge rows n k = ringEdge rows n k') : k = k' := by
  have hrow : n ≤ n * rows := Nat.le_mul_of_pos_right _ hr
  have hm : ∀ k, (n - k) % n < n := fun k => Nat.mod_lt _ (by omega)
  have := hm k
  have := hm k'
  unfold ringEdge at h
  split_ifs at h <;> simp only [List.cons.injEq, and_true] at h <;> omega

/-- C55 (topology): for every number of rings and at least three nodes on a ring the elements refer to
four different existing nodes, every node is used, neighbouring elements fit together, also across the
end of the ring, and the edges are exactly the sides with an element on one side only. -/
theorem C55_mesh (rows n : ℕ) (hr : 0 < rows) (hn : 3 ≤ n) :
    ∃ elements edges, ringElements rows n = some elements ∧ ringEdges rows n = some edges ∧
      elements.length = rows * n ∧ edges.length = 2 * n ∧ CellsOk ((rows + 1) * n) elements edges := by
  refine ⟨_, _, ringElements_eq rows n, ringEdges_eq rows n, ?_, ?_, ?_⟩
  · rw [List.length_map, length_grid]
  · simp
  · have hc := ringCells rows n hn
    refine ⟨?_, ?_, hc.sides_nodup, ?_, ?_, ?_⟩
    · intro e he
      obtain ⟨c, hcm, rfl⟩ := List.mem_map.1 he
      refine ⟨rfl, hc.quad_nodup hcm, ?_⟩
      obtain ⟨i, hi, j, hj, rfl⟩ := mem_grid.1 hcm
      have := next_lt hj
      intro m hm
      simp only [quad, ringNode, List.mem_cons, List.not_mem_nil, or_false] at hm
      rcases hm with rfl | rfl | rfl | rfl <;> exact row_lt (by omega) (by omega)
    · intro m hm
      obtain ⟨i, hi, j, hj, rfl⟩ := exists_row hm
      refine ⟨_, List.mem_map.2 ⟨(min i (rows - 1), j), mem_grid.2 ⟨_, by omega, _, hj, rfl⟩, rfl⟩, ?_⟩
      simp only [quad, ringNode, List.mem_cons, List.not_mem_nil, or_false]
      by_cases h1 : i < rows
      · rw [show min i (rows - 1) = i by omega]; exact Or.inl rfl
      · rw [show min i (rows - 1) + 1 = i by omega]; exact Or.inr (Or.inl rfl)
    · intro e he
      obtain ⟨k, -, rfl⟩ := List.mem_map.1 he
      unfold ringEdge
      split_ifs <;> exact ⟨_, _, rfl⟩
    · intro a b
      rw [mem_ringEdges, hc.mem_boundary]
      constructor
      · rintro (⟨j, hj, rfl, rfl⟩ | ⟨j, hj, rfl, rfl⟩)
        · exact ⟨(0, j), mem_grid.2 ⟨_, hr, _, hj, rfl⟩, Or.inr (Or.inr (Or.inr ⟨rfl, fun c' _ _ => by simp⟩))⟩
        · refine ⟨(rows - 1, j), mem_grid.2 ⟨_, by omega, _, hj, rfl⟩, Or.inr (Or.inl ⟨?_, ?_⟩)⟩
          · simp only [show rows - 1 + 1 = rows by omega]
          · intro hm
            obtain ⟨i', hi', j', hj', e⟩ := mem_grid.1 hm
            simp at e; omega
      · rintro ⟨c, hcm, hh⟩
        obtain ⟨i, hi, j, hj, rfl⟩ := mem_grid.1 hcm
        rcases hh with ⟨e, hb⟩ | ⟨e, hb⟩ | ⟨e, hb⟩ | ⟨e, hb⟩ <;>
          simp only [Prod.mk.injEq] at e <;> obtain ⟨rfl, rfl⟩ := e
        · exfalso
          obtain ⟨j', hj', e⟩ := exists_next hj
          exact hb (i, j') (mem_grid.2 ⟨_, hi, _, hj', rfl⟩) rfl e
        · have : i + 1 = rows := by
            by_contra h0
            exact hb (mem_grid.2 ⟨_, by omega, _, hj, rfl⟩)
          exact Or.inr ⟨j, hj, by rw [this], by rw [this]⟩
        · exact absurd (mem_grid.2 ⟨_, hi, _, next_lt hj, rfl⟩) hb
        · have : i = 0 := by
            by_contra h0
            exact hb (i - 1, j) (mem_grid.2 ⟨_, by omega, _, hj, rfl⟩) rfl (by simp; omega)
          subst this
          exact Or.inl ⟨j, hj, rfl, rfl⟩
    · refine List.Nodup.map_on ?_ List.nodup_range
      intro k hk k' hk' e
      exact ringEdge_inj hr hn (List.mem_range.1 hk) (List.mem_range.1 hk') e

/-- Each element joins a node of a ring with the node of the same position on the next ring, and the
following position, which after the last one is the first one again. -/
theorem C55_wrap (rows n : ℕ) :
    ∃ elements, ringElements rows n = some elements ∧ ∀ i < rows, ∀ j < n,
      elements[n * i + j]? = some
        (if j + 1 < n then [n * i + j, n * (i + 1) + j, n * (i + 1) + (j + 1), n * i + (j + 1)]
        else [n * i + j, n * (i + 1) + j, n * (i + 1), n * i]) := by
  refine ⟨_, ringElements_eq rows n, fun i hi j hj => ?_⟩
  rw [map_grid, getElem?_grid _ hi hj]
  unfold quad ringNode
  rcases next_cases hj with ⟨h, e⟩ | ⟨h, e⟩
  · simp only [e]; rw [if_pos h]
  · simp only [e]; rw [if_neg (by omega)]; rfl

/-- C55 (rings): the edges are two closed walks, first over exactly the nodes of the inner ring, then over
exactly those of the outer ring. -/
theorem C55_rings (rows n : ℕ) (hn : 0 < n) :
    ∃ inner outer, ringEdges rows n = some (inner ++ outer) ∧ ClosedLoop inner ∧ ClosedLoop outer ∧
      (∀ k, (∃ e ∈ inner, k ∈ e) ↔ k < n) ∧
      ∀ k, (∃ e ∈ outer, k ∈ e) ↔ n * rows ≤ k ∧ k < n * (rows + 1) := by
  have hmod : ∀ k, k % n < n := fun k => Nat.mod_lt _ hn
  refine ⟨_, _, by rw [ringEdges_eq, ringEdges_split], ?_, ?_, ?_, ?_⟩
  · intro k hk
    rw [List.length_map, List.length_range] at hk ⊢
    rw [List.getElem?_map, List.getElem?_range hk, List.getElem?_map, List.getElem?_range (hmod _)]
    rcases next_cases hk with ⟨h, e⟩ | ⟨h, e⟩
    · unfold next at e
      rw [e]
      refine ⟨_, n - k - 1, n - k - 1 - 1, rfl, ?_⟩
      show some [(n - (k + 1)) % n, n - (k + 1) - 1] = _
      rw [show n - (k + 1) = n - k - 1 by omega, Nat.mod_eq_of_lt (by omega)]
    · unfold next at e
      rw [e]
      refine ⟨_, n - k - 1, n - 1, rfl, ?_⟩
      show some [(n - 0) % n, n - 0 - 1] = _
      rw [show n - k - 1 = 0 by omega, Nat.sub_zero, Nat.mod_self]
  · intro k hk
    rw [List.length_map, List.length_range] at hk ⊢
    rw [List.getElem?_map, List.getElem?_range hk, List.getElem?_map, List.getElem?_range (hmod _)]
    exact ⟨_, _, _, rfl, rfl⟩
  · intro k
    constructor
    · rintro ⟨e, he, hk⟩
      obtain ⟨j, hj, rfl⟩ := List.mem_map.1 he
      rw [List.mem_range] at hj
      have := hmod (n - j)
      simp only [List.mem_cons, List.not_mem_nil, or_false] at hk
      omega
    · intro hk
      refine ⟨_, List.mem_map.2 ⟨n - k - 1, List.mem_range.2 (by omega), rfl⟩, ?_⟩
      simp only [List.mem_cons, List.not_mem_nil, or_false]
      omega
  · intro k
    constructor
    · rintro ⟨e, he, hk⟩
      obtain ⟨j, hj, rfl⟩ := List.mem_map.1 he
      rw [List.mem_range] at hj
      have := hmod (j + 1)
      simp only [List.mem_cons, List.not_mem_nil, or_false] at hk
      rw [Nat.mul_succ]
      omega
    · rintro ⟨h1, h2⟩
      rw [Nat.mul_succ] at h2
      refine ⟨_, List.mem_map.2 ⟨k - n * rows, List.mem_range.2 (by omega), rfl⟩, ?_⟩
      simp only [List.mem_cons, List.not_mem_nil, or_false]
      omega

theorem annulusNodes_eq (m : AnnulusMesh) (hr : 0 < m.nr) :
    m.nodes = some (grid (m.nr + 1) m.nt m.point) := by
  unfold AnnulusMesh.nodes
  rw [if_neg (by omega), fill_grid]

/-- C55 for `AnnulusMesh`. -/
theorem C55_annulus (m : AnnulusMesh) (hr : 0 < m.nr) (ht : 3 ≤ m.nt) :
    ∃ nodes elements edges, m.nodes = some nodes ∧ ringElements m.nr m.nt = some elements ∧
      ringEdges m.nr m.nt = some edges ∧ CellsOk nodes.length elements edges := by
  obtain ⟨el, ed, h1, h2, -, -, h3⟩ := C55_mesh m.nr m.nt hr ht
  exact ⟨_, el, ed, annulusNodes_eq m hr, h1, h2, by rw [length_grid]; exact h3⟩

/-- C55 for `SquareAnnulusMesh`. -/
theorem C55_squareAnnulus {K : Type} [Field K] (m : SquareAnnulusMesh K) (hx : 0 < m.nx) (hy : 0 < m.ny)
    (ht : 0 < m.nt) :
    ∃ nodes elements edges, m.nodes = some nodes ∧ ringElements m.nt m.nxy = some elements ∧
      ringEdges m.nt m.nxy = some edges ∧ CellsOk nodes.length elements edges := by
  obtain ⟨el, ed, h1, h2, -, -, h3⟩ := C55_mesh m.nt m.nxy ht (by unfold SquareAnnulusMesh.nxy; omega)
  exact ⟨_, el, ed, saNodes_eq m ht, h1, h2, by rw [length_grid]; exact h3⟩

/-! ### SquareCircleAnnulusMesh: all parts by one formula -/

/-- The point `j` of the ring `i`. -/
noncomputable def scPoint (m : SquareCircleMesh) (i j : ℕ) : ℝ × ℝ :=
  if j < m.ny then m.right i j
  else if j < m.ny + m.nx then m.top i (j - m.ny)
  else if j < 2 * m.ny + m.nx then m.left i (j - m.ny - m.nx)
  else m.bottom i (j - 2 * m.ny - m.nx)

theorem scNodes_eq (m : SquareCircleMesh) (hr : 0 < m.nr) (hp : 0 ≤ m.p) :
    m.nodes = some (grid (m.nr + 1) m.nxy (scPoint m)) := by
  unfold SquareCircleMesh.nodes
  rw [if_neg (by rw [not_or]; exact ⟨by omega, by linarith⟩), mul_comm, ← fill_grid]
  congr 1
  unfold grid
  refine List.flatMap_congr fun i _ => ?_
  have hp := ring_parts (fun j => (m.nxy * i + j, scPoint m i j)) m.nx m.ny
  rw [show m.nxy = 2 * (m.nx + m.ny) from rfl] at hp ⊢
  rw [← hp]
  congr 1
  · congr 1
    · congr 1
      · refine List.map_congr_left fun j hj => ?_
        unfold scPoint; rw [if_pos (List.mem_range.1 hj)]
      · refine List.map_congr_left fun j hj => ?_
        rw [List.mem_range] at hj
        unfold scPoint
        rw [if_neg (by omega), if_pos (by omega), Nat.add_sub_cancel]
        congr 1
        simp only [Nat.add_assoc]
    · refine List.map_congr_left fun j hj => ?_
      rw [List.mem_range] at hj
      unfold scPoint
      rw [if_neg (by omega), if_neg (by omega), if_pos (by omega), show j + m.ny + m.nx - m.ny - m.nx = j by omega]
      congr 1
      simp only [Nat.add_assoc]
  · refine List.map_congr_left fun j _ => ?_
    unfold scPoint
    rw [if_neg (by omega), if_neg (by omega), if_neg (by omega),
      show j + 2 * m.ny + m.nx - 2 * m.ny - m.nx = j by omega]
    congr 1
    simp only [Nat.add_assoc]

/-- C55 for `SquareCircleAnnulusMesh`. -/
theorem C55_squareCircle (m : SquareCircleMesh) (hx : 0 < m.nx) (hy : 0 < m.ny) (hr : 0 < m.nr)
    (hp : 0 ≤ m.p) :
    ∃ nodes elements edges, m.nodes = some nodes ∧ ringElements m.nr m.nxy = some elements ∧
      ringEdges m.nr m.nxy = some edges ∧ CellsOk nodes.length elements edges := by
  obtain ⟨el, ed, h1, h2, -, -, h3⟩ := C55_mesh m.nr m.nxy hr (by unfold SquareCircleMesh.nxy; omega)
  exact ⟨_, el, ed, scNodes_eq m hr hp, h1, h2, by rw [length_grid]; exact h3⟩

/-- Three nodes are needed: with two the elements between two rings pass the same sides twice. -/
theorem C55_two : ∃ elements edges, ringElements 1 2 = some elements ∧ ringEdges 1 2 = some edges ∧
    ¬ CellsOk 4 elements edges := by
  refine ⟨[[0, 2, 3, 1], [1, 3, 2, 0]], [[0, 1], [1, 0], [2, 3], [3, 2]], by decide +kernel,
    by decide +kernel, fun h => ?_⟩
  have := (h.boundary 0 1).1 (by decide)
  exact this.2 (by decide)

example : ∃ elements edges, ringElements 2 5 = some elements ∧ ringEdges 2 5 = some edges ∧
    elements.length = 2 * 5 ∧ edges.length = 2 * 5 ∧ CellsOk ((2 + 1) * 5) elements edges :=
  C55_mesh 2 5 (by norm_num) (by norm_num)

example : ringElements 1 3 = some [[0, 3, 4, 1], [1, 4, 5, 2], [2, 5, 3, 0]] ∧
    ringEdges 1 3 = some [[0, 2], [2, 1], [1, 0], [3, 4], [4, 5], [5, 3]] := by decide +kernel

example : ∃ nodes elements edges, (⟨1, 2, 2, 8⟩ : AnnulusMesh).nodes = some nodes ∧
    ringElements 2 8 = some elements ∧ ringEdges 2 8 = some edges ∧ CellsOk nodes.length elements edges :=
  C55_annulus ⟨1, 2, 2, 8⟩ (by norm_num) (by norm_num)

example : ∃ nodes elements edges, exRing.nodes = some nodes ∧ ringElements 1 4 = some elements ∧
    ringEdges 1 4 = some edges ∧ CellsOk nodes.length elements edges :=
  C55_squareAnnulus exRing (by decide) (by decide) (by decide)

end Pansfem
