/-
C53: the quadratic square meshes.
-/
import Verif.Props.C52_SquareMesh

namespace Pansfem

/-- The number of nodes. -/
theorem square2_size (nx ny : ℕ) :
    (2 * nx + 1) * (2 * ny + 1) - nx * ny =
      (nx + 1) * (ny + 1) + (nx + 1) * ny + nx * (ny + 1) := by
  apply Nat.sub_eq_of_eq_add
  ring

section
variable {K : Type} [Field K]

/-- The nodes of `GenerateNodes2` in the order of their numbers. -/
def squareNodes2 (m : SquareMesh K) : List (K × K) :=
  (grid (m.nx + 1) (m.ny + 1) fun i j => (m.x * ((i : K) / (m.nx : K)), m.y * ((j : K) / (m.ny : K)))) ++
  (grid (m.nx + 1) m.ny fun i j => (m.x * ((i : K) / (m.nx : K)), m.y * (((j : K) + 0.5) / (m.ny : K)))) ++
  grid m.nx (m.ny + 1) fun i j => (m.x * (((i : K) + 0.5) / (m.nx : K)), m.y * ((j : K) / (m.ny : K)))

theorem range_add_map (a b : ℕ) : List.range a ++ (List.range b).map (· + a) = List.range (a + b) := by
  rw [List.range_add]
  congr 1
  exact List.map_congr_left fun x _ => add_comm _ _

theorem squareNodes2_eq (m : SquareMesh K) (hx : 0 < m.nx) (hy : 0 < m.ny) :
    m.nodes2 = some (squareNodes2 m) := by
  unfold SquareMesh.nodes2
  rw [if_neg (by omega), square2_size, fill_seq]
  · simp only [List.map_append, SquareMesh.nodeWrites, SquareMesh.verticalWrites,
      SquareMesh.horizontalWrites, map_grid]
    rfl
  · simp only [List.map_append, SquareMesh.nodeWrites, SquareMesh.verticalWrites,
      SquareMesh.horizontalWrites, map_grid]
    have e1 : (grid (m.nx + 1) m.ny fun i j => m.ny * i + j + (m.nx + 1) * (m.ny + 1))
        = (List.range ((m.nx + 1) * m.ny)).map (· + (m.nx + 1) * (m.ny + 1)) := by
      rw [← grid_numbers, map_grid]
    have e2 : (grid m.nx (m.ny + 1) fun i j => (m.ny + 1) * i + j + (m.nx + 1) * (2 * m.ny + 1))
        = (List.range (m.nx * (m.ny + 1))).map (· + ((m.nx + 1) * (m.ny + 1) + (m.nx + 1) * m.ny)) := by
      rw [← grid_numbers, map_grid]
      congr 1
      funext i j
      ring
    rw [grid_numbers, e1, e2, range_add_map, range_add_map]

theorem squareNodes2_corner (m : SquareMesh K) {i j : ℕ} (hi : i ≤ m.nx) (hj : j ≤ m.ny) :
    (squareNodes2 m)[squareNode m.ny i j]? =
      some (m.x * ((i : K) / (m.nx : K)), m.y * ((j : K) / (m.ny : K))) := by
  have hl : squareNode m.ny i j < (m.nx + 1) * (m.ny + 1) := row_lt (by omega) (by omega)
  unfold squareNodes2
  rw [List.append_assoc, List.getElem?_append_left (by rw [length_grid]; exact hl)]
  exact getElem?_grid _ (by omega) (by omega)

theorem squareNodes2_vertical (m : SquareMesh K) {i j : ℕ} (hi : i ≤ m.nx) (hj : j < m.ny) :
    (squareNodes2 m)[m.ny * i + j + (m.nx + 1) * (m.ny + 1)]? =
      some (m.x * ((i : K) / (m.nx : K)), m.y * (((j : K) + 0.5) / (m.ny : K))) := by
  have hl : m.ny * i + j < (m.nx + 1) * m.ny := row_lt (by omega) hj
  unfold squareNodes2
  rw [List.append_assoc, List.getElem?_append_right (by rw [length_grid]; omega), length_grid,
    Nat.add_sub_cancel, List.getElem?_append_left (by rw [length_grid]; exact hl)]
  exact getElem?_grid _ (by omega) hj

theorem squareNodes2_horizontal (m : SquareMesh K) {i j : ℕ} (hi : i < m.nx) (hj : j ≤ m.ny) :
    (squareNodes2 m)[(m.ny + 1) * i + j + (m.nx + 1) * (2 * m.ny + 1)]? =
      some (m.x * (((i : K) + 0.5) / (m.nx : K)), m.y * ((j : K) / (m.ny : K))) := by
  have e : (m.nx + 1) * (2 * m.ny + 1) = (m.nx + 1) * (m.ny + 1) + (m.nx + 1) * m.ny := by ring
  unfold squareNodes2
  rw [List.getElem?_append_right (by rw [List.length_append, length_grid, length_grid, e]; omega),
    List.length_append, length_grid, length_grid, e, Nat.add_sub_cancel]
  exact getElem?_grid _ hi (by omega)

theorem squareNodes2_length (m : SquareMesh K) :
    (squareNodes2 m).length = (m.nx + 1) * (m.ny + 1) + (m.nx + 1) * m.ny + m.nx * (m.ny + 1) := by
  unfold squareNodes2
  rw [List.length_append, List.length_append, length_grid, length_grid, length_grid]

end

/-- The eight nodes of the element over the cell `(i, j)`. -/
def quad2 (nx ny : ℕ) (c : ℕ × ℕ) : List ℕ :=
  quad (squareNode ny) (· + 1) c ++
    [(ny + 1) * c.1 + c.2 + (nx + 1) * (2 * ny + 1), ny * (c.1 + 1) + c.2 + (nx + 1) * (ny + 1),
      (ny + 1) * c.1 + (c.2 + 1) + (nx + 1) * (2 * ny + 1), ny * c.1 + c.2 + (nx + 1) * (ny + 1)]

theorem squareElements2_eq (nx ny : ℕ) :
    SquareMesh.elements2 nx ny = some ((grid nx ny Prod.mk).map (quad2 nx ny)) := by
  unfold SquareMesh.elements2
  rw [fill_grid nx ny, map_grid]
  rfl

/-- The middle node of the edge number `k`. -/
def squareMid (nx ny k : ℕ) : ℕ :=
  if k < nx then (ny + 1) * k + (nx + 1) * (2 * ny + 1)
  else if k < nx + ny then k - nx + (nx + 1) * (ny + 1) + nx * ny
  else if k < 2 * nx + ny then (ny + 1) * (2 * nx + ny - k - 1) + (nx + 1) * (2 * ny + 1) + ny
  else 2 * (nx + ny) - k - 1 + (nx + 1) * (ny + 1)

theorem squareEdges2_eq (nx ny : ℕ) :
    SquareMesh.edges2 nx ny =
      some ((List.range (2 * (nx + ny))).map fun k => squareEdge nx ny k ++ [squareMid nx ny k]) := by
  unfold SquareMesh.edges2
  apply fill_eq
  · intro w hw
    simp only [List.mem_append, List.mem_flatMap, List.mem_range, List.mem_cons,
      List.not_mem_nil, or_false] at hw
    rcases hw with ⟨i, hi, rfl | rfl⟩ | ⟨j, hj, rfl | rfl⟩
    · refine ⟨by simp; omega, ?_⟩
      simp only [squareEdge, rimEdge, squareMid]
      rw [if_pos hi, if_pos hi]; rfl
    · refine ⟨by simp; omega, ?_⟩
      simp only [squareEdge, rimEdge, squareMid]
      rw [if_neg (by omega), if_neg (by omega), if_pos (by omega), if_neg (by omega), if_neg (by omega),
        if_pos (by omega)]
      rw [show 2 * nx + ny - (2 * nx + ny - i - 1) = i + 1 by omega]
      rfl
    · refine ⟨by simp; omega, ?_⟩
      simp only [squareEdge, rimEdge, squareMid]
      rw [if_neg (by omega), if_pos (by omega), if_neg (by omega), if_pos (by omega),
        show j + nx - nx = j by omega]
      rfl
    · refine ⟨by simp; omega, ?_⟩
      simp only [squareEdge, rimEdge, squareMid]
      rw [if_neg (by omega), if_neg (by omega), if_neg (by omega), if_neg (by omega), if_neg (by omega),
        if_neg (by omega), show 2 * (nx + ny) - (2 * (nx + ny) - j - 1) = j + 1 by omega]
      simp [squareNode]
  · intro k hk
    simp only [List.mem_append, List.mem_flatMap, List.mem_range, List.mem_cons,
      List.not_mem_nil, or_false]
    by_cases h1 : k < nx
    · exact ⟨_, Or.inl ⟨k, h1, Or.inl rfl⟩, rfl⟩
    by_cases h2 : k < nx + ny
    · exact ⟨_, Or.inr ⟨k - nx, by omega, Or.inl rfl⟩, by simp; omega⟩
    by_cases h3 : k < 2 * nx + ny
    · exact ⟨_, Or.inl ⟨2 * nx + ny - k - 1, by omega, Or.inr rfl⟩, by simp; omega⟩
    · exact ⟨_, Or.inr ⟨2 * (nx + ny) - k - 1, by omega, Or.inr rfl⟩, by simp; omega⟩

section
variable {K : Type} [Field K] [CharZero K]

theorem mid_horizontal (m : SquareMesh K) (hx : 0 < m.nx) {i j : ℕ} (hi : i < m.nx) (hj : j ≤ m.ny) :
    Midpoint (squareNodes2 m) ((m.ny + 1) * i + j + (m.nx + 1) * (2 * m.ny + 1)) (squareNode m.ny i j)
      (squareNode m.ny (i + 1) j) := by
  have hx0 : (m.nx : K) ≠ 0 := Nat.cast_ne_zero.2 (by omega)
  refine ⟨_, _, squareNodes2_corner m (by omega) hj, squareNodes2_corner m (by omega) hj, ?_⟩
  rw [squareNodes2_horizontal m hi hj]
  congr 2
  · push_cast; norm_num; field_simp; ring
  · ring

theorem mid_vertical (m : SquareMesh K) (hy : 0 < m.ny) {i j : ℕ} (hi : i ≤ m.nx) (hj : j < m.ny) :
    Midpoint (squareNodes2 m) (m.ny * i + j + (m.nx + 1) * (m.ny + 1)) (squareNode m.ny i j)
      (squareNode m.ny i (j + 1)) := by
  have hy0 : (m.ny : K) ≠ 0 := Nat.cast_ne_zero.2 (by omega)
  refine ⟨_, _, squareNodes2_corner m hi (by omega), squareNodes2_corner m hi (by omega), ?_⟩
  rw [squareNodes2_vertical m hi hj]
  congr 2
  · ring
  · push_cast; norm_num; field_simp; ring

omit [CharZero K] in
theorem Midpoint.symm {nodes : List (K × K)} {m a b : ℕ} (h : Midpoint nodes m a b) :
    Midpoint nodes m b a := by
  obtain ⟨p, q, h1, h2, h3⟩ := h
  exact ⟨q, p, h2, h1, by rw [h3, add_comm p.1, add_comm p.2]⟩

theorem quad2_mid (m : SquareMesh K) {i j : ℕ} (hi : i < m.nx) (hj : j < m.ny) :
    ∀ s ∈ midsides (quad2 m.nx m.ny (i, j)), Midpoint (squareNodes2 m) s.2 s.1.1 s.1.2 := by
  intro s hs
  simp only [quad2, quad, List.cons_append, List.nil_append, midsides, List.mem_cons, List.not_mem_nil,
    or_false] at hs
  rcases hs with rfl | rfl | rfl | rfl
  · exact mid_horizontal m (by omega) hi (by omega)
  · exact mid_vertical m (by omega) (by omega) hj
  · exact (mid_horizontal m (by omega) hi (by omega)).symm
  · exact (mid_vertical m (by omega) (by omega) hj).symm

theorem edge2_mid (m : SquareMesh K) {k : ℕ} (hk : k < 2 * (m.nx + m.ny)) :
    ∃ a b, squareEdge m.nx m.ny k = [a, b] ∧ Midpoint (squareNodes2 m) (squareMid m.nx m.ny k) a b := by
  unfold squareEdge rimEdge squareMid
  split_ifs with h1 h2 h3
  · exact ⟨_, _, rfl, mid_horizontal m (by omega) h1 (by omega)⟩
  · refine ⟨_, _, rfl, ?_⟩
    rw [show k - m.nx + (m.nx + 1) * (m.ny + 1) + m.nx * m.ny
      = m.ny * m.nx + (k - m.nx) + (m.nx + 1) * (m.ny + 1) by rw [mul_comm m.nx m.ny]; omega]
    exact mid_vertical m (by omega) le_rfl (by omega)
  · refine ⟨_, _, rfl, ?_⟩
    have := mid_horizontal m (i := 2 * m.nx + m.ny - k - 1) (j := m.ny) (by omega) (by omega) le_rfl
    rw [show 2 * m.nx + m.ny - k - 1 + 1 = 2 * m.nx + m.ny - k by omega] at this
    rw [show (m.ny + 1) * (2 * m.nx + m.ny - k - 1) + (m.nx + 1) * (2 * m.ny + 1) + m.ny
      = (m.ny + 1) * (2 * m.nx + m.ny - k - 1) + m.ny + (m.nx + 1) * (2 * m.ny + 1) by omega]
    exact this.symm
  · refine ⟨_, _, rfl, ?_⟩
    have := mid_vertical m (i := 0) (j := 2 * (m.nx + m.ny) - k - 1) (by omega) (by omega) (by omega)
    rw [show 2 * (m.nx + m.ny) - k - 1 + 1 = 2 * (m.nx + m.ny) - k by omega, mul_zero, zero_add] at this
    exact this.symm

theorem quad2_ok (nx ny : ℕ) {i j : ℕ} (hi : i < nx) (hj : j < ny) :
    (quad2 nx ny (i, j)).Nodup ∧
      ∀ n ∈ quad2 nx ny (i, j), n < (nx + 1) * (ny + 1) + (nx + 1) * ny + nx * (ny + 1) := by
  have e : (nx + 1) * (2 * ny + 1) = (nx + 1) * (ny + 1) + (nx + 1) * ny := by ring
  have c1 : squareNode ny i j < (nx + 1) * (ny + 1) := row_lt (by omega) (by omega)
  have c2 : squareNode ny (i + 1) j < (nx + 1) * (ny + 1) := row_lt (by omega) (by omega)
  have c3 : squareNode ny (i + 1) (j + 1) < (nx + 1) * (ny + 1) := row_lt (by omega) (by omega)
  have c4 : squareNode ny i (j + 1) < (nx + 1) * (ny + 1) := row_lt (by omega) (by omega)
  have v1 : ny * (i + 1) + j < (nx + 1) * ny := row_lt (by omega) hj
  have v2 : ny * i + j < (nx + 1) * ny := row_lt (by omega) hj
  have h1 : (ny + 1) * i + j < nx * (ny + 1) := row_lt hi (by omega)
  have h2 : (ny + 1) * i + (j + 1) < nx * (ny + 1) := row_lt hi (by omega)
  have hv : ny * (i + 1) + j ≠ ny * i + j := by
    intro h
    have := (row_inj hj hj h).1
    omega
  have hq := (squareCells nx ny).quad_nodup (c := (i, j)) (mem_grid.2 ⟨i, hi, j, hj, rfl⟩)
  constructor
  · unfold quad2
    rw [List.nodup_append]
    refine ⟨hq, ?_, ?_⟩
    · simp only [List.nodup_cons, List.mem_cons, List.not_mem_nil, or_false, not_or, not_false_eq_true,
        List.nodup_nil, and_true]
      refine ⟨⟨?_, ?_, ?_⟩, ⟨?_, ?_⟩, ?_⟩ <;> omega
    · intro a ha b hb
      have hal : a < (nx + 1) * (ny + 1) := by
        simp only [quad, List.mem_cons, List.not_mem_nil, or_false] at ha
        rcases ha with rfl | rfl | rfl | rfl <;> assumption
      simp only [List.mem_cons, List.not_mem_nil, or_false] at hb
      rcases hb with rfl | rfl | rfl | rfl <;> omega
  · intro n hn
    simp only [quad2, quad, List.cons_append, List.nil_append, List.mem_cons, List.not_mem_nil,
      or_false] at hn
    rcases hn with rfl | rfl | rfl | rfl | rfl | rfl | rfl | rfl <;> omega

/-- C53: the quadratic mesh has one element for every element of the linear mesh, with the same
corners, eight different existing nodes, and each side node in the middle of its side; the same for the
boundary edges. -/
theorem C53_mesh (m : SquareMesh K) (hx : 0 < m.nx) (hy : 0 < m.ny) :
    ∃ nodes elements edges elements1 edges1,
      m.nodes2 = some nodes ∧ SquareMesh.elements2 m.nx m.ny = some elements ∧
      SquareMesh.edges2 m.nx m.ny = some edges ∧
      SquareMesh.elements m.nx m.ny = some elements1 ∧ SquareMesh.edges m.nx m.ny = some edges1 ∧
      elements.map (List.take 4) = elements1 ∧ edges.map (List.take 2) = edges1 ∧
      (∀ e ∈ elements, e.length = 8 ∧ e.Nodup ∧ (∀ n ∈ e, n < nodes.length) ∧
        (midsides e).length = 4 ∧ ∀ s ∈ midsides e, Midpoint nodes s.2 s.1.1 s.1.2) ∧
      (∀ e ∈ edges, e.length = 3 ∧ (midsides e).length = 1 ∧
        ∀ s ∈ midsides e, Midpoint nodes s.2 s.1.1 s.1.2) := by
  refine ⟨_, _, _, _, _, squareNodes2_eq m hx hy, squareElements2_eq _ _, squareEdges2_eq _ _,
    squareElements_eq _ _, squareEdges_eq _ _, ?_, ?_, ?_, ?_⟩
  · rw [List.map_map]; rfl
  · rw [List.map_map]
    refine List.map_congr_left fun k hk => ?_
    obtain ⟨a, b, e, -⟩ := edge2_mid m (List.mem_range.1 hk)
    simp only [Function.comp, e]
    rfl
  · intro e he
    obtain ⟨c, hc, rfl⟩ := List.mem_map.1 he
    obtain ⟨i, hi, j, hj, rfl⟩ := mem_grid.1 hc
    refine ⟨rfl, (quad2_ok m.nx m.ny hi hj).1, ?_, rfl, quad2_mid m hi hj⟩
    rw [squareNodes2_length]
    exact (quad2_ok m.nx m.ny hi hj).2
  · intro e he
    obtain ⟨k, hk, rfl⟩ := List.mem_map.1 he
    obtain ⟨a, b, e, hm⟩ := edge2_mid m (List.mem_range.1 hk)
    rw [e]
    refine ⟨rfl, rfl, ?_⟩
    intro s hs
    have : s = ((a, b), squareMid m.nx m.ny k) := by simpa [midsides] using hs
    subst this
    exact hm

/-! ### Different nodes have different positions, so neighbours share their side nodes -/

omit [CharZero K] in
theorem Midpoint.unique {nodes : List (K × K)} (hn : nodes.Nodup) {m m' a b : ℕ}
    (h : Midpoint nodes m a b) (h' : Midpoint nodes m' a b) : m = m' := by
  obtain ⟨p, q, h1, h2, h3⟩ := h
  obtain ⟨p', q', h1', h2', h3'⟩ := h'
  rw [h1] at h1'
  rw [h2] at h2'
  cases h1'; cases h2'
  obtain ⟨hm, e⟩ := List.getElem?_eq_some_iff.1 h3
  obtain ⟨hm', e'⟩ := List.getElem?_eq_some_iff.1 h3'
  exact (List.Nodup.getElem_inj_iff hn).1 (e.trans e'.symm)

/-- The positions in halves of a cell. -/
def halves (nx ny : ℕ) : List (ℕ × ℕ) :=
  (grid (nx + 1) (ny + 1) fun i j => (2 * i, 2 * j)) ++ (grid (nx + 1) ny fun i j => (2 * i, 2 * j + 1)) ++
    grid nx (ny + 1) fun i j => (2 * i + 1, 2 * j)

theorem halves_nodup (nx ny : ℕ) : (halves nx ny).Nodup := by
  unfold halves
  rw [List.nodup_append, List.nodup_append]
  refine ⟨⟨grid_nodup fun i _ j _ i' _ j' _ e => ?_, grid_nodup fun i _ j _ i' _ j' _ e => ?_, ?_⟩,
    grid_nodup fun i _ j _ i' _ j' _ e => ?_, ?_⟩
  · simp at e; omega
  · simp at e; omega
  · intro a ha b hb e
    obtain ⟨i, -, j, -, rfl⟩ := mem_grid.1 ha
    obtain ⟨i', -, j', -, rfl⟩ := mem_grid.1 hb
    simp at e; omega
  · simp at e; omega
  · intro a ha b hb e
    obtain ⟨i', -, j', -, rfl⟩ := mem_grid.1 hb
    rcases List.mem_append.1 ha with ha | ha <;> obtain ⟨i, -, j, -, rfl⟩ := mem_grid.1 ha <;>
      simp at e <;> omega

theorem squareNodes2_halves (m : SquareMesh K) :
    squareNodes2 m = (halves m.nx m.ny).map fun h =>
      (m.x * ((h.1 : K) / 2 / (m.nx : K)), m.y * ((h.2 : K) / 2 / (m.ny : K))) := by
  unfold squareNodes2 halves
  rw [List.map_append, List.map_append, map_grid, map_grid, map_grid]
  have e1 : ∀ i : ℕ, ((2 * i : ℕ) : K) / 2 = i := by intro i; push_cast; field_simp
  have e2 : ∀ i : ℕ, ((2 * i + 1 : ℕ) : K) / 2 = i + 0.5 := by
    intro i; push_cast; norm_num; field_simp
  simp only [e1, e2]

theorem squareNodes2_nodup (m : SquareMesh K) (hx : 0 < m.nx) (hy : 0 < m.ny) (h1 : m.x ≠ 0) (h2 : m.y ≠ 0) :
    (squareNodes2 m).Nodup := by
  have hx0 : (m.nx : K) ≠ 0 := Nat.cast_ne_zero.2 (by omega)
  have hy0 : (m.ny : K) ≠ 0 := Nat.cast_ne_zero.2 (by omega)
  rw [squareNodes2_halves]
  refine List.Nodup.map ?_ (halves_nodup _ _)
  rintro ⟨a, b⟩ ⟨a', b'⟩ e
  simp only [Prod.mk.injEq] at e ⊢
  obtain ⟨ea, eb⟩ := e
  have ea := mul_left_cancel₀ h1 ea
  have eb := mul_left_cancel₀ h2 eb
  rw [div_left_inj' hx0, div_left_inj' two_ne_zero] at ea
  rw [div_left_inj' hy0, div_left_inj' two_ne_zero] at eb
  exact ⟨Nat.cast_injective ea, Nat.cast_injective eb⟩

/-- C53 (conformity): no two nodes have the same position; hence two elements, or an element and a
boundary edge, with a common side have the same node in its middle. -/
theorem C53_conforming (m : SquareMesh K) (hx : 0 < m.nx) (hy : 0 < m.ny) (h1 : m.x ≠ 0) (h2 : m.y ≠ 0) :
    ∃ nodes elements edges,
      m.nodes2 = some nodes ∧ SquareMesh.elements2 m.nx m.ny = some elements ∧
      SquareMesh.edges2 m.nx m.ny = some edges ∧ nodes.Nodup ∧
      ∀ e ∈ elements ++ edges, ∀ e' ∈ elements ++ edges, ∀ s ∈ midsides e, ∀ s' ∈ midsides e',
        (s.1 = s'.1 ∨ s.1 = s'.1.swap) → s.2 = s'.2 := by
  obtain ⟨nodes, elements, edges, -, -, a1, a2, a3, -, -, -, -, a4, a5⟩ := C53_mesh m hx hy
  have hn : nodes.Nodup := by
    rw [squareNodes2_eq m hx hy] at a1
    rw [← Option.some.inj a1]
    exact squareNodes2_nodup m hx hy h1 h2
  refine ⟨nodes, elements, edges, a1, a2, a3, hn, ?_⟩
  have key : ∀ e ∈ elements ++ edges, ∀ s ∈ midsides e, Midpoint nodes s.2 s.1.1 s.1.2 := by
    intro e he s hs
    rcases List.mem_append.1 he with he | he
    · exact (a4 e he).2.2.2.2 s hs
    · exact (a5 e he).2.2 s hs
  intro e he e' he' s hs s' hs' hor
  have k1 := key e he s hs
  have k2 := key e' he' s' hs'
  rcases hor with h | h
  · rw [h] at k1
    exact k1.unique hn k2
  · rw [h] at k1
    exact k1.symm.unique hn k2

end

/-- The concrete case of a rectangle of size 4 by 3 in two by three elements. -/
example : ∃ nodes elements edges, (⟨4, 3, 2, 3⟩ : SquareMesh ℚ).nodes2 = some nodes ∧
    SquareMesh.elements2 2 3 = some elements ∧ SquareMesh.edges2 2 3 = some edges ∧ nodes.Nodup ∧
      ∀ e ∈ elements ++ edges, ∀ e' ∈ elements ++ edges, ∀ s ∈ midsides e, ∀ s' ∈ midsides e',
        (s.1 = s'.1 ∨ s.1 = s'.1.swap) → s.2 = s'.2 :=
  C53_conforming (K := ℚ) ⟨4, 3, 2, 3⟩ (by norm_num) (by norm_num) (by norm_num) (by norm_num)

example : SquareMesh.elements2 2 1 = some [[0, 2, 3, 1, 9, 7, 10, 6], [2, 4, 5, 3, 11, 8, 12, 7]] ∧
    SquareMesh.edges2 2 1 =
      some [[0, 2, 9], [2, 4, 11], [4, 5, 8], [5, 3, 12], [3, 1, 10], [1, 0, 6]] := by decide +kernel

end Pansfem
