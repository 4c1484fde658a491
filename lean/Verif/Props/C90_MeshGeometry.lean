/-
C90: the elements of a mesh have together the area of the region, which is the area enclosed by the
boundary edges.  C92: elements are convex with corners in counter-clockwise order.  C94: the graded mesh.
-/
import Verif.Props.C55_RingMesh
import Mathlib.Analysis.SpecialFunctions.Pow.Real
import Mathlib.Analysis.SpecialFunctions.Trigonometric.Basic
import Mathlib.Algebra.Order.Field.Basic
import Mathlib.Tactic.Positivity

namespace Pansfem

/-! ### Ring shaped meshes in general -/

section
variable {K : Type} [Field K]

theorem getD_grid {m n : ℕ} (P : ℕ → ℕ → K × K) {i j : ℕ} (hi : i < m) (hj : j < n) :
    (grid m n P).getD (n * i + j) (0, 0) = P i j := by
  rw [List.getD_eq_getElem?_getD, getElem?_grid _ hi hj]
  rfl

theorem ring_enclosed (P : ℕ → ℕ → K × K) (rows n : ℕ) :
    enclosed (grid (rows + 1) n P) ((List.range (2 * n)).map (ringEdge rows n)) =
      (∑ j ∈ Finset.range n, cross (P rows j) (P rows (next n j)) -
        ∑ j ∈ Finset.range n, cross (P 0 j) (P 0 (next n j))) / 2 := by
  unfold enclosed
  rw [ringEdges_split, List.map_append, List.sum_append, List.map_map, List.map_map, add_comm, sub_eq_add_neg]
  congr 2
  · rw [← List.sum_toFinset _ List.nodup_range, List.toFinset_range]
    refine Finset.sum_congr rfl fun j hj => ?_
    rw [Finset.mem_range] at hj
    show cross ((grid (rows + 1) n P).getD (n * rows + j) (0, 0))
      ((grid (rows + 1) n P).getD (n * rows + (j + 1) % n) (0, 0)) = _
    rw [getD_grid _ (by omega) hj, show (j + 1) % n = next n j from rfl,
      getD_grid _ (by omega) (next_lt hj)]
  · rw [← List.sum_toFinset _ List.nodup_range, List.toFinset_range, ← Finset.sum_neg_distrib,
      ← Finset.sum_range_reflect]
    refine Finset.sum_congr rfl fun j hj => ?_
    rw [Finset.mem_range] at hj
    show cross ((grid (rows + 1) n P).getD ((n - (n - 1 - j)) % n) (0, 0))
      ((grid (rows + 1) n P).getD (n - (n - 1 - j) - 1) (0, 0)) = _
    rw [show n - (n - 1 - j) = j + 1 by omega, show j + 1 - 1 = j by omega]
    have e1 := getD_grid P (m := rows + 1) (i := 0) (by omega) (next_lt hj)
    have e2 := getD_grid P (m := rows + 1) (i := 0) (by omega) hj
    rw [mul_zero, zero_add] at e1 e2
    rw [e2, show (j + 1) % n = next n j from rfl, e1, cross_swap]

/-- The areas of the elements of a ring shaped mesh. -/
theorem ring_area (P : ℕ → ℕ → K × K) {rows n : ℕ} (hr : 0 < rows) (hn : 3 ≤ n) :
    (((grid rows n Prod.mk).map (quad (ringNode n) (next n))).map (polyArea (grid (rows + 1) n P))).sum =
      (∑ j ∈ Finset.range n, cross (P rows j) (P rows (next n j)) -
        ∑ j ∈ Finset.range n, cross (P 0 j) (P 0 (next n j))) / 2 := by
  obtain ⟨el, ed, h1, h2, -, -, h3⟩ := C55_mesh rows n hr hn
  rw [ringElements_eq] at h1
  rw [ringEdges_eq] at h2
  cases h1
  cases h2
  rw [sum_polyArea _ h3, ring_enclosed]

/-- The corners of an element. -/
theorem ring_quad [LinearOrder K] (P : ℕ → ℕ → K × K) {rows n : ℕ}
    (h : ∀ i < rows, ∀ j < n,
      0 < turn (P i j) (P (i + 1) j) (P (i + 1) (next n j)) ∧
      0 < turn (P (i + 1) j) (P (i + 1) (next n j)) (P i (next n j)) ∧
      0 < turn (P (i + 1) (next n j)) (P i (next n j)) (P i j) ∧
      0 < turn (P i (next n j)) (P i j) (P (i + 1) j)) :
    ∀ e ∈ (grid rows n Prod.mk).map (quad (ringNode n) (next n)), ConvexQuad (grid (rows + 1) n P) e := by
  intro e he
  obtain ⟨c, hc, rfl⟩ := List.mem_map.1 he
  obtain ⟨i, hi, j, hj, rfl⟩ := mem_grid.1 hc
  have hj' := next_lt hj
  exact ⟨_, _, _, _, _, _, _, _, rfl, getElem?_grid _ (by omega) hj, getElem?_grid _ (by omega) hj,
    getElem?_grid _ (by omega) hj', getElem?_grid _ (by omega) hj', h i hi j hj⟩

end

/-! ### AnnulusMesh -/

/-- The angle of position `j` out of `n`. -/
noncomputable def angle (n j : ℕ) : ℝ := 2.0 * Real.pi * j / n

theorem angle_next {n j : ℕ} (h : j < n) :
    Real.cos (angle n (next n j)) = Real.cos (angle n j + 2 * Real.pi / n) ∧
      Real.sin (angle n (next n j)) = Real.sin (angle n j + 2 * Real.pi / n) := by
  have hn : (n : ℝ) ≠ 0 := Nat.cast_ne_zero.2 (by omega)
  have h2 : (2.0 : ℝ) = 2 := by norm_num
  have e1 : angle n j + 2 * Real.pi / n = angle n (j + 1) := by
    unfold angle; rw [h2]; push_cast; field_simp
  rw [e1]
  rcases next_cases h with ⟨-, e⟩ | ⟨h', e⟩
  · rw [e]; exact ⟨rfl, rfl⟩
  · have e2 : angle n (j + 1) = 2 * Real.pi := by
      unfold angle; rw [h', h2]; field_simp
    have e3 : angle n 0 = 0 := by unfold angle; simp
    rw [e, e2, e3]
    simp

theorem annulus_cross (m : AnnulusMesh) {i i' j : ℕ} (h : j < m.nt) :
    cross (m.point i j) (m.point i' (next m.nt j)) =
      m.radius i * m.radius i' * Real.sin (2 * Real.pi / m.nt) := by
  obtain ⟨hc, hs⟩ := angle_next h
  have hp : ∀ i j, m.point i j = (m.radius i * Real.cos (angle m.nt j), m.radius i * Real.sin (angle m.nt j)) :=
    fun i j => rfl
  unfold cross
  rw [hp, hp]
  simp only
  rw [hc, hs, Real.cos_add, Real.sin_add]
  linear_combination (m.radius i * m.radius i' * Real.sin (2 * Real.pi / m.nt)) *
    (Real.sin_sq_add_cos_sq (angle m.nt j))

theorem annulus_cross_same (m : AnnulusMesh) (i i' j : ℕ) : cross (m.point i j) (m.point i' j) = 0 := by
  unfold cross AnnulusMesh.point
  simp only
  ring

theorem turn_cross {K : Type} [CommRing K] (p q r : K × K) :
    turn p q r = cross p q + cross q r + cross r p := by
  unfold turn cross; ring

theorem sin_pos_of_three {n : ℕ} (h : 3 ≤ n) : 0 < Real.sin (2 * Real.pi / n) := by
  have hn : (3 : ℝ) ≤ n := by exact_mod_cast h
  have hpi := Real.pi_pos
  apply Real.sin_pos_of_pos_of_lt_pi
  · positivity
  · rw [div_lt_iff₀ (by linarith)]
    nlinarith

/-- C90 for `AnnulusMesh`: the elements have together the area between two regular polygons. -/
theorem C90_annulus (m : AnnulusMesh) (hr : 0 < m.nr) (ht : 3 ≤ m.nt) :
    ∃ nodes elements edges, m.nodes = some nodes ∧ ringElements m.nr m.nt = some elements ∧
      ringEdges m.nr m.nt = some edges ∧
      (elements.map (polyArea nodes)).sum =
        m.nt / 2 * Real.sin (2 * Real.pi / m.nt) * (m.r1 ^ 2 - m.r0 ^ 2) ∧
      enclosed nodes edges = (elements.map (polyArea nodes)).sum := by
  have hr0 : (m.nr : ℝ) ≠ 0 := Nat.cast_ne_zero.2 (by omega)
  refine ⟨_, _, _, annulusNodes_eq m hr, ringElements_eq _ _, ringEdges_eq _ _, ?_, ?_⟩
  · rw [ring_area _ hr ht]
    rw [Finset.sum_congr rfl fun j hj => annulus_cross m (i := m.nr) (i' := m.nr) (Finset.mem_range.1 hj),
      Finset.sum_congr rfl fun j hj => annulus_cross m (i := 0) (i' := 0) (Finset.mem_range.1 hj)]
    rw [Finset.sum_const, Finset.sum_const, Finset.card_range, nsmul_eq_mul, nsmul_eq_mul]
    have e1 : m.radius m.nr = m.r1 := by unfold AnnulusMesh.radius; field_simp; ring
    have e0 : m.radius 0 = m.r0 := by unfold AnnulusMesh.radius; simp
    rw [e1, e0]
    ring
  · rw [ring_area _ hr ht, ring_enclosed]

theorem radius_lt (m : AnnulusMesh) (hr : 0 < m.nr) (h : m.r0 < m.r1) (i : ℕ) :
    m.radius i < m.radius (i + 1) := by
  have hr0 : (0 : ℝ) < m.nr := Nat.cast_pos.2 hr
  unfold AnnulusMesh.radius
  have : (m.r1 - m.r0) * (i : ℝ) / m.nr < (m.r1 - m.r0) * ((i + 1 : ℕ) : ℝ) / m.nr := by
    apply div_lt_div_of_pos_right _ hr0
    apply mul_lt_mul_of_pos_left _ (by linarith)
    exact_mod_cast Nat.lt_succ_self i
  linarith

/-- C92 for `AnnulusMesh`. -/
theorem C92_annulus (m : AnnulusMesh) (hr : 0 < m.nr) (ht : 3 ≤ m.nt) (h0 : 0 < m.r0) (h1 : m.r0 < m.r1) :
    ∃ nodes elements, m.nodes = some nodes ∧ ringElements m.nr m.nt = some elements ∧
      ∀ e ∈ elements, ConvexQuad nodes e := by
  refine ⟨_, _, annulusNodes_eq m hr, ringElements_eq _ _, ?_⟩
  apply ring_quad
  intro i _ j hj
  have hs := sin_pos_of_three ht
  have hlt := radius_lt m hr h1 i
  have hpos : 0 < m.radius i := by
    have : m.r0 ≤ m.radius i := by
      unfold AnnulusMesh.radius
      have : 0 ≤ (m.r1 - m.r0) * (i : ℝ) / m.nr :=
        div_nonneg (mul_nonneg (by linarith) (Nat.cast_nonneg _)) (Nat.cast_nonneg _)
      linarith
    linarith
  have hpos' : 0 < m.radius (i + 1) := by linarith
  have a : 0 < m.radius (i + 1) * (m.radius (i + 1) - m.radius i) * Real.sin (2 * Real.pi / m.nt) :=
    mul_pos (mul_pos hpos' (by linarith)) hs
  have b : 0 < m.radius i * (m.radius (i + 1) - m.radius i) * Real.sin (2 * Real.pi / m.nt) :=
    mul_pos (mul_pos hpos (by linarith)) hs
  simp only [turn_cross]
  refine ⟨?_, ?_, ?_, ?_⟩
  · rw [annulus_cross_same, annulus_cross m hj, cross_swap, annulus_cross m hj]; linarith
  · rw [annulus_cross_same, annulus_cross m hj, cross_swap (m.point (i + 1) j), annulus_cross m hj]; linarith
  · rw [annulus_cross_same, cross_swap (m.point i j) (m.point i _), annulus_cross m hj, annulus_cross m hj]
    linarith
  · rw [annulus_cross_same, cross_swap (m.point i j) (m.point i _), annulus_cross m hj, annulus_cross m hj]
    linarith

/-! ### The square rings -/

section
variable {K : Type} [Field K]

/-- The points on the boundary of the unit square around the origin. -/
def unitSquare (nx ny j : ℕ) : K × K :=
  if j < ny then (1 / 2, (j : K) / (ny : K) - 1 / 2)
  else if j < ny + nx then (1 / 2 - ((j - ny : ℕ) : K) / (nx : K), 1 / 2)
  else if j < 2 * ny + nx then (-(1 / 2), 1 / 2 - ((j - ny - nx : ℕ) : K) / (ny : K))
  else (((j - 2 * ny - nx : ℕ) : K) / (nx : K) - 1 / 2, -(1 / 2))

theorem saPoint_unit [CharZero K] (m : SquareAnnulusMesh K) (t : K) (j : ℕ) :
    saPoint m t j = ((t * m.a + (1 - t) * m.c) * (unitSquare (K := K) m.nx m.ny j).1,
      (t * m.b + (1 - t) * m.d) * (unitSquare (K := K) m.nx m.ny j).2) := by
  unfold saPoint unitSquare
  split_ifs <;> simp only [Prod.mk.injEq] <;> constructor <;> norm_num <;> ring

/-- Two neighbouring points on the unit square. -/
theorem unitSquare_next [CharZero K] {nx ny j : ℕ} (hx : 0 < nx) (hy : 0 < ny) (hj : j < 2 * (nx + ny)) :
    (j < ny ∧ ∃ y : K, unitSquare nx ny j = (1 / 2, y) ∧
        unitSquare nx ny (next (2 * (nx + ny)) j) = (1 / 2, y + 1 / (ny : K))) ∨
    (ny ≤ j ∧ j < ny + nx ∧ ∃ x : K, unitSquare nx ny j = (x, 1 / 2) ∧
        unitSquare nx ny (next (2 * (nx + ny)) j) = (x - 1 / (nx : K), 1 / 2)) ∨
    (ny + nx ≤ j ∧ j < 2 * ny + nx ∧ ∃ y : K, unitSquare nx ny j = (-(1 / 2), y) ∧
        unitSquare nx ny (next (2 * (nx + ny)) j) = (-(1 / 2), y - 1 / (ny : K))) ∨
    (2 * ny + nx ≤ j ∧ ∃ x : K, unitSquare nx ny j = (x, -(1 / 2)) ∧
        unitSquare nx ny (next (2 * (nx + ny)) j) = (x + 1 / (nx : K), -(1 / 2))) := by
  have hx0 : (nx : K) ≠ 0 := Nat.cast_ne_zero.2 (by omega)
  have hy0 : (ny : K) ≠ 0 := Nat.cast_ne_zero.2 (by omega)
  by_cases h1 : j < ny
  · refine Or.inl ⟨h1, (j : K) / (ny : K) - 1 / 2, by unfold unitSquare; rw [if_pos h1], ?_⟩
    rw [show next (2 * (nx + ny)) j = j + 1 from Nat.mod_eq_of_lt (by omega)]
    unfold unitSquare
    by_cases h : j + 1 < ny
    · rw [if_pos h]; simp only [Prod.mk.injEq, true_and]; push_cast; ring
    · rw [if_neg h, if_pos (by omega), show j + 1 - ny = 0 by omega, ← show j + 1 = ny by omega]
      have : ((j + 1 : ℕ) : K) ≠ 0 := Nat.cast_ne_zero.2 (by omega)
      push_cast at this ⊢
      simp only [Prod.mk.injEq]
      constructor
      · simp
      · field_simp; ring
  by_cases h2 : j < ny + nx
  · refine Or.inr (Or.inl ⟨by omega, h2, 1 / 2 - ((j - ny : ℕ) : K) / (nx : K), ?_, ?_⟩)
    · unfold unitSquare; rw [if_neg h1, if_pos h2]
    rw [show next (2 * (nx + ny)) j = j + 1 from Nat.mod_eq_of_lt (by omega)]
    unfold unitSquare
    by_cases h : j + 1 < ny + nx
    · rw [if_neg (by omega), if_pos h, show j + 1 - ny = j - ny + 1 by omega]
      simp only [Prod.mk.injEq, and_true]; push_cast; ring
    · rw [if_neg (by omega), if_neg h, if_pos (by omega), show j + 1 - ny - nx = 0 by omega,
        ← show j - ny + 1 = nx by omega]
      have : ((j - ny + 1 : ℕ) : K) ≠ 0 := Nat.cast_ne_zero.2 (by omega)
      rw [Nat.cast_add] at this ⊢
      simp only [Prod.mk.injEq]
      constructor
      · push_cast at this ⊢; field_simp; ring
      · simp
  by_cases h3 : j < 2 * ny + nx
  · refine Or.inr (Or.inr (Or.inl ⟨by omega, h3, 1 / 2 - ((j - ny - nx : ℕ) : K) / (ny : K), ?_, ?_⟩))
    · unfold unitSquare; rw [if_neg h1, if_neg h2, if_pos h3]
    rw [show next (2 * (nx + ny)) j = j + 1 from Nat.mod_eq_of_lt (by omega)]
    unfold unitSquare
    by_cases h : j + 1 < 2 * ny + nx
    · rw [if_neg (by omega), if_neg (by omega), if_pos h, show j + 1 - ny - nx = j - ny - nx + 1 by omega]
      simp only [Prod.mk.injEq, true_and]; push_cast; ring
    · rw [if_neg (by omega), if_neg (by omega), if_neg h, show j + 1 - 2 * ny - nx = 0 by omega]
      have e' : ((j - ny - nx : ℕ) : K) + 1 = (ny : K) := by
        rw [← Nat.cast_succ]; congr 1; omega
      simp only [Prod.mk.injEq]
      constructor
      · simp
      · have : ((j - ny - nx : ℕ) : K) = (ny : K) - 1 := by rw [← e']; ring
        rw [this]; field_simp; ring
  · refine Or.inr (Or.inr (Or.inr ⟨by omega, ((j - 2 * ny - nx : ℕ) : K) / (nx : K) - 1 / 2, ?_, ?_⟩))
    · unfold unitSquare; rw [if_neg h1, if_neg h2, if_neg h3]
    rcases next_cases hj with ⟨h, e⟩ | ⟨h, e⟩
    · rw [e]
      unfold unitSquare
      rw [if_neg (by omega), if_neg (by omega), if_neg (by omega),
        show j + 1 - 2 * ny - nx = j - 2 * ny - nx + 1 by omega]
      simp only [Prod.mk.injEq, and_true]; push_cast; ring
    · rw [e]
      unfold unitSquare
      rw [if_pos (by omega)]
      have e' : ((j - 2 * ny - nx : ℕ) : K) + 1 = (nx : K) := by
        rw [← Nat.cast_succ]; congr 1; omega
      simp only [Prod.mk.injEq]
      constructor
      · have : ((j - 2 * ny - nx : ℕ) : K) = (nx : K) - 1 := by rw [← e']; ring
        rw [this]; field_simp; ring
      · simp

/-- The unit square has area one. -/
theorem unitSquare_area [CharZero K] {nx ny : ℕ} (hx : 0 < nx) (hy : 0 < ny) :
    ∑ j ∈ Finset.range (2 * (nx + ny)), cross (unitSquare (K := K) nx ny j)
      (unitSquare nx ny (next (2 * (nx + ny)) j)) = 2 := by
  have hx0 : (nx : K) ≠ 0 := Nat.cast_ne_zero.2 (by omega)
  have hy0 : (ny : K) ≠ 0 := Nat.cast_ne_zero.2 (by omega)
  set g : ℕ → K := fun j => cross (unitSquare (K := K) nx ny j) (unitSquare nx ny (next (2 * (nx + ny)) j))
    with hg
  have hy' : ∀ j < 2 * (nx + ny), (j < ny ∨ (ny + nx ≤ j ∧ j < 2 * ny + nx)) → g j = 1 / (2 * (ny : K)) := by
    intro j hj h
    rcases unitSquare_next (K := K) hx hy hj with ⟨h1, y, e1, e2⟩ | ⟨h1, h2, y, e1, e2⟩ | ⟨h1, h2, y, e1, e2⟩ |
        ⟨h1, y, e1, e2⟩
    · rw [hg]; simp only; rw [e1, e2]; unfold cross; field_simp; ring
    · omega
    · rw [hg]; simp only; rw [e1, e2]; unfold cross; field_simp; ring
    · omega
  have hx' : ∀ j < 2 * (nx + ny), ((ny ≤ j ∧ j < ny + nx) ∨ 2 * ny + nx ≤ j) → g j = 1 / (2 * (nx : K)) := by
    intro j hj h
    rcases unitSquare_next (K := K) hx hy hj with ⟨h1, y, e1, e2⟩ | ⟨h1, h2, y, e1, e2⟩ | ⟨h1, h2, y, e1, e2⟩ |
        ⟨h1, y, e1, e2⟩
    · omega
    · rw [hg]; simp only; rw [e1, e2]; unfold cross; field_simp; ring
    · omega
    · rw [hg]; simp only; rw [e1, e2]; unfold cross; field_simp; ring
  have hsum : ∑ j ∈ Finset.range (2 * (nx + ny)), g j = ((List.range (2 * (nx + ny))).map g).sum := by
    rw [← List.sum_toFinset _ List.nodup_range, List.toFinset_range]
  rw [hsum, ← ring_parts g nx ny]
  simp only [List.sum_append]
  have const : ∀ (n : ℕ) (f : ℕ → K) (c : K), (∀ j < n, f j = c) → ((List.range n).map f).sum = n * c := by
    intro n f c h
    rw [List.map_congr_left fun j hj => h j (List.mem_range.1 hj)]
    simp
  rw [const ny _ _ fun j hj => hy' j (by omega) (Or.inl hj),
    const nx _ _ fun j hj => hx' (j + ny) (by omega) (Or.inl ⟨by omega, by omega⟩),
    const ny _ _ fun j hj => hy' (j + ny + nx) (by omega) (Or.inr ⟨by omega, by omega⟩),
    const nx _ _ fun j hj => hx' (j + 2 * ny + nx) (by omega) (Or.inr (by omega))]
  field_simp
  norm_num

theorem cross_scale (A B : K) (p q : K × K) :
    cross (A * p.1, B * p.2) (A * q.1, B * q.2) = A * B * cross p q := by
  unfold cross; ring

/-- C90 for `SquareAnnulusMesh`: the area between the two rectangles. -/
theorem C90_squareAnnulus [CharZero K] (m : SquareAnnulusMesh K) (hx : 0 < m.nx) (hy : 0 < m.ny)
    (ht : 0 < m.nt) :
    ∃ nodes elements edges, m.nodes = some nodes ∧ ringElements m.nt m.nxy = some elements ∧
      ringEdges m.nt m.nxy = some edges ∧
      (elements.map (polyArea nodes)).sum = m.a * m.b - m.c * m.d ∧
      enclosed nodes edges = (elements.map (polyArea nodes)).sum := by
  have ht0 : (m.nt : K) ≠ 0 := Nat.cast_ne_zero.2 (by omega)
  have hn : 3 ≤ m.nxy := by unfold SquareAnnulusMesh.nxy; omega
  refine ⟨_, _, _, saNodes_eq m ht, ringElements_eq _ _, ringEdges_eq _ _, ?_, ?_⟩
  · rw [ring_area _ ht hn]
    simp only [saPoint_unit, cross_scale, ← Finset.mul_sum]
    rw [show m.nxy = 2 * (m.nx + m.ny) from rfl, unitSquare_area hx hy, div_self ht0]
    simp
    ring
  · rw [ring_area _ ht hn, ring_enclosed]

end

/-- C92 for `SquareAnnulusMesh` with a positive inner rectangle that is smaller in both directions. -/
theorem C92_squareAnnulus {K : Type} [Field K] [LinearOrder K] [IsStrictOrderedRing K]
    (m : SquareAnnulusMesh K) (hx : 0 < m.nx) (hy : 0 < m.ny) (ht : 0 < m.nt) (hc : 0 < m.c) (hd : 0 < m.d)
    (ha : m.c < m.a) (hb : m.d < m.b) :
    ∃ nodes elements, m.nodes = some nodes ∧ ringElements m.nt m.nxy = some elements ∧
      ∀ e ∈ elements, ConvexQuad nodes e := by
  have ht0 : (0 : K) < (m.nt : K) := Nat.cast_pos.2 ht
  have hx0 : (0 : K) < 1 / (m.nx : K) := one_div_pos.2 (Nat.cast_pos.2 hx)
  have hy0 : (0 : K) < 1 / (m.ny : K) := one_div_pos.2 (Nat.cast_pos.2 hy)
  refine ⟨_, _, saNodes_eq m ht, ringElements_eq _ _, ?_⟩
  apply ring_quad
  intro i hi j hj
  simp only [saPoint_unit]
  set t : K := (i : K) / (m.nt : K) with htd
  set t' : K := ((i + 1 : ℕ) : K) / (m.nt : K) with htd'
  have h0 : 0 ≤ t := div_nonneg (Nat.cast_nonneg _) ht0.le
  have h1 : t < t' := by
    apply div_lt_div_of_pos_right _ ht0
    exact_mod_cast Nat.lt_succ_self i
  have h2 : t' ≤ 1 := by
    rw [htd', div_le_one ht0]
    exact_mod_cast hi
  have A0 : 0 < t * m.a + (1 - t) * m.c := by nlinarith
  have B0 : 0 < t * m.b + (1 - t) * m.d := by nlinarith
  have A1 : t * m.a + (1 - t) * m.c < t' * m.a + (1 - t') * m.c := by nlinarith
  have B1 : t * m.b + (1 - t) * m.d < t' * m.b + (1 - t') * m.d := by nlinarith
  revert A0 B0 A1 B1
  generalize t * m.a + (1 - t) * m.c = A
  generalize t * m.b + (1 - t) * m.d = B
  generalize t' * m.a + (1 - t') * m.c = A'
  generalize t' * m.b + (1 - t') * m.d = B'
  intro A0 B0 A1 B1
  have A2 : 0 < A' := by linarith
  have B2 : 0 < B' := by linarith
  have p1 := mul_pos (mul_pos (sub_pos.2 A1) B2) hy0
  have p2 := mul_pos (mul_pos (sub_pos.2 A1) B0) hy0
  have q1 := mul_pos (mul_pos (sub_pos.2 B1) A2) hx0
  have q2 := mul_pos (mul_pos (sub_pos.2 B1) A0) hx0
  unfold turn
  rcases unitSquare_next (K := K) hx hy hj with ⟨-, y, e1, e2⟩ | ⟨-, -, y, e1, e2⟩ | ⟨-, -, y, e1, e2⟩ |
      ⟨-, y, e1, e2⟩ <;>
    rw [show m.nxy = 2 * (m.nx + m.ny) from rfl, e1, e2] <;> simp only <;>
    refine ⟨?_, ?_, ?_, ?_⟩ <;> linarith

/-! ### SquareCircleAnnulusMesh -/

theorem scPoint_outer (m : SquareCircleMesh) (hr : 0 < m.nr) (j : ℕ) :
    scPoint m m.nr j = (m.a * (unitSquare (K := ℝ) m.nx m.ny j).1, m.b * (unitSquare (K := ℝ) m.nx m.ny j).2) := by
  have hr0 : (m.nr : ℝ) ≠ 0 := Nat.cast_ne_zero.2 (by omega)
  have hb : m.blend m.nr = 1 := by unfold SquareCircleMesh.blend; rw [div_self hr0, Real.one_rpow]
  unfold scPoint unitSquare SquareCircleMesh.right SquareCircleMesh.top SquareCircleMesh.left
    SquareCircleMesh.bottom
  rw [hb]
  split_ifs <;> simp only [Prod.mk.injEq] <;> constructor <;> norm_num <;> ring

/-- The angle of position `j` on the circle. -/
noncomputable def scAngle (m : SquareCircleMesh) (j : ℕ) : ℝ := 2 * Real.pi * (j - 0.5 * m.ny) / m.nxy

theorem scPoint_inner (m : SquareCircleMesh) (hp : 0 < m.p) (j : ℕ) :
    scPoint m 0 j = (m.r * Real.cos (scAngle m j), m.r * Real.sin (scAngle m j)) := by
  have hb : m.blend 0 = 0 := by
    unfold SquareCircleMesh.blend; rw [Nat.cast_zero, zero_div, Real.zero_rpow hp.ne']
  unfold scPoint SquareCircleMesh.right SquareCircleMesh.top SquareCircleMesh.left SquareCircleMesh.bottom
    scAngle
  rw [hb]
  split_ifs with h1 h2 h3
  · norm_num
  · have e : ((j - m.ny : ℕ) : ℝ) + 0.5 * m.ny = j - 0.5 * m.ny := by
      rw [Nat.cast_sub (by omega)]; ring
    rw [e]; norm_num
  · have e : ((j - m.ny - m.nx : ℕ) : ℝ) + 0.5 * m.ny + m.nx = j - 0.5 * m.ny := by
      rw [Nat.cast_sub (by omega), Nat.cast_sub (by omega)]; ring
    rw [e]; norm_num
  · have e : ((j - 2 * m.ny - m.nx : ℕ) : ℝ) + 1.5 * m.ny + m.nx = j - 0.5 * m.ny := by
      rw [Nat.cast_sub (by omega), Nat.cast_sub (by omega)]; push_cast; ring
    rw [e]; norm_num

theorem scAngle_next (m : SquareCircleMesh) {j : ℕ} (h : j < m.nxy) :
    Real.cos (scAngle m (next m.nxy j)) = Real.cos (scAngle m j + 2 * Real.pi / m.nxy) ∧
      Real.sin (scAngle m (next m.nxy j)) = Real.sin (scAngle m j + 2 * Real.pi / m.nxy) := by
  have hn : (m.nxy : ℝ) ≠ 0 := Nat.cast_ne_zero.2 (by omega)
  have e1 : scAngle m j + 2 * Real.pi / m.nxy = scAngle m (j + 1) := by
    unfold scAngle; push_cast; field_simp; ring
  rw [e1]
  rcases next_cases h with ⟨-, e⟩ | ⟨h', e⟩
  · rw [e]; exact ⟨rfl, rfl⟩
  · have e2 : scAngle m (j + 1) = scAngle m 0 + 2 * Real.pi := by
      unfold scAngle; rw [h']; push_cast; field_simp; ring
    rw [e, e2, Real.cos_add_two_pi, Real.sin_add_two_pi]
    exact ⟨rfl, rfl⟩

/-- C90 for `SquareCircleAnnulusMesh`: the area of the rectangle less that of a regular polygon in the
circle. -/
theorem C90_squareCircle (m : SquareCircleMesh) (hx : 0 < m.nx) (hy : 0 < m.ny) (hr : 0 < m.nr)
    (hp : 0 < m.p) :
    ∃ nodes elements edges, m.nodes = some nodes ∧ ringElements m.nr m.nxy = some elements ∧
      ringEdges m.nr m.nxy = some edges ∧
      (elements.map (polyArea nodes)).sum =
        m.a * m.b - m.nxy / 2 * Real.sin (2 * Real.pi / m.nxy) * m.r ^ 2 ∧
      enclosed nodes edges = (elements.map (polyArea nodes)).sum := by
  have hn : 3 ≤ m.nxy := by unfold SquareCircleMesh.nxy; omega
  refine ⟨_, _, _, scNodes_eq m hr hp.le, ringElements_eq _ _, ringEdges_eq _ _, ?_, ?_⟩
  · rw [ring_area _ hr hn]
    have hin : ∀ j ∈ Finset.range m.nxy, cross (scPoint m 0 j) (scPoint m 0 (next m.nxy j)) =
        m.r ^ 2 * Real.sin (2 * Real.pi / m.nxy) := by
      intro j hj
      obtain ⟨hc, hs⟩ := scAngle_next m (Finset.mem_range.1 hj)
      rw [scPoint_inner m hp, scPoint_inner m hp]
      unfold cross
      simp only
      rw [hc, hs, Real.cos_add, Real.sin_add]
      linear_combination (m.r ^ 2 * Real.sin (2 * Real.pi / m.nxy)) * (Real.sin_sq_add_cos_sq (scAngle m j))
    rw [Finset.sum_congr rfl hin]
    simp only [scPoint_outer m hr, cross_scale, ← Finset.mul_sum]
    rw [Finset.sum_const, Finset.card_range, nsmul_eq_mul]
    have := unitSquare_area (K := ℝ) hx hy
    rw [show (2 * (m.nx + m.ny)) = m.nxy from rfl] at this
    rw [this]
    ring
  · rw [ring_area _ hr hn, ring_enclosed]

/-! ### SquareMesh2: graded -/

theorem scale_some {l r : ℝ} {n : ℕ} (hr : 0 < r) (h1 : r ≠ 1) (hn : 0 < n) :
    GradedMesh.scale l r n = some (0.5 * l / (r ^ ((n : ℝ) / 2) - 1)) := by
  unfold GradedMesh.scale
  rw [if_neg]
  rw [not_or]
  refine ⟨by linarith, fun h => h1 ?_⟩
  have hn0 : (0 : ℝ) < (n : ℝ) / 2 := by positivity
  rcases lt_trichotomy r 1 with h' | h' | h'
  · have := Real.rpow_lt_one hr.le h' hn0; linarith
  · exact h'
  · have := Real.one_lt_rpow h' hn0; linarith

/-- Half of the coordinates: a function of the position, increasing, and half of the length in the
middle. -/
theorem graded_half {l r : ℝ} {n : ℕ} (hl : 0 < l) (hr : 0 < r) (h1 : r ≠ 1) (hn : 0 < n) :
    let r0 := 0.5 * l / (r ^ ((n : ℝ) / 2) - 1)
    StrictMono (fun s : ℝ => r0 * (r ^ s - 1)) ∧ r0 * (r ^ ((n : ℝ) / 2) - 1) = l / 2 := by
  intro r0
  have hn0 : (0 : ℝ) < (n : ℝ) / 2 := by positivity
  rcases lt_or_gt_of_ne h1 with h | h
  · have hneg : r ^ ((n : ℝ) / 2) - 1 < 0 := by have := Real.rpow_lt_one hr.le h hn0; linarith
    refine ⟨?_, ?_⟩
    · intro s t hst
      have h0 : r0 < 0 := div_neg_of_pos_of_neg (by linarith) hneg
      have := Real.rpow_lt_rpow_of_exponent_gt hr h hst
      simp only
      nlinarith
    · simp only [r0]; field_simp [hneg.ne]; norm_num
  · have hpos : 0 < r ^ ((n : ℝ) / 2) - 1 := by have := Real.one_lt_rpow h hn0; linarith
    refine ⟨?_, ?_⟩
    · intro s t hst
      have h0 : 0 < r0 := div_pos (by linarith) hpos
      have := Real.rpow_lt_rpow_of_exponent_lt h hst
      simp only
      nlinarith
    · simp only [r0]; field_simp [hpos.ne']; norm_num

/-- C94: the coordinates of a graded mesh increase from zero to the length. -/
theorem C94_coordinate {l r : ℝ} {n : ℕ} (hl : 0 < l) (hr : 0 < r) (h1 : r ≠ 1) (hn : 0 < n) :
    ∃ r0, GradedMesh.scale l r n = some r0 ∧ GradedMesh.coordinate l r r0 n 0 = 0 ∧
      GradedMesh.coordinate l r r0 n n = l ∧
      (∀ i < n, GradedMesh.coordinate l r r0 n i < GradedMesh.coordinate l r r0 n (i + 1)) ∧
      (∀ i ≤ n, GradedMesh.coordinate l r r0 n (n - i) = l - GradedMesh.coordinate l r r0 n i) ∧
      ∀ i, 2 * (i + 2) ≤ n → GradedMesh.coordinate l r r0 n (i + 2) - GradedMesh.coordinate l r r0 n (i + 1) =
        r * (GradedMesh.coordinate l r r0 n (i + 1) - GradedMesh.coordinate l r r0 n i) := by
  obtain ⟨hmono, hmid⟩ := graded_half hl hr h1 hn
  refine ⟨_, scale_some hr h1 hn, ?_⟩
  revert hmono hmid
  generalize 0.5 * l / (r ^ ((n : ℝ) / 2) - 1) = r0
  intro hmono hmid
  have hn0 : (0 : ℝ) < n := Nat.cast_pos.2 hn
  have hlow : ∀ i : ℕ, 2 * i < n → GradedMesh.coordinate l r r0 n i = r0 * (r ^ (i : ℝ) - 1) := by
    intro i hi
    unfold GradedMesh.coordinate
    have : (2 : ℝ) * i < n := by exact_mod_cast hi
    rw [if_pos (by linarith), Real.rpow_natCast]
  have hhigh : ∀ i : ℕ, n < 2 * i → GradedMesh.coordinate l r r0 n i = l - r0 * (r ^ ((n - i : ℕ) : ℝ) - 1) := by
    intro i hi
    unfold GradedMesh.coordinate
    have : (n : ℝ) < 2 * i := by exact_mod_cast hi
    rw [if_neg (by linarith), if_pos (by linarith), Real.rpow_natCast]
  have hm : ∀ i : ℕ, 2 * i = n → GradedMesh.coordinate l r r0 n i = l / 2 := by
    intro i hi
    unfold GradedMesh.coordinate
    have : (2 : ℝ) * i = n := by exact_mod_cast hi
    rw [if_neg (by linarith), if_neg (by linarith)]
    norm_num; ring
  have hlt : ∀ i : ℕ, 2 * i < n → r0 * (r ^ (i : ℝ) - 1) < l / 2 := by
    intro i hi
    rw [← hmid]
    have : (2 : ℝ) * i < n := by exact_mod_cast hi
    exact hmono (show (i : ℝ) < (n : ℝ) / 2 by linarith)
  refine ⟨?_, ?_, ?_, ?_, ?_⟩
  · rw [hlow 0 (by omega)]; simp
  · rw [hhigh n (by omega)]; simp
  · intro i hi
    rcases lt_trichotomy (2 * (i + 1)) n with h | h | h
    · rw [hlow i (by omega), hlow (i + 1) h]
      exact hmono (by push_cast; linarith)
    · rw [hlow i (by omega), hm (i + 1) h]
      exact hlt i (by omega)
    · have h3 := hlt (n - (i + 1)) (by omega)
      rw [hhigh (i + 1) h]
      rcases lt_trichotomy (2 * i) n with h' | h' | h'
      · rw [hlow i h']
        have := hlt i h'
        linarith
      · rw [hm i h']
        linarith
      · rw [hhigh i h']
        have : r0 * (r ^ ((n - (i + 1) : ℕ) : ℝ) - 1) < r0 * (r ^ ((n - i : ℕ) : ℝ) - 1) := by
          apply hmono
          exact_mod_cast (show n - (i + 1) < n - i by omega)
        linarith
  · intro i hi
    rcases lt_trichotomy (2 * i) n with h | h | h
    · rw [hlow i h, hhigh (n - i) (by omega), show n - (n - i) = i by omega]
    · rw [hm i h, hm (n - i) (by omega)]; ring
    · rw [hhigh i h, hlow (n - i) (by omega)]; ring
  · intro i hi
    have e : GradedMesh.coordinate l r r0 n (i + 2) = r0 * (r ^ (i + 2) - 1) := by
      rcases Nat.lt_or_ge (2 * (i + 2)) n with h | h
      · rw [hlow _ h, Real.rpow_natCast]
      · have hh : 2 * (i + 2) = n := by omega
        rw [hm _ hh, ← hmid, ← hh]
        rw [show (((2 * (i + 2) : ℕ) : ℝ) / 2) = ((i + 2 : ℕ) : ℝ) by push_cast; ring, Real.rpow_natCast]
    rw [e, hlow i (by omega), hlow (i + 1) (by omega), Real.rpow_natCast, Real.rpow_natCast]
    ring

/-- C94: with the ratio one the scale is a division by zero. -/
theorem C94_ratio_one (l : ℝ) (n : ℕ) : GradedMesh.scale l 1 n = none := by
  unfold GradedMesh.scale
  rw [if_pos (Or.inr (by rw [Real.one_rpow, sub_self]))]

/-- C90 and C92 for the graded mesh. -/
theorem C90_graded (m : GradedMesh) (hx : 0 < m.nx) (hy : 0 < m.ny) (h1 : 0 < m.x) (h2 : 0 < m.y)
    (hrx : 0 < m.rx) (hry : 0 < m.ry) (hx1 : m.rx ≠ 1) (hy1 : m.ry ≠ 1) :
    ∃ nodes elements edges, m.nodes = some nodes ∧ SquareMesh.elements m.nx m.ny = some elements ∧
      SquareMesh.edges m.nx m.ny = some edges ∧ CellsOk nodes.length elements edges ∧
      (∀ e ∈ elements, ConvexQuad nodes e) ∧
      (elements.map (polyArea nodes)).sum = m.x * m.y ∧
      enclosed nodes edges = (elements.map (polyArea nodes)).sum := by
  obtain ⟨rx0, sx, x0, xl, xm, -⟩ := C94_coordinate h1 hrx hx1 hx
  obtain ⟨ry0, sy, y0, yl, ym, -⟩ := C94_coordinate h2 hry hy1 hy
  obtain ⟨el, ed, e1, e2, -, -, hok⟩ := C52_mesh m.nx m.ny hx hy
  have hn : m.nodes = some (grid (m.nx + 1) (m.ny + 1) fun i j =>
      (GradedMesh.coordinate m.x m.rx rx0 m.nx i, GradedMesh.coordinate m.y m.ry ry0 m.ny j)) := by
    unfold GradedMesh.nodes
    rw [sx, sy]
    exact fill_grid _ _ _
  have e1' := squareElements_eq m.nx m.ny
  rw [e1] at e1'
  refine ⟨_, el, ed, hn, e1, e2, by rw [length_grid]; exact hok, ?_, ?_, (sum_polyArea _ hok).symm⟩
  · intro e he
    rw [Option.some.inj e1'] at he
    exact tensor_convex (fun i => GradedMesh.coordinate m.x m.rx rx0 m.nx i)
      (fun j => GradedMesh.coordinate m.y m.ry ry0 m.ny j) xm ym he
  · rw [Option.some.inj e1', tensor_sum m.nx m.ny (fun i => GradedMesh.coordinate m.x m.rx rx0 m.nx i)
      (fun j => GradedMesh.coordinate m.y m.ry ry0 m.ny j), x0, y0, xl, yl]
    ring

/-! ### Concrete cases -/

example : ∃ nodes elements edges, (⟨1, 2, 2, 6⟩ : AnnulusMesh).nodes = some nodes ∧
    ringElements 2 6 = some elements ∧ ringEdges 2 6 = some edges ∧
    (elements.map (polyArea nodes)).sum = (6 : ℕ) / 2 * Real.sin (2 * Real.pi / (6 : ℕ)) * (2 ^ 2 - 1 ^ 2) ∧
    enclosed nodes edges = (elements.map (polyArea nodes)).sum :=
  C90_annulus ⟨1, 2, 2, 6⟩ (by norm_num) (by norm_num)

example : ∃ nodes elements, (⟨1, 2, 2, 6⟩ : AnnulusMesh).nodes = some nodes ∧
    ringElements 2 6 = some elements ∧ ∀ e ∈ elements, ConvexQuad nodes e :=
  C92_annulus ⟨1, 2, 2, 6⟩ (by norm_num) (by norm_num) (by norm_num) (by norm_num)

example : ∃ nodes elements edges, exRing.nodes = some nodes ∧ ringElements 1 4 = some elements ∧
    ringEdges 1 4 = some edges ∧ (elements.map (polyArea nodes)).sum = (2 : ℚ) * 2 - 1 * 1 ∧
    enclosed nodes edges = (elements.map (polyArea nodes)).sum :=
  C90_squareAnnulus exRing (by decide) (by decide) (by decide)

example : ∃ nodes elements, exRing.nodes = some nodes ∧ ringElements 1 4 = some elements ∧
    ∀ e ∈ elements, ConvexQuad nodes e :=
  C92_squareAnnulus exRing (by decide) (by decide) (by decide) (by norm_num [exRing]) (by norm_num [exRing])
    (by norm_num [exRing]) (by norm_num [exRing])

example : ∃ nodes elements edges, (⟨4, 4, 1, 2, 2, 2, 3⟩ : SquareCircleMesh).nodes = some nodes ∧
    ringElements 3 8 = some elements ∧ ringEdges 3 8 = some edges ∧
    (elements.map (polyArea nodes)).sum = 4 * 4 - (8 : ℕ) / 2 * Real.sin (2 * Real.pi / (8 : ℕ)) * 1 ^ 2 ∧
    enclosed nodes edges = (elements.map (polyArea nodes)).sum :=
  C90_squareCircle ⟨4, 4, 1, 2, 2, 2, 3⟩ (by norm_num) (by norm_num) (by norm_num) (by norm_num)

example : ∃ nodes elements edges, (⟨4, 3, 4, 3, 2, 1 / 2⟩ : GradedMesh).nodes = some nodes ∧
    SquareMesh.elements 4 3 = some elements ∧ SquareMesh.edges 4 3 = some edges ∧
    CellsOk nodes.length elements edges ∧ (∀ e ∈ elements, ConvexQuad nodes e) ∧
    (elements.map (polyArea nodes)).sum = 4 * 3 ∧
    enclosed nodes edges = (elements.map (polyArea nodes)).sum :=
  C90_graded ⟨4, 3, 4, 3, 2, 1 / 2⟩ (by norm_num) (by norm_num) (by norm_num) (by norm_num) (by norm_num)
    (by norm_num) (by norm_num) (by norm_num)

end Pansfem
