/-
C91: the edges on the sides of a rectangle; C54: the nodes on its sides.
-/
import Verif.Props.C54_Fixedlist
import Mathlib.Data.Real.Basic
import Mathlib.Tactic.Linarith
import Mathlib.Tactic.FieldSimp

namespace Pansfem

/-- The selected edges, when the predicate depends on the position in the grid. -/
theorem edgeIds_position (m : SquareMesh ℝ) (hx : 0 < m.nx) (hy : 0 < m.ny) (pred : ℝ × ℝ → Bool) (Q : ℕ → ℕ → Prop)
    (hQ : ∀ i j, i ≤ m.nx → j ≤ m.ny →
      (pred (m.x * ((i : ℝ) / (m.nx : ℝ)), m.y * ((j : ℝ) / (m.ny : ℝ))) = true ↔ Q i j)) :
    ∃ ids, m.edgeIds pred = some ids ∧ ids.Nodup ∧ ∀ k, k ∈ ids ↔ k < 2 * (m.nx + m.ny) ∧
      (k < m.nx → Q k 0 ∧ Q (k + 1) 0) ∧
      (m.nx ≤ k → k < m.nx + m.ny → Q m.nx (k - m.nx) ∧ Q m.nx (k - m.nx + 1)) ∧
      (m.nx + m.ny ≤ k → k < 2 * m.nx + m.ny → Q (2 * m.nx + m.ny - k) m.ny ∧ Q (2 * m.nx + m.ny - k - 1) m.ny) ∧
      (2 * m.nx + m.ny ≤ k → Q 0 (2 * (m.nx + m.ny) - k) ∧ Q 0 (2 * (m.nx + m.ny) - k - 1)) := by
  obtain ⟨nodes, edges, ids, h1, h2, h3, h4, h5⟩ := C91_edges m hx hy pred
  rw [squareNodes_eq m hx hy] at h1
  obtain rfl := Option.some.inj h1
  rw [squareEdges_eq] at h2
  obtain rfl := Option.some.inj h2
  have hn : ∀ i j, i ≤ m.nx → j ≤ m.ny → ((∃ p, (grid (m.nx + 1) (m.ny + 1) fun i j : ℕ =>
      (m.x * ((i : ℝ) / (m.nx : ℝ)), m.y * ((j : ℝ) / (m.ny : ℝ))))[squareNode m.ny i j]? = some p ∧ pred p = true) ↔
      Q i j) := by
    intro i j hi hj
    rw [← hQ i j hi hj, squareNode, getElem?_grid _ (by omega) (by omega)]
    simp
  refine ⟨ids, h3, h4, fun k => ?_⟩
  rw [h5]
  by_cases hk : k < 2 * (m.nx + m.ny)
  · rw [List.getElem?_map, List.getElem?_range hk]
    simp only [Option.map_some, Option.some.injEq, exists_eq_left', hk, true_and]
    unfold squareEdge rimEdge
    split_ifs with a b c
    · simp only [List.mem_cons, List.not_mem_nil, or_false, forall_eq_or_imp, forall_eq]
      rw [hn _ _ (by omega) (by omega), hn _ _ (by omega) (by omega)]
      exact ⟨fun h => ⟨fun _ => h, by omega, by omega, by omega⟩, fun h => h.1 a⟩
    · simp only [List.mem_cons, List.not_mem_nil, or_false, forall_eq_or_imp, forall_eq]
      rw [hn _ _ (by omega) (by omega), hn _ _ (by omega) (by omega)]
      exact ⟨fun h => ⟨by omega, fun _ _ => h, by omega, by omega⟩, fun h => h.2.1 (by omega) b⟩
    · simp only [List.mem_cons, List.not_mem_nil, or_false, forall_eq_or_imp, forall_eq]
      rw [hn _ _ (by omega) (by omega), hn _ _ (by omega) (by omega)]
      exact ⟨fun h => ⟨by omega, by omega, fun _ _ => h, by omega⟩, fun h => h.2.2.1 (by omega) c⟩
    · simp only [List.mem_cons, List.not_mem_nil, or_false, forall_eq_or_imp, forall_eq]
      rw [hn _ _ (by omega) (by omega), hn _ _ (by omega) (by omega)]
      exact ⟨fun h => ⟨by omega, by omega, by omega, fun _ => h⟩, fun h => h.2.2.2 (by omega)⟩
  · rw [List.getElem?_eq_none (by simpa using hk)]
    simp [hk]

/-- A position on a divided side is near its end only at the end. -/
theorem near_end {x d : ℝ} {n i : ℕ} (hn : 0 < n) (hd : 0 < d) (hx : d ≤ x / n) (hi : i ≤ n) :
    |x * ((i : ℝ) / (n : ℝ)) - x| < d ↔ i = n := by
  have hn' : (0 : ℝ) < n := by exact_mod_cast hn
  constructor
  · intro h
    by_contra hne
    have : (i : ℝ) + 1 ≤ n := by exact_mod_cast (by omega : i + 1 ≤ n)
    have h1 := (abs_lt.1 h).1
    have hp : 0 < x / n := hd.trans_le hx
    have e : x * ((i : ℝ) / n) - x = -(x / n * (n - i)) := by field_simp; ring
    rw [e] at h1
    have : x / n * 1 ≤ x / n * (n - i) := mul_le_mul_of_nonneg_left (by linarith) hp.le
    linarith
  · rintro rfl
    rw [div_self hn'.ne', mul_one, sub_self, abs_zero]
    exact hd

/-- A position on a divided side is near its start only at the start. -/
theorem near_start {x d : ℝ} {n i : ℕ} (_hn : 0 < n) (hd : 0 < d) (hx : d ≤ x / n) :
    |x * ((i : ℝ) / (n : ℝ))| < d ↔ i = 0 := by
  constructor
  · intro h
    by_contra hne
    have : (1 : ℝ) ≤ i := by exact_mod_cast (by omega : 1 ≤ i)
    have h1 := (abs_lt.1 h).2
    have hp : 0 < x / n := hd.trans_le hx
    have e : x * ((i : ℝ) / n) = x / n * i := by ring
    rw [e] at h1
    have : x / n * 1 ≤ x / n * i := mul_le_mul_of_nonneg_left this hp.le
    linarith
  · rintro rfl
    simpa using hd

/-- **C91 (sides)**: with a tolerance of at most the height of an element, the predicate that a point is near the top
(as in test_Mesher.cpp) selects exactly the `nx` edges of the top, each once; in the same way for the bottom, and with
the width of an element for the right and the left side. -/
theorem C91_sides (m : SquareMesh ℝ) (hx : 0 < m.nx) (hy : 0 < m.ny) {d : ℝ} (hd : 0 < d) :
    (d ≤ m.y / m.ny →
      (∃ ids, m.edgeIds (fun p => decide (|p.2 - m.y| < d)) = some ids ∧ ids.Nodup ∧
        ∀ k, k ∈ ids ↔ m.nx + m.ny ≤ k ∧ k < 2 * m.nx + m.ny) ∧
      ∃ ids, m.edgeIds (fun p => decide (|p.2| < d)) = some ids ∧ ids.Nodup ∧ ∀ k, k ∈ ids ↔ k < m.nx) ∧
    (d ≤ m.x / m.nx →
      (∃ ids, m.edgeIds (fun p => decide (|p.1 - m.x| < d)) = some ids ∧ ids.Nodup ∧
        ∀ k, k ∈ ids ↔ m.nx ≤ k ∧ k < m.nx + m.ny) ∧
      ∃ ids, m.edgeIds (fun p => decide (|p.1| < d)) = some ids ∧ ids.Nodup ∧
        ∀ k, k ∈ ids ↔ 2 * m.nx + m.ny ≤ k ∧ k < 2 * (m.nx + m.ny)) := by
  refine ⟨fun h => ⟨?_, ?_⟩, fun h => ⟨?_, ?_⟩⟩
  · obtain ⟨ids, h1, h2, h3⟩ := edgeIds_position m hx hy (fun p => decide (|p.2 - m.y| < d)) (fun _ j => j = m.ny)
      (fun i j _ hj => by simpa using near_end hy hd h hj)
    exact ⟨ids, h1, h2, fun k => (h3 k).trans (by omega)⟩
  · obtain ⟨ids, h1, h2, h3⟩ := edgeIds_position m hx hy (fun p => decide (|p.2| < d)) (fun _ j => j = 0)
      (fun i j _ _ => by rw [decide_eq_true_eq]; exact near_start hy hd h)
    exact ⟨ids, h1, h2, fun k => (h3 k).trans (by omega)⟩
  · obtain ⟨ids, h1, h2, h3⟩ := edgeIds_position m hx hy (fun p => decide (|p.1 - m.x| < d)) (fun i _ => i = m.nx)
      (fun i j hi _ => by simpa using near_end hx hd h hi)
    exact ⟨ids, h1, h2, fun k => (h3 k).trans (by omega)⟩
  · obtain ⟨ids, h1, h2, h3⟩ := edgeIds_position m hx hy (fun p => decide (|p.1| < d)) (fun i _ => i = 0)
      (fun i j _ _ => by rw [decide_eq_true_eq]; exact near_start hx hd h)
    exact ⟨ids, h1, h2, fun k => (h3 k).trans (by omega)⟩

/-- The mesh and the predicate of test_Mesher.cpp: the edges 7, 8, 9 and 10. -/
example : ∃ ids, (⟨4, 3, 4, 3⟩ : SquareMesh ℝ).edgeIds (fun p => decide (|p.2 - 3| < 1.0e-5)) = some ids ∧
    ids.Nodup ∧ ∀ k, k ∈ ids ↔ 7 ≤ k ∧ k < 11 :=
  (((C91_sides (⟨4, 3, 4, 3⟩ : SquareMesh ℝ) (by norm_num) (by norm_num) (d := 1.0e-5) (by norm_num)).1
    (by norm_num)).1)

/-! ### Nodes -/

/-- The fixed nodes, when the predicate depends on the position in the grid. -/
theorem fixedlist_position (m : SquareMesh ℝ) (hx : 0 < m.nx) (hy : 0 < m.ny) {ulist : List ℤ} (hu : ulist ≠ [])
    (hu0 : ∀ u ∈ ulist, 0 ≤ u) (pred : ℝ × ℝ → Bool) (Q : ℕ → ℕ → Prop)
    (hQ : ∀ i j, i ≤ m.nx → j ≤ m.ny →
      (pred (m.x * ((i : ℝ) / (m.nx : ℝ)), m.y * ((j : ℝ) / (m.ny : ℝ))) = true ↔ Q i j)) :
    ∃ fixed, m.fixedlist ulist pred = some fixed ∧ (∀ f ∈ fixed, f.2 = 0) ∧
      (ulist.Nodup → (fixed.map Prod.fst).Nodup) ∧
      ∀ n u, (n, u) ∈ fixed.map Prod.fst ↔
        (∃ i j, i ≤ m.nx ∧ j ≤ m.ny ∧ n = (m.ny + 1) * i + j ∧ Q i j) ∧ u ∈ ulist := by
  obtain ⟨nodes, fixed, h1, h2, h3, h4, h5⟩ := C54_square m hx hy ulist hu hu0 pred
  rw [squareNodes_eq m hx hy] at h1
  obtain rfl := Option.some.inj h1
  refine ⟨fixed, h2, h3, h5, fun n u => ?_⟩
  rw [h4]
  refine and_congr_left fun _ => ⟨?_, ?_⟩
  · rintro ⟨p, hp, hq⟩
    have hn : n < (m.nx + 1) * (m.ny + 1) := by
      have := (List.getElem?_eq_some_iff.1 hp).1
      rwa [length_grid] at this
    have hi : n / (m.ny + 1) < m.nx + 1 := Nat.div_lt_of_lt_mul (by rwa [mul_comm])
    have hj : n % (m.ny + 1) < m.ny + 1 := Nat.mod_lt _ (by omega)
    have e : n = (m.ny + 1) * (n / (m.ny + 1)) + n % (m.ny + 1) := (Nat.div_add_mod _ _).symm
    refine ⟨n / (m.ny + 1), n % (m.ny + 1), by omega, by omega, e, ?_⟩
    rw [e, getElem?_grid _ hi hj] at hp
    rw [← hQ _ _ (by omega) (by omega), Option.some.inj hp]
    exact hq
  · rintro ⟨i, j, hi, hj, rfl, hq⟩
    exact ⟨_, getElem?_grid _ (by omega) (by omega), (hQ i j hi hj).2 hq⟩

/-- **C54 (sides)**: with a positive tolerance of at most the width of an element, the predicate `x < d` of the samples
fixes exactly the nodes of the left side, which are the first `ny + 1`, and `|x - width| < d` exactly those of the right
side, which are the last `ny + 1`; every one of them in all the wanted directions and with the value zero. -/
theorem C54_sides (m : SquareMesh ℝ) (hx : 0 < m.nx) (hy : 0 < m.ny) {ulist : List ℤ} (hu : ulist ≠ [])
    (hu0 : ∀ u ∈ ulist, 0 ≤ u) {d : ℝ} (hd : 0 < d) (hd1 : d ≤ m.x / m.nx) :
    (∃ fixed, m.fixedlist ulist (fun p => decide (p.1 < d)) = some fixed ∧ (∀ f ∈ fixed, f.2 = 0) ∧
      ∀ n u, (n, u) ∈ fixed.map Prod.fst ↔ n ≤ m.ny ∧ u ∈ ulist) ∧
    ∃ fixed, m.fixedlist ulist (fun p => decide (|p.1 - m.x| < d)) = some fixed ∧ (∀ f ∈ fixed, f.2 = 0) ∧
      ∀ n u, (n, u) ∈ fixed.map Prod.fst ↔
        ((m.ny + 1) * m.nx ≤ n ∧ n ≤ (m.ny + 1) * m.nx + m.ny) ∧ u ∈ ulist := by
  constructor
  · obtain ⟨fixed, h1, h2, -, h3⟩ := fixedlist_position m hx hy hu hu0 (fun p => decide (p.1 < d)) (fun i _ => i = 0)
      (fun i j _ _ => by
        rw [decide_eq_true_eq, ← near_start hx hd hd1, abs_of_nonneg]
        have : 0 < m.x / m.nx := hd.trans_le hd1
        rw [show m.x * ((i : ℝ) / (m.nx : ℝ)) = m.x / m.nx * i by ring]
        exact mul_nonneg this.le (Nat.cast_nonneg i))
    refine ⟨fixed, h1, h2, fun n u => (h3 n u).trans (and_congr_left fun _ => ⟨?_, fun h => ?_⟩)⟩
    · rintro ⟨i, j, hi, hj, rfl, rfl⟩
      omega
    · exact ⟨0, n, by omega, h, by omega, rfl⟩
  · obtain ⟨fixed, h1, h2, -, h3⟩ := fixedlist_position m hx hy hu hu0 (fun p => decide (|p.1 - m.x| < d))
      (fun i _ => i = m.nx) (fun i j hi _ => by simpa using near_end hx hd hd1 hi)
    refine ⟨fixed, h1, h2, fun n u => (h3 n u).trans (and_congr_left fun _ => ⟨?_, fun h => ?_⟩)⟩
    · rintro ⟨i, j, hi, hj, rfl, rfl⟩
      omega
    · exact ⟨m.nx, n - (m.ny + 1) * m.nx, le_rfl, by omega, by omega, rfl⟩

/-- A mesh of four times three elements, held at the left in both directions: the nodes 0 to 3. -/
example : ∃ fixed, (⟨4, 3, 4, 3⟩ : SquareMesh ℝ).fixedlist [0, 1] (fun p => decide (p.1 < 1.0e-5)) = some fixed ∧
    (∀ f ∈ fixed, f.2 = 0) ∧ ∀ n u, (n, u) ∈ fixed.map Prod.fst ↔ n ≤ 3 ∧ u ∈ [0, 1] :=
  (C54_sides (⟨4, 3, 4, 3⟩ : SquareMesh ℝ) (by norm_num) (by norm_num) (ulist := [0, 1]) (by simp) (by simp)
    (d := 1.0e-5) (by norm_num) (by norm_num)).1

/-- The number of a node of the quadratic mesh belongs to a corner, a vertical or a horizontal side. -/
theorem square2_number {nx ny n : ℕ} (hy : 0 < ny) (hn : n < (nx + 1) * (ny + 1) + (nx + 1) * ny + nx * (ny + 1)) :
    (∃ i j, i ≤ nx ∧ j ≤ ny ∧ n = squareNode ny i j) ∨
    (∃ i j, i ≤ nx ∧ j < ny ∧ n = ny * i + j + (nx + 1) * (ny + 1)) ∨
    ∃ i j, i < nx ∧ j ≤ ny ∧ n = (ny + 1) * i + j + (nx + 1) * (2 * ny + 1) := by
  have split : ∀ {k a b : ℕ}, 0 < b → k < a * b → k / b < a ∧ k % b < b ∧ k = b * (k / b) + k % b := by
    intro k a b hb hk
    exact ⟨Nat.div_lt_of_lt_mul (by rwa [mul_comm]), Nat.mod_lt _ hb, (Nat.div_add_mod _ _).symm⟩
  have e : (nx + 1) * (2 * ny + 1) = (nx + 1) * (ny + 1) + (nx + 1) * ny := by ring
  by_cases h1 : n < (nx + 1) * (ny + 1)
  · obtain ⟨a, b, c⟩ := split (by omega) h1
    exact .inl ⟨_, _, by omega, by omega, c⟩
  by_cases h2 : n < (nx + 1) * (ny + 1) + (nx + 1) * ny
  · obtain ⟨a, b, c⟩ := split hy (show n - (nx + 1) * (ny + 1) < (nx + 1) * ny by omega)
    exact .inr (.inl ⟨_, _, Nat.lt_succ_iff.1 a, b, by omega⟩)
  · obtain ⟨a, b, c⟩ := split (Nat.succ_pos ny)
      (show n - ((nx + 1) * (ny + 1) + (nx + 1) * ny) < nx * (ny + 1) by omega)
    refine .inr (.inr ⟨_, _, a, Nat.lt_succ_iff.1 b, ?_⟩)
    rw [e]
    have : n = n - ((nx + 1) * (ny + 1) + (nx + 1) * ny) + ((nx + 1) * (ny + 1) + (nx + 1) * ny) := by omega
    exact this.trans (congrArg (· + ((nx + 1) * (ny + 1) + (nx + 1) * ny)) c)

/-- **C54 (sides, eight nodes)**: with a positive tolerance of at most half of the width of an element, the predicate
`x < d` fixes in the mesh of elements with eight nodes exactly the corners and the middle nodes of the left side, in all
the wanted directions and with the value zero. -/
theorem C54_sides2 (m : SquareMesh ℝ) (hx : 0 < m.nx) (hy : 0 < m.ny) {ulist : List ℤ} (hu : ulist ≠ [])
    (hu0 : ∀ u ∈ ulist, 0 ≤ u) {d : ℝ} (hd : 0 < d) (hd1 : d ≤ m.x / m.nx / 2) :
    ∃ fixed, m.fixedlist2 ulist (fun p => decide (p.1 < d)) = some fixed ∧ (∀ f ∈ fixed, f.2 = 0) ∧
      ∀ n u, (n, u) ∈ fixed.map Prod.fst ↔
        (n ≤ m.ny ∨ (m.nx + 1) * (m.ny + 1) ≤ n ∧ n < (m.nx + 1) * (m.ny + 1) + m.ny) ∧ u ∈ ulist := by
  obtain ⟨nodes, fixed, h1, h2, h3, h4, -⟩ := C54_square2 m hx hy ulist hu hu0 (fun p => decide (p.1 < d))
  rw [squareNodes2_eq m hx hy] at h1
  obtain rfl := Option.some.inj h1
  have hp : 0 < m.x / m.nx := by linarith
  have hs : ∀ i : ℕ, m.x * ((i : ℝ) / (m.nx : ℝ)) < d ↔ i = 0 := by
    intro i
    rw [← near_start hx hd (by linarith : d ≤ m.x / m.nx), abs_of_nonneg]
    rw [show m.x * ((i : ℝ) / (m.nx : ℝ)) = m.x / m.nx * i by ring]
    exact mul_nonneg hp.le (Nat.cast_nonneg i)
  have hm : ∀ i : ℕ, ¬ m.x * (((i : ℝ) + 0.5) / (m.nx : ℝ)) < d := by
    intro i h
    have : m.x / m.nx * 0 ≤ m.x / m.nx * i := mul_le_mul_of_nonneg_left (Nat.cast_nonneg i) hp.le
    rw [show m.x * (((i : ℝ) + 0.5) / (m.nx : ℝ)) = m.x / m.nx * i + m.x / m.nx / 2 by ring] at h
    linarith
  refine ⟨fixed, h2, h3, fun n u => ?_⟩
  rw [h4]
  refine and_congr_left fun _ => ⟨?_, ?_⟩
  · rintro ⟨p, hn, hq⟩
    have hl := (List.getElem?_eq_some_iff.1 hn).1
    rw [squareNodes2_length] at hl
    rw [decide_eq_true_eq] at hq
    rcases square2_number hy hl with ⟨i, j, hi, hj, rfl⟩ | ⟨i, j, hi, hj, rfl⟩ | ⟨i, j, hi, hj, rfl⟩
    · rw [squareNodes2_corner m hi hj] at hn
      obtain rfl := Option.some.inj hn
      obtain rfl := (hs i).1 hq
      left
      simpa [squareNode] using hj
    · rw [squareNodes2_vertical m hi hj] at hn
      obtain rfl := Option.some.inj hn
      obtain rfl := (hs i).1 hq
      right
      omega
    · rw [squareNodes2_horizontal m hi hj] at hn
      obtain rfl := Option.some.inj hn
      exact absurd hq (hm i)
  · rintro (h | ⟨h, h'⟩)
    · have := squareNodes2_corner m (i := 0) (j := n) (by omega) h
      rw [show squareNode m.ny 0 n = n by simp [squareNode]] at this
      exact ⟨_, this, decide_eq_true ((hs 0).2 rfl)⟩
    · have := squareNodes2_vertical m (i := 0) (j := n - (m.nx + 1) * (m.ny + 1)) (by omega) (by omega)
      rw [show m.ny * 0 + (n - (m.nx + 1) * (m.ny + 1)) + (m.nx + 1) * (m.ny + 1) = n by omega] at this
      exact ⟨_, this, decide_eq_true ((hs 0).2 rfl)⟩

/-- Two times one elements with eight nodes: the corners 0 and 1 and the middle node 6. -/
example : ∃ fixed, (⟨4, 1, 2, 1⟩ : SquareMesh ℝ).fixedlist2 [0] (fun p => decide (p.1 < 1.0e-5)) = some fixed ∧
    (∀ f ∈ fixed, f.2 = 0) ∧ ∀ n u, (n, u) ∈ fixed.map Prod.fst ↔ (n ≤ 1 ∨ 6 ≤ n ∧ n < 7) ∧ u ∈ [0] :=
  C54_sides2 (⟨4, 1, 2, 1⟩ : SquareMesh ℝ) (by norm_num) (by norm_num) (ulist := [0]) (by simp) (by simp)
    (d := 1.0e-5) (by norm_num) (by norm_num)

/-- **C54 (inner circle)**: in an annulus, with a positive tolerance of at most the thickness of a layer of elements, the
predicate that the norm of a point is less than the inner radius plus the tolerance (test_Mesher.cpp:20-25, commented out) fixes exactly
the nodes of the inner circle, which are the first `nt`. -/
theorem C54_inner_circle (m : AnnulusMesh) (hr : 0 < m.nr) (h0 : 0 ≤ m.r0) {ulist : List ℤ} (hu : ulist ≠ [])
    (hu0 : ∀ u ∈ ulist, 0 ≤ u) {d : ℝ} (hd : 0 < d) (hd1 : d ≤ (m.r1 - m.r0) / m.nr) :
    ∃ fixed, m.fixedlist ulist (fun p => decide (Real.sqrt (p.1 ^ 2 + p.2 ^ 2) < m.r0 + d)) = some fixed ∧
      (∀ f ∈ fixed, f.2 = 0) ∧ ∀ n u, (n, u) ∈ fixed.map Prod.fst ↔ n < m.nt ∧ u ∈ ulist := by
  obtain ⟨nodes, fixed, h1, h2, h3, h4, -⟩ := C54_annulus m hr ulist hu hu0
    (fun p => decide (Real.sqrt (p.1 ^ 2 + p.2 ^ 2) < m.r0 + d))
  unfold AnnulusMesh.nodes at h1
  rw [if_neg (by omega), fill_grid] at h1
  obtain rfl := Option.some.inj h1
  have hp : 0 < (m.r1 - m.r0) / m.nr := hd.trans_le hd1
  have hrad : ∀ i, m.radius i = (m.r1 - m.r0) / m.nr * i + m.r0 := fun i => by unfold AnnulusMesh.radius; ring
  have hn : ∀ i j, Real.sqrt ((m.point i j).1 ^ 2 + (m.point i j).2 ^ 2) = m.radius i := by
    intro i j
    unfold AnnulusMesh.point
    rw [mul_pow, mul_pow, ← mul_add, Real.cos_sq_add_sin_sq, mul_one, Real.sqrt_sq]
    rw [hrad]
    have := mul_nonneg hp.le (Nat.cast_nonneg (α := ℝ) i)
    linarith
  have hs : ∀ i, m.radius i < m.r0 + d ↔ i = 0 := by
    intro i
    rw [hrad]
    constructor
    · intro h
      by_contra hne
      have : (1 : ℝ) ≤ i := by exact_mod_cast (by omega : 1 ≤ i)
      have := mul_le_mul_of_nonneg_left this hp.le
      linarith
    · rintro rfl
      simpa using hd
  refine ⟨fixed, h2, h3, fun n u => ?_⟩
  rw [h4]
  refine and_congr_left fun _ => ⟨?_, fun h => ?_⟩
  · rintro ⟨p, hp, hq⟩
    have hl := (List.getElem?_eq_some_iff.1 hp).1
    rw [length_grid] at hl
    have ht : 0 < m.nt := by
      by_contra hc
      rw [show m.nt = 0 by omega] at hl
      omega
    have hi : n / m.nt < m.nr + 1 := Nat.div_lt_of_lt_mul (by rwa [mul_comm])
    have hj : n % m.nt < m.nt := Nat.mod_lt _ ht
    have e : n = m.nt * (n / m.nt) + n % m.nt := (Nat.div_add_mod _ _).symm
    rw [e, getElem?_grid _ hi hj] at hp
    obtain rfl := Option.some.inj hp
    rw [decide_eq_true_eq, hn, hs] at hq
    rw [e, hq]
    simpa using hj
  · have := getElem?_grid (m := m.nr + 1) (fun i j => m.point i j) (i := 0) (by omega) h
    rw [mul_zero, zero_add] at this
    refine ⟨_, this, ?_⟩
    rw [decide_eq_true_eq, hn, hs]

/-- Three layers of eight elements between the radii 1 and 4: the nodes 0 to 7. -/
example : ∃ fixed, (⟨1, 4, 3, 8⟩ : AnnulusMesh).fixedlist [0, 1]
    (fun p => decide (Real.sqrt (p.1 ^ 2 + p.2 ^ 2) < 1 + 1.0e-5)) = some fixed ∧
    (∀ f ∈ fixed, f.2 = 0) ∧ ∀ n u, (n, u) ∈ fixed.map Prod.fst ↔ n < 8 ∧ u ∈ [0, 1] :=
  C54_inner_circle (⟨1, 4, 3, 8⟩ : AnnulusMesh) (by norm_num) (by norm_num) (ulist := [0, 1]) (by simp) (by simp)
    (d := 1.0e-5) (by norm_num) (by norm_num)

end Pansfem
