/-
C134 on the rectangular grids of the program.
-/
import Verif.Lemmas.LoadedAnalysis
import Verif.Props.C134_Shell

namespace Pansfem

open Matrix

section
variable (m : SquareMesh ℝ)

/-- The nodes of the grid. -/
noncomputable def gridNodes : List (Vec ℝ) := flatNodes (squareNodes4 m)

theorem gridNodes_length : (gridNodes m).length = (m.nx + 1) * (m.ny + 1) := by
  simp [gridNodes, flatNodes, squareNodes4, length_grid]

theorem gridNodes_at {i j : ℕ} (hi : i ≤ m.nx) (hj : j ≤ m.ny) : (gridNodes m)[squareNode m.ny i j]? =
    some ⟨[m.x * ((i : ℝ) / (m.nx : ℝ)), m.y * ((j : ℝ) / (m.ny : ℝ)), 0]⟩ := by
  rw [gridNodes, flatNodes, List.getElem?_map, squareNodes4_at m hi hj]
  rfl

theorem gridNodes_nodal {i j : ℕ} (hi : i ≤ m.nx) (hj : j ≤ m.ny) :
    nodal (gridNodes m) (squareNode m.ny i j) 0 = some (m.x * ((i : ℝ) / (m.nx : ℝ))) ∧
    nodal (gridNodes m) (squareNode m.ny i j) 1 = some (m.y * ((j : ℝ) / (m.ny : ℝ))) ∧
    nodal (gridNodes m) (squareNode m.ny i j) 2 = some 0 := by
  simp [nodal, gridNodes_at m hi hj, Vec.at?, Vec.size]

theorem gridNodes_coord {i j : ℕ} (hi : i ≤ m.nx) (hj : j ≤ m.ny) :
    coord (gridNodes m) (squareNode m.ny i j) 0 = m.x * ((i : ℝ) / (m.nx : ℝ)) ∧
    coord (gridNodes m) (squareNode m.ny i j) 1 = m.y * ((j : ℝ) / (m.ny : ℝ)) ∧
    coord (gridNodes m) (squareNode m.ny i j) 2 = 0 := by
  obtain ⟨h0, h1, h2⟩ := gridNodes_nodal m hi hj
  simp [coord, h0, h1, h2]

theorem mem_cells {e : List ℕ} : e ∈ squareCells4 m ↔ ∃ i < m.nx, ∃ j < m.ny,
    e = [squareNode m.ny i j, squareNode m.ny (i + 1) j, squareNode m.ny (i + 1) (j + 1), squareNode m.ny i (j + 1)] := by
  simp only [squareCells4, List.mem_map, mem_grid, quad]
  constructor
  · rintro ⟨c, ⟨i, hi, j, hj, rfl⟩, rfl⟩
    exact ⟨i, hi, j, hj, rfl⟩
  · rintro ⟨i, hi, j, hj, rfl⟩
    exact ⟨(i, j), ⟨i, hi, j, hj, rfl⟩, rfl⟩

variable {m}

theorem grid_flat (hx : 0 < m.nx) (hy : 0 < m.ny) (h1 : 0 < m.x) (h2 : 0 < m.y) :
    FlatQuads (gridNodes m) (squareCells4 m) := by
  intro e he
  obtain ⟨i, hi, j, hj, rfl⟩ := (mem_cells m).1 he
  have hx0 : (0 : ℝ) < m.nx := Nat.cast_pos.2 hx
  have hy0 : (0 : ℝ) < m.ny := Nat.cast_pos.2 hy
  have n00 := gridNodes_nodal m (i := i) (j := j) (by omega) (by omega)
  have n10 := gridNodes_nodal m (i := i + 1) (j := j) (by omega) (by omega)
  have n11 := gridNodes_nodal m (i := i + 1) (j := j + 1) (by omega) (by omega)
  have n01 := gridNodes_nodal m (i := i) (j := j + 1) (by omega) (by omega)
  have c00 := gridNodes_coord m (i := i) (j := j) (by omega) (by omega)
  have c10 := gridNodes_coord m (i := i + 1) (j := j) (by omega) (by omega)
  have c11 := gridNodes_coord m (i := i + 1) (j := j + 1) (by omega) (by omega)
  have c01 := gridNodes_coord m (i := i) (j := j + 1) (by omega) (by omega)
  have ha : 0 < m.x / m.nx := by positivity
  have hb : 0 < m.y / m.ny := by positivity
  have ex : m.x * (((i + 1 : ℕ) : ℝ) / (m.nx : ℝ)) = m.x * ((i : ℝ) / (m.nx : ℝ)) + m.x / m.nx := by push_cast; ring
  have ey : m.y * (((j + 1 : ℕ) : ℝ) / (m.ny : ℝ)) = m.y * ((j : ℝ) / (m.ny : ℝ)) + m.y / m.ny := by push_cast; ring
  have hab : 0 < m.x / m.nx * (m.y / m.ny) := mul_pos ha hb
  refine ⟨_, _, _, _, rfl, ?_, ?_, ?_, ?_, ?_, ?_⟩
  · intro k hk d hd
    simp only [List.mem_cons, List.not_mem_nil, or_false] at hk
    rcases hk with rfl | rfl | rfl | rfl <;> interval_cases d <;> simp [n00, n10, n11, n01]
  · intro k hk
    simp only [List.mem_cons, List.not_mem_nil, or_false] at hk
    rcases hk with rfl | rfl | rfl | rfl <;> simp [c00, c10, c11, c01]
  all_goals
    simp only [turn, flatAt, c00, c10, c11, c01, ex, ey]
    refine lt_of_lt_of_eq hab ?_
    ring

/-- The slopes on the grid. -/
theorem grid_slopes (hx : 0 < m.nx) (hy : 0 < m.ny) (h1 : 0 < m.x) (h2 : 0 < m.y) {i j : ℕ} (hi : i < m.nx) (hj : j < m.ny)
    (f : ℕ → ℝ) :
    slope0 (gridNodes m) (squareNode m.ny i j) (squareNode m.ny (i + 1) j) (squareNode m.ny (i + 1) (j + 1))
        (squareNode m.ny i (j + 1)) f =
      (f (squareNode m.ny (i + 1) j) + f (squareNode m.ny (i + 1) (j + 1)) - f (squareNode m.ny i j)
        - f (squareNode m.ny i (j + 1))) / (2 * (m.x / m.nx)) ∧
    slope1 (gridNodes m) (squareNode m.ny i j) (squareNode m.ny (i + 1) j) (squareNode m.ny (i + 1) (j + 1))
        (squareNode m.ny i (j + 1)) f =
      (f (squareNode m.ny i (j + 1)) + f (squareNode m.ny (i + 1) (j + 1)) - f (squareNode m.ny i j)
        - f (squareNode m.ny (i + 1) j)) / (2 * (m.y / m.ny)) := by
  have hx0 : (0 : ℝ) < m.nx := Nat.cast_pos.2 hx
  have hy0 : (0 : ℝ) < m.ny := Nat.cast_pos.2 hy
  obtain ⟨a00, b00, -⟩ := gridNodes_coord m (i := i) (j := j) (by omega) (by omega)
  obtain ⟨a10, b10, -⟩ := gridNodes_coord m (i := i + 1) (j := j) (by omega) (by omega)
  obtain ⟨a11, b11, -⟩ := gridNodes_coord m (i := i + 1) (j := j + 1) (by omega) (by omega)
  obtain ⟨a01, b01, -⟩ := gridNodes_coord m (i := i) (j := j + 1) (by omega) (by omega)
  have ha : 0 < m.x / m.nx := by positivity
  have hb : 0 < m.y / m.ny := by positivity
  have ex : m.x * (((i + 1 : ℕ) : ℝ) / (m.nx : ℝ)) = m.x * ((i : ℝ) / (m.nx : ℝ)) + m.x / m.nx := by push_cast; ring
  have ey : m.y * (((j + 1 : ℕ) : ℝ) / (m.ny : ℝ)) = m.y * ((j : ℝ) / (m.ny : ℝ)) + m.y / m.ny := by push_cast; ring
  have s1 : span (gridNodes m) (squareNode m.ny i j) (squareNode m.ny (i + 1) (j + 1)) 0 = m.x / m.nx := by
    rw [span, a11, a00, ex]; ring
  have s2 : span (gridNodes m) (squareNode m.ny i j) (squareNode m.ny (i + 1) (j + 1)) 1 = m.y / m.ny := by
    rw [span, b11, b00, ey]; ring
  have s3 : span (gridNodes m) (squareNode m.ny (i + 1) j) (squareNode m.ny i (j + 1)) 0 = - (m.x / m.nx) := by
    rw [span, a01, a10, ex]; ring
  have s4 : span (gridNodes m) (squareNode m.ny (i + 1) j) (squareNode m.ny i (j + 1)) 1 = m.y / m.ny := by
    rw [span, b01, b10, ey]; ring
  unfold slope0 slope1 quadArea
  rw [s1, s2, s3, s4]
  set a := m.x / m.nx
  set b := m.y / m.ny
  constructor <;> field_simp <;> ring

/-- Two combined fields on a column of cells whose left side does not move. -/
theorem column_zero {n : ℕ} (hn : 2 ≤ n) {a b : ℝ} (ha : 0 < a) (hb : 0 < b) {P Q : ℕ → ℝ}
    (h1 : ∀ j < n, P j + P (j + 1) = 0) (h2 : ∀ j < n, Q (j + 1) = Q j)
    (h3 : ∀ j < n, (P (j + 1) - P j) / (2 * b) + (Q j + Q (j + 1)) / (2 * a) = 0) : ∀ j ≤ n, P j = 0 ∧ Q j = 0 := by
  have hQ : ∀ j ≤ n, Q j = Q 0 := by
    intro j
    induction j with
    | zero => intro _; rfl
    | succ j ih => intro hj; rw [h2 j (by omega), ih (by omega)]
  have hP : ∀ j < n, P j = Q 0 * b / a := by
    intro j hj
    have e1 := h1 j hj
    have e3 := h3 j hj
    rw [hQ j (by omega), hQ (j + 1) (by omega), show P (j + 1) = - P j by linarith] at e3
    field_simp at e3 ⊢
    linarith
  have hQ0 : Q 0 = 0 := by
    have e := h1 0 (by omega)
    rw [hP 0 (by omega), hP (0 + 1) (by omega), mul_div_assoc] at e
    exact (mul_eq_zero.1 (by linarith : Q 0 * (b / a) = 0)).resolve_right (div_pos hb ha).ne'
  intro j hj
  refine ⟨?_, by rw [hQ j hj, hQ0]⟩
  rcases Nat.lt_or_ge j n with h | h
  · rw [hP j h, hQ0, zero_mul, zero_div]
  · obtain rfl : j = n := by omega
    have e := h1 (j - 1) (by omega)
    rw [hP (j - 1) (by omega), hQ0, zero_mul, zero_div, zero_add, Nat.sub_add_cancel (by omega)] at e
    exact e

/-- On a grid with at least two rows a field that strains no element and vanishes on the left side is a rotation about the
normal at every node. -/
theorem grid_unstrained (hx : 0 < m.nx) (hy : 2 ≤ m.ny) (h1 : 0 < m.x) (h2 : 0 < m.y) {w : ℕ → ℕ → ℝ}
    (hw : Unstrained (gridNodes m) (squareCells4 m) w) (h0 : ∀ j ≤ m.ny, ∀ d < 5, w (squareNode m.ny 0 j) d = 0) :
    ∀ i ≤ m.nx, ∀ j ≤ m.ny, ∀ d < 5, w (squareNode m.ny i j) d = 0 := by
  have hx0 : (0 : ℝ) < m.nx := Nat.cast_pos.2 hx
  have hy0 : (0 : ℝ) < m.ny := Nat.cast_pos.2 (by omega)
  have ha : 0 < m.x / m.nx := by positivity
  have hb : 0 < m.y / m.ny := by positivity
  intro i
  induction i with
  | zero => exact fun _ => h0
  | succ i ih =>
    intro hi
    have ih := ih (by omega)
    have key := fun (j : ℕ) (hj : j < m.ny) => hw _ _ _ _ ((mem_cells m).2 ⟨i, by omega, j, hj, rfl⟩)
    have sl := fun (j : ℕ) (hj : j < m.ny) (f : ℕ → ℝ) =>
      grid_slopes hx (by omega) h1 h2 (i := i) (j := j) (by omega) hj f
    have z := fun (j : ℕ) (hj : j ≤ m.ny) (d : ℕ) (hd : d < 5) => ih j hj d hd
    have a2 : 2 * (m.x / m.nx) ≠ 0 := by positivity
    have b2 : 2 * (m.y / m.ny) ≠ 0 := by positivity
    have pair : ∀ p q : ℕ → ℝ, (∀ j ≤ m.ny, p (squareNode m.ny i j) = 0) → (∀ j ≤ m.ny, q (squareNode m.ny i j) = 0) →
        (∀ j < m.ny, slope0 (gridNodes m) (squareNode m.ny i j) (squareNode m.ny (i + 1) j)
            (squareNode m.ny (i + 1) (j + 1)) (squareNode m.ny i (j + 1)) p = 0 ∧
          slope1 (gridNodes m) (squareNode m.ny i j) (squareNode m.ny (i + 1) j)
            (squareNode m.ny (i + 1) (j + 1)) (squareNode m.ny i (j + 1)) q = 0 ∧
          slope1 (gridNodes m) (squareNode m.ny i j) (squareNode m.ny (i + 1) j)
            (squareNode m.ny (i + 1) (j + 1)) (squareNode m.ny i (j + 1)) p +
          slope0 (gridNodes m) (squareNode m.ny i j) (squareNode m.ny (i + 1) j)
            (squareNode m.ny (i + 1) (j + 1)) (squareNode m.ny i (j + 1)) q = 0) →
        ∀ j ≤ m.ny, p (squareNode m.ny (i + 1) j) = 0 ∧ q (squareNode m.ny (i + 1) j) = 0 := by
      intro p q hp hq hs
      refine column_zero (P := fun j => p (squareNode m.ny (i + 1) j)) (Q := fun j => q (squareNode m.ny (i + 1) j)) hy ha hb
        (fun j hj => ?_) (fun j hj => ?_) fun j hj => ?_
      · have e := (hs j hj).1
        rw [(sl j hj p).1, hp j (by omega), hp (j + 1) (by omega), div_eq_zero_iff, or_iff_left a2] at e
        linarith
      · have e := (hs j hj).2.1
        rw [(sl j hj q).2, hq j (by omega), hq (j + 1) (by omega), div_eq_zero_iff, or_iff_left b2] at e
        linarith
      · have e := (hs j hj).2.2
        rw [(sl j hj p).2, (sl j hj q).1, hp j (by omega), hp (j + 1) (by omega), hq j (by omega),
          hq (j + 1) (by omega)] at e
        simp only [zero_add, sub_zero] at e
        exact e
    have c1 := pair (fun n => w n 0) (fun n => w n 1) (fun j hj => z j hj 0 (by omega)) (fun j hj => z j hj 1 (by omega))
      fun j hj => ⟨(key j hj).1, (key j hj).2.1, (key j hj).2.2.1⟩
    have c2 := pair (fun n => w n 4) (fun n => - w n 3) (fun j hj => z j hj 4 (by omega))
      (fun j hj => by simp [z j hj 3 (by omega)])
      fun j hj => ⟨(key j hj).2.2.2.1, (key j hj).2.2.2.2.1, (key j hj).2.2.2.2.2.1⟩
    have t3 : ∀ j ≤ m.ny, w (squareNode m.ny (i + 1) j) 3 = 0 := fun j hj => neg_eq_zero.1 (c2 j hj).2
    have t4 : ∀ j ≤ m.ny, w (squareNode m.ny (i + 1) j) 4 = 0 := fun j hj => (c2 j hj).1
    have sum0 : ∀ j < m.ny, w (squareNode m.ny (i + 1) j) 2 + w (squareNode m.ny (i + 1) (j + 1)) 2 = 0 := by
      intro j hj
      have e := (key j hj).2.2.2.2.2.2.1
      rw [(sl j hj _).1, mean4, z j (by omega) 4 (by omega), z (j + 1) (by omega) 4 (by omega), t4 j (by omega),
        t4 (j + 1) (by omega), z j (by omega) 2 (by omega), z (j + 1) (by omega) 2 (by omega)] at e
      simp only [add_zero, zero_div, sub_zero] at e
      exact (div_eq_zero_iff.1 e).resolve_right a2
    have dif0 : ∀ j < m.ny, w (squareNode m.ny (i + 1) (j + 1)) 2 = w (squareNode m.ny (i + 1) j) 2 := by
      intro j hj
      have e := (key j hj).2.2.2.2.2.2.2
      rw [(sl j hj _).2, mean4, z j (by omega) 3 (by omega), z (j + 1) (by omega) 3 (by omega), t3 j (by omega),
        t3 (j + 1) (by omega), z j (by omega) 2 (by omega), z (j + 1) (by omega) 2 (by omega)] at e
      simp only [add_zero, zero_div, sub_zero, zero_add] at e
      have := (div_eq_zero_iff.1 e).resolve_right b2
      linarith
    have w0 : ∀ j ≤ m.ny, w (squareNode m.ny (i + 1) j) 2 = 0 := by
      intro j
      induction j with
      | zero =>
        intro _
        have e1 := sum0 0 (by omega)
        have e2 := dif0 0 (by omega)
        linarith
      | succ j ihj => intro hj; rw [dif0 j (by omega), ihj (by omega)]
    intro j hj d hd
    interval_cases d
    · exact (c1 j hj).1
    · exact (c1 j hj).2
    · exact w0 j hj
    · exact t3 j hj
    · exact t4 j hj

/-- On a strip of one row, a field that strains no element and vanishes on the left side has opposite deflections at the
two nodes of every column. -/
theorem strip_unstrained (hx : 0 < m.nx) (hy : m.ny = 1) (h1 : 0 < m.x) (h2 : 0 < m.y) {w : ℕ → ℕ → ℝ}
    (hw : Unstrained (gridNodes m) (squareCells4 m) w) (h0 : ∀ j ≤ m.ny, ∀ d < 5, w (squareNode m.ny 0 j) d = 0) :
    ∀ i ≤ m.nx, w (squareNode m.ny i 0) 4 + w (squareNode m.ny i 1) 4 = 0 ∧
      w (squareNode m.ny i 0) 2 + w (squareNode m.ny i 1) 2 = 0 := by
  have hx0 : (0 : ℝ) < m.nx := Nat.cast_pos.2 hx
  have ha : 2 * (m.x / m.nx) ≠ 0 := by positivity
  intro i
  induction i with
  | zero =>
    intro _
    rw [h0 0 (by omega) 4 (by omega), h0 1 (by omega) 4 (by omega), h0 0 (by omega) 2 (by omega),
      h0 1 (by omega) 2 (by omega)]
    simp
  | succ i ih =>
    intro hi
    obtain ⟨ih4, ih2⟩ := ih (by omega)
    have key := hw _ _ _ _ ((mem_cells m).2 ⟨i, by omega, 0, by omega, rfl⟩)
    have sl := fun f : ℕ → ℝ => (grid_slopes hx (by omega) h1 h2 (i := i) (j := 0) (by omega) (by omega) f).1
    have e4 := key.2.2.2.1
    have e2 := key.2.2.2.2.2.2.1
    rw [sl] at e4 e2
    have e4 := (div_eq_zero_iff.1 e4).resolve_right ha
    simp only [zero_add] at e4 e2
    have n4 : w (squareNode m.ny (i + 1) 0) 4 + w (squareNode m.ny (i + 1) 1) 4 = 0 := by linarith
    refine ⟨n4, ?_⟩
    have em : mean4 (squareNode m.ny i 0) (squareNode m.ny (i + 1) 0) (squareNode m.ny (i + 1) 1) (squareNode m.ny i 1)
        (fun n => w n 4) = 0 := by
      rw [mean4, div_eq_zero_iff]
      left
      linarith
    rw [em, add_zero] at e2
    have e2 := (div_eq_zero_iff.1 e2).resolve_right ha
    linarith

theorem node_split {n : ℕ} (h : n < (gridNodes m).length) : ∃ i ≤ m.nx, ∃ j ≤ m.ny, n = squareNode m.ny i j := by
  rw [gridNodes_length] at h
  refine ⟨n / (m.ny + 1), ?_, n % (m.ny + 1), ?_, (Nat.div_add_mod n (m.ny + 1)).symm⟩
  · have := Nat.div_lt_of_lt_mul (by rw [mul_comm]; exact h)
    omega
  · exact Nat.le_of_lt_succ (Nat.mod_lt n (Nat.succ_pos m.ny))

/-- **C134**: mesh, supports and loads.  The elements are flat convex quadrilaterals; all six dofs of the nodes that the
first predicate selects are held at zero, and the nodes that the second selects carry the load. -/
theorem C134_problem (m : SquareMesh ℝ) (hx : 0 < m.nx) (hy : 0 < m.ny) (h1 : 0 < m.x) (h2 : 0 < m.y)
    (held loaded : ℝ × ℝ → Bool) (value : ℝ) :
    ∃ bc q, shellProblem m held loaded value = some (gridNodes m, squareCells4 m, bc, q) ∧
      FlatQuads (gridNodes m) (squareCells4 m) ∧
      (∀ r ∈ bc, r.2 = 0) ∧ (∀ i ≤ m.nx, ∀ j ≤ m.ny, ∀ d, (squareNode m.ny i j, d) ∈ bc.map Prod.fst ↔
        d < 6 ∧ held (m.x * (i / m.nx), m.y * (j / m.ny)) = true) ∧
      (∀ r ∈ q, r.2 = value) ∧ (∀ i ≤ m.nx, ∀ j ≤ m.ny, ∀ d, (squareNode m.ny i j, d) ∈ q.map Prod.fst ↔
        d = 2 ∧ loaded (m.x * (i / m.nx), m.y * (j / m.ny)) = true) ∧
      (q.map Prod.fst).Nodup ∧ (∀ p ∈ bc, p.1.1 < (gridNodes m).length ∧ p.1.2 < 6) ∧
      ∀ p ∈ q, p.1.1 < (gridNodes m).length ∧ p.1.2 = 2 := by
  obtain ⟨nodes, us, e1, e2, s1⟩ := C54_square m hx hy [0, 1, 2, 3, 4, 5] (by decide) (by decide) held
  obtain ⟨nodes', qs, e1', e3, s2⟩ := C54_square m hx hy [2] (by decide) (by decide) loaded
  have e0 := squareNodes_eq m hx hy
  obtain rfl := Option.some.inj (e1.symm.trans e0)
  obtain rfl := Option.some.inj (e1'.symm.trans e0)
  have len : ∀ n r, (squareNodes4 m)[n]? = some r → n < (gridNodes m).length := by
    intro n r h
    rw [gridNodes, flatNodes, List.length_map]
    exact (List.getElem?_eq_some_iff.1 h).1
  have k1 := fixedDofs_mem (by decide) s1
  have k2 := fixedDofs_mem (by decide) s2
  have skeys : ∀ l : List ((ℕ × ℕ) × ℝ), (setLoads value l).map Prod.fst = l.map Prod.fst := by
    intro l
    simp [setLoads, Function.comp_def]
  have at' := fun i (hi : i ≤ m.nx) j (hj : j ≤ m.ny) => squareNodes4_at m hi hj
  unfold squareNodes4 at at' len
  refine ⟨fixedDofs us, setLoads value (fixedDofs qs), ?_, grid_flat hx hy h1 h2, ?_, ?_, ?_, ?_, ?_, ?_, ?_⟩
  · simp only [shellProblem, e0, squareElements_eq, e2, e3, Option.bind_eq_bind, Option.bind_some, Option.pure_def]
    rfl
  · intro r hr
    obtain ⟨r', hr', rfl⟩ := List.mem_map.1 hr
    exact s1.1 r' hr'
  · intro i hi j hj d
    rw [k1, at' i hi j hj]
    simp only [List.mem_cons, List.not_mem_nil, or_false, Option.some.injEq, exists_eq_left']
    constructor
    · rintro ⟨h, hd⟩; exact ⟨by omega, h⟩
    · rintro ⟨hd, h⟩; exact ⟨h, by omega⟩
  · intro r hr
    obtain ⟨r', hr', rfl⟩ := List.mem_map.1 hr
    rfl
  · intro i hi j hj d
    rw [skeys, k2, at' i hi j hj]
    simp only [List.mem_cons, List.not_mem_nil, or_false, Option.some.injEq, exists_eq_left']
    constructor
    · rintro ⟨h, hd⟩; exact ⟨by omega, h⟩
    · rintro ⟨hd, h⟩; exact ⟨h, by omega⟩
  · rw [skeys]
    exact fixedDofs_nodup (by decide) (by decide) s2
  · intro p hp
    obtain ⟨⟨r, hr, -⟩, hd⟩ := (k1 p.1.1 p.1.2).1 (List.mem_map_of_mem hp)
    simp only [List.mem_cons, List.not_mem_nil, or_false] at hd
    exact ⟨len _ _ hr, by omega⟩
  · intro p hp
    have hp' : p.1 ∈ (setLoads value (fixedDofs qs)).map Prod.fst := List.mem_map_of_mem hp
    rw [skeys] at hp'
    obtain ⟨⟨r, hr, -⟩, hd⟩ := (k2 p.1.1 p.1.2).1 hp'
    simp only [List.mem_cons, List.not_mem_nil, or_false] at hd
    exact ⟨len _ _ hr, by omega⟩

theorem load_count {q : List ((ℕ × ℕ) × ℝ)} {value : ℝ} (h : ∀ r ∈ q, r.2 = value) (p : ℕ × ℕ) :
    (q.map fun r => if r.1 = p then r.2 else 0).sum = ((q.map Prod.fst).count p : ℝ) * value := by
  induction q with
  | nil => simp
  | cons r q ih =>
    rw [List.map_cons, List.sum_cons, ih fun r' hr' => h r' (List.mem_cons_of_mem _ hr'), List.map_cons, List.count_cons,
      h r List.mem_cons_self]
    by_cases hr : r.1 = p
    · simp [hr]; ring
    · simp [hr]

theorem unstrained_zero {x : List (Vec ℝ)} {elements : List (List ℕ)} : Unstrained x elements 0 := by
  intro p q r s _
  simp [slope0, slope1, mean4]

/-- Loads in the program of which the free dofs feel one. -/
theorem grid_load (hx : 0 < m.nx) (hy : 0 < m.ny) (h1 : 0 < m.x) (h2 : 0 < m.y) {held loaded : ℝ × ℝ → Bool} {value E V t : ℝ}
    {bc q : List ((ℕ × ℕ) × ℝ)} (b0 : ∀ r ∈ bc, r.2 = 0)
    (bk : ∀ i ≤ m.nx, ∀ j ≤ m.ny, ∀ d, (squareNode m.ny i j, d) ∈ bc.map Prod.fst ↔
        d < 6 ∧ held (m.x * (i / m.nx), m.y * (j / m.ny)) = true)
    (qv : ∀ r ∈ q, r.2 = value) (qk : ∀ i ≤ m.nx, ∀ j ≤ m.ny, ∀ d, (squareNode m.ny i j, d) ∈ q.map Prod.fst ↔
        d = 2 ∧ loaded (m.x * (i / m.nx), m.y * (j / m.ny)) = true) (qn : (q.map Prod.fst).Nodup) (hv : value ≠ 0)
    (hl : ∃ i ≤ m.nx, ∃ j ≤ m.ny, loaded (m.x * (i / m.nx), m.y * (j / m.ny)) = true ∧
      held (m.x * (i / m.nx), m.y * (j / m.ny)) = false) :
    ∃ p ∈ freeDofs (freeTable (gridNodes m).length 6) bc,
      plateWork (gridNodes m) (squareCells4 m) E V t (unitField p.1 p.2)
          (given (zeroField (gridNodes m).length 6) (freeTable (gridNodes m).length 6) bc) ≠
        (q.map fun r => if r.1 = (p.1, p.2) then r.2 else 0).sum := by
  obtain ⟨i, hi, j, hj, l1, l2⟩ := hl
  have hn : squareNode m.ny i j < (gridNodes m).length :=
    (List.getElem?_eq_some_iff.1 (gridNodes_at m hi hj)).1
  have hf : IsFree (freeTable (gridNodes m).length 6) bc (squareNode m.ny i j, 2) :=
    free_table.2 ⟨hn, by omega, fun hc => by
      have := ((bk i hi j hj 2).1 hc).2
      rw [l2] at this
      cases this⟩
  refine ⟨(squareNode m.ny i j, 2), List.mem_filter.2 ⟨mem_allDofs (by rw [dofNum_of_numOf hf.1]; rfl), decide_eq_true hf⟩, ?_⟩
  have hg : given (zeroField (gridNodes m).length 6) (freeTable (gridNodes m).length 6) bc = 0 := by
    funext n d
    exact given_zero b0 n d
  rw [hg, (unstrained_work (grid_flat hx hy h1 h2) unstrained_zero _).2, load_count qv,
    List.count_eq_one_of_mem qn ((qk i hi j hj 2).2 ⟨rfl, l1⟩)]
  simp [hv.symm]

/-- **C134** (what holds of the claim): on a grid with at least two rows whose left side is held, two solutions of the
equations with the same given values have the same displacements and the same rotations about the axes in the plane.  The
rotations about the normal are not determined (`C134_drilling`), and on a strip of one row neither are the displacements
(`C134_determined_false`). -/
theorem C134_determined_partial (hx : 0 < m.nx) (hy : 2 ≤ m.ny) (h1 : 0 < m.x) (h2 : 0 < m.y) {E V t : ℝ} (hE : 0 < E)
    (hV : |V| < 1) (ht : 0 < t) {bc q : List ((ℕ × ℕ) × ℝ)} (hq : ∀ p ∈ q, p.1.1 < (gridNodes m).length ∧ p.1.2 < 6)
    (hb : ∀ j ≤ m.ny, ∀ d < 5, (squareNode m.ny 0 j, d) ∈ bc.map Prod.fst) :
    ∃ calls, shellCalls (gridNodes m) (squareCells4 m) q E V t = some calls ∧
      ∀ v v' : ℕ → ℕ → ℝ,
        (∀ p ∈ freeDofs (freeTable (gridNodes m).length 6) bc, residual calls v p.1 p.2 = 0) →
        (∀ p ∈ freeDofs (freeTable (gridNodes m).length 6) bc, residual calls v' p.1 p.2 = 0) →
        (∀ n d, ¬ IsFree (freeTable (gridNodes m).length 6) bc (n, d) → v' n d = v n d) →
        ∀ n d, d ≠ 5 → v' n d = v n d := by
  obtain ⟨calls, e1, -, e2⟩ := C134_solvable (bc := bc) (grid_flat hx (by omega) h1 h2) hE hV ht hq
  refine ⟨calls, e1, fun v v' hv hv' hvv n d hd => ?_⟩
  have hs := (e2 v v' hv hvv).1 hv'
  by_cases hn : n < (gridNodes m).length ∧ d < 6
  · obtain ⟨i, hi, j, hj, rfl⟩ := node_split hn.1
    have := grid_unstrained hx hy h1 h2 hs (fun j hj d hd => by
      have : ¬ IsFree (freeTable (gridNodes m).length 6) bc (squareNode m.ny 0 j, d) := fun hc =>
        (free_table.1 hc).2.2 (hb j hj d hd)
      simp [hvv _ _ this]) i hi j hj d (by omega)
    simpa [sub_eq_zero] using this
  · exact hvv n d fun hc => hn ⟨(free_table.1 hc).1, (free_table.1 hc).2.1⟩

/-- **C134**: on such a grid the equations have a solution unless a load turns a node about the normal. -/
theorem C134_grid_solvable (hx : 0 < m.nx) (hy : 2 ≤ m.ny) (h1 : 0 < m.x) (h2 : 0 < m.y) {bc q : List ((ℕ × ℕ) × ℝ)}
    (hq : ∀ p ∈ q, p.1.1 < (gridNodes m).length ∧ p.1.2 < 5)
    (hb : ∀ j ≤ m.ny, ∀ d < 5, (squareNode m.ny 0 j, d) ∈ bc.map Prod.fst) (w : ℕ → ℕ → ℝ)
    (hw : ∀ n d, ¬ IsFree (freeTable (gridNodes m).length 6) bc (n, d) → w n d = 0)
    (hs : Unstrained (gridNodes m) (squareCells4 m) w) : (q.map fun p => p.2 * w p.1.1 p.1.2).sum = 0 := by
  refine List.sum_eq_zero fun r hr => ?_
  obtain ⟨p, hp, rfl⟩ := List.mem_map.1 hr
  obtain ⟨hn, hd⟩ := hq p hp
  obtain ⟨i, hi, j, hj, hij⟩ := node_split hn
  have := grid_unstrained hx hy h1 h2 hs (fun j hj d hd =>
    hw _ _ fun hc => (free_table.1 hc).2.2 (hb j hj d hd)) i hi j hj p.1.2 hd
  rw [hij, this, mul_zero]

/-- **C134**: the rotations about the normal do no work: they are not determined by the equations of any flat shell. -/
theorem C134_drilling {x : List (Vec ℝ)} {elements : List (List ℕ)} {E V t : ℝ} (hF : FlatQuads x elements) (ht : t ≠ 0)
    (hV : 1 - V ^ 2 ≠ 0) {q : List ((ℕ × ℕ) × ℝ)} (hq : ∀ p ∈ q, p.1.1 < x.length ∧ p.1.2 < 6) :
    ∃ calls, shellCalls x elements q E V t = some calls ∧ ∀ v v' : ℕ → ℕ → ℝ, (∀ n d, d ≠ 5 → v n d = v' n d) →
      ∀ n d, residual calls v n d = residual calls v' n d := by
  obtain ⟨calls, e1, -, e2⟩ := C134_equations (E := E) hF ht hV hq
  refine ⟨calls, e1, fun v v' h n d => ?_⟩
  rw [e2, e2]
  congr 1
  refine congrArg List.sum (List.map_congr_left fun e he => ?_)
  obtain ⟨p, q, r, s, X, rfl, -⟩ := flat_coords hF he
  simp only [plateForm, h _ 0 (by omega), h _ 1 (by omega), h _ 2 (by omega), h _ 3 (by omega), h _ 4 (by omega)]

/-- **C134**: the program on a grid with at least two rows.  If the left side is held and a node that is not held carries
the load, the program returns, the solver reports convergence. -/
theorem C134_grid (m : SquareMesh ℝ) (hx : 0 < m.nx) (hy : 2 ≤ m.ny) (h1 : 0 < m.x) (h2 : 0 < m.y) {E V t : ℝ} (hE : 0 < E)
    (hV : |V| < 1) (ht : 0 < t) (held loaded : ℝ × ℝ → Bool) {value : ℝ} (hv : value ≠ 0) (hh : ∀ y, held (0, y) = true)
    (hl : ∃ i ≤ m.nx, ∃ j ≤ m.ny, loaded (m.x * (i / m.nx), m.y * (j / m.ny)) = true ∧
      held (m.x * (i / m.nx), m.y * (j / m.ny)) = false) (hN : (m.nx + 1) * (m.ny + 1) * 6 ≤ 100000) :
    ∃ x elements bc q, shellProblem m held loaded value = some (x, elements, bc, q) ∧
      ∃ u, shellStatic x elements bc q E V t = some (u, true) := by
  obtain ⟨bc, q, e, hF, b0, bk, qv, qk, qn, bl, ql⟩ := C134_problem m hx (by omega) h1 h2 held loaded value
  refine ⟨_, _, _, _, e, C134_solves hF hE hV ht (fun p hp => ⟨(ql p hp).1, by rw [(ql p hp).2]; omega⟩) bl
    (by rw [gridNodes_length]; exact hN) (fun w hw hs => ?_) (grid_load hx (by omega) h1 h2 b0 bk qv qk qn hv hl)⟩
  exact C134_grid_solvable hx hy h1 h2 (fun p hp => ⟨(ql p hp).1, by rw [(ql p hp).2]; omega⟩)
    (fun j hj d hd => (bk 0 (by omega) j hj d).2 ⟨by omega, by simpa using hh _⟩) w hw hs

/-- Loads of a strip that depend only on the first coordinate do no work on the fields without strain. -/
theorem strip_work (hy : m.ny = 1) {loaded : ℝ × ℝ → Bool} {value : ℝ} {q : List ((ℕ × ℕ) × ℝ)}
    (hll : ∀ a b b', loaded (a, b) = loaded (a, b')) (qv : ∀ r ∈ q, r.2 = value)
    (qk : ∀ i ≤ m.nx, ∀ j ≤ m.ny, ∀ d, (squareNode m.ny i j, d) ∈ q.map Prod.fst ↔
        d = 2 ∧ loaded (m.x * (i / m.nx), m.y * (j / m.ny)) = true) (qn : (q.map Prod.fst).Nodup)
    (ql : ∀ p ∈ q, p.1.1 < (gridNodes m).length ∧ p.1.2 = 2) {w : ℕ → ℕ → ℝ}
    (hz : ∀ i ≤ m.nx, w (squareNode m.ny i 0) 4 + w (squareNode m.ny i 1) 4 = 0 ∧
      w (squareNode m.ny i 0) 2 + w (squareNode m.ny i 1) 2 = 0) : (q.map fun p => p.2 * w p.1.1 p.1.2).sum = 0 := by
  have e1 : (q.map fun p => p.2 * w p.1.1 p.1.2) = (q.map Prod.fst).map fun r => value * w r.1 r.2 := by
    rw [List.map_map]
    exact List.map_congr_left fun p hp => by simp [qv p hp]
  rw [e1, ← List.sum_toFinset _ qn]
  have node : ∀ r ∈ (q.map Prod.fst).toFinset, ∃ i ≤ m.nx, ∃ j ≤ 1, r = (2 * i + j, 2) ∧
      loaded (m.x * (i / m.nx), 0) = true := by
    intro r hr
    rw [List.mem_toFinset] at hr
    obtain ⟨p, hp, rfl⟩ := List.mem_map.1 hr
    obtain ⟨i, hi, j, hj, hij⟩ := node_split (ql p hp).1
    have hr' := hr
    rw [show p.1 = (squareNode m.ny i j, p.1.2) from Prod.ext hij rfl] at hr'
    have := (qk i hi j hj _).1 hr'
    refine ⟨i, hi, j, by omega, Prod.ext ?_ (ql p hp).2, by rw [hll _ 0 (m.y * (j / m.ny))]; exact this.2⟩
    rw [hij, squareNode, hy]
  have mem : ∀ i ≤ m.nx, ∀ j ≤ 1, loaded (m.x * (i / m.nx), 0) = true → (2 * i + j, 2) ∈ (q.map Prod.fst).toFinset := by
    intro i hi j hj hlo
    have := (qk i hi j (by omega) 2).2 ⟨rfl, by rw [hll _ _ 0]; exact hlo⟩
    rw [squareNode, hy] at this
    exact List.mem_toFinset.2 this
  refine Finset.sum_involution (fun r _ => (r.1 + 1 - 2 * (r.1 % 2), r.2)) (fun r hr => ?_) (fun r hr _ => ?_)
    (fun r hr => ?_) fun r hr => ?_
  · obtain ⟨i, hi, j, hj, rfl, -⟩ := node r hr
    have := (hz i hi).2
    simp only [squareNode, hy] at this
    norm_num at this
    have hj' : j = 0 ∨ j = 1 := by omega
    rcases hj' with rfl | rfl
    · dsimp only
      rw [show 2 * i + 0 + 1 - 2 * ((2 * i + 0) % 2) = 2 * i + 1 by omega, add_zero, ← mul_add, this, mul_zero]
    · dsimp only
      rw [show 2 * i + 1 + 1 - 2 * ((2 * i + 1) % 2) = 2 * i by omega, ← mul_add, add_comm (w _ _), this, mul_zero]
  · intro hc
    have := congrArg Prod.fst hc
    simp only at this
    omega
  · obtain ⟨i, hi, j, hj, rfl, hlo⟩ := node r hr
    have hj' : j = 0 ∨ j = 1 := by omega
    rcases hj' with rfl | rfl
    · dsimp only
      rw [show 2 * i + 0 + 1 - 2 * ((2 * i + 0) % 2) = 2 * i + 1 by omega]
      exact mem i hi 1 le_rfl hlo
    · dsimp only
      rw [show 2 * i + 1 + 1 - 2 * ((2 * i + 1) % 2) = 2 * i + 0 by omega]
      exact mem i hi 0 (by omega) hlo
  · refine Prod.ext ?_ rfl
    simp only
    omega

/-- **C134**: the program on a strip of one row: if the load of a node depends only on its first coordinate, the same. -/
theorem C134_strip (m : SquareMesh ℝ) (hx : 0 < m.nx) (hy : m.ny = 1) (h1 : 0 < m.x) (h2 : 0 < m.y) {E V t : ℝ} (hE : 0 < E)
    (hV : |V| < 1) (ht : 0 < t) (held loaded : ℝ × ℝ → Bool) {value : ℝ} (hv : value ≠ 0) (hh : ∀ y, held (0, y) = true)
    (hll : ∀ a b b', loaded (a, b) = loaded (a, b'))
    (hl : ∃ i ≤ m.nx, ∃ j ≤ m.ny, loaded (m.x * (i / m.nx), m.y * (j / m.ny)) = true ∧
      held (m.x * (i / m.nx), m.y * (j / m.ny)) = false) (hN : (m.nx + 1) * (m.ny + 1) * 6 ≤ 100000) :
    ∃ x elements bc q, shellProblem m held loaded value = some (x, elements, bc, q) ∧
      ∃ u, shellStatic x elements bc q E V t = some (u, true) := by
  obtain ⟨bc, q, e, hF, b0, bk, qv, qk, qn, bl, ql⟩ := C134_problem m hx (by omega) h1 h2 held loaded value
  refine ⟨_, _, _, _, e, C134_solves hF hE hV ht (fun p hp => ⟨(ql p hp).1, by rw [(ql p hp).2]; omega⟩) bl
    (by rw [gridNodes_length]; exact hN) (fun w hw hs => ?_) (grid_load hx (by omega) h1 h2 b0 bk qv qk qn hv hl)⟩
  exact strip_work hy hll qv qk qn ql (strip_unstrained hx hy h1 h2 hs (fun j hj d hd => hw _ _ fun hc =>
    (free_table.1 hc).2.2 ((bk 0 (by omega) j hj d).2 ⟨by omega, by simpa using hh _⟩)))

/-! ### Motions of a strip without strain -/

/-- Sideways motion of a strip behind its clamp. -/
noncomputable def slideMode (m : SquareMesh ℝ) (n d : ℕ) : ℝ :=
  if n / 2 = 0 ∨ m.nx < n / 2 then 0 else
    match d with
    | 0 => (-1) ^ (n / 2) * (m.y / (m.x / m.nx)) * (2 * ((n % 2 : ℕ) : ℝ) - 1)
    | 1 => 1
    | _ => 0

/-- Twist of a strip behind its clamp. -/
noncomputable def twistMode (m : SquareMesh ℝ) (n d : ℕ) : ℝ :=
  if n / 2 = 0 ∨ m.nx < n / 2 then 0 else
    match d with
    | 2 => m.y / 2 * (2 * ((n % 2 : ℕ) : ℝ) - 1)
    | 3 => 1
    | 4 => - (-1) ^ (n / 2) * (m.y / (m.x / m.nx)) * (2 * ((n % 2 : ℕ) : ℝ) - 1)
    | _ => 0

theorem modes_unstrained (hx : 0 < m.nx) (hy : m.ny = 1) (h1 : 0 < m.x) (h2 : 0 < m.y) :
    Unstrained (gridNodes m) (squareCells4 m) (slideMode m) ∧
    Unstrained (gridNodes m) (squareCells4 m) (twistMode m) := by
  have hx0 : (0 : ℝ) < m.nx := Nat.cast_pos.2 hx
  have ha : 0 < m.x / m.nx := by positivity
  have d0 : ∀ i, squareNode m.ny i 0 / 2 = i ∧ squareNode m.ny i 0 % 2 = 0 := by
    intro i; simp only [squareNode, hy]; omega
  have d1 : ∀ i, squareNode m.ny i 1 / 2 = i ∧ squareNode m.ny i 1 % 2 = 1 := by
    intro i; simp only [squareNode, hy]; omega
  constructor <;>
  · intro p q r s he
    obtain ⟨i, hi, j, hj, heq⟩ := (mem_cells m).1 he
    obtain rfl : j = 0 := by omega
    simp only [List.cons.injEq, and_true, zero_add] at heq
    obtain ⟨rfl, rfl, rfl, rfl⟩ := heq
    have sl := fun f : ℕ → ℝ => (grid_slopes hx (by omega) h1 h2 (i := i) (j := 0) hi (by omega) f).1
    have sl' := fun f : ℕ → ℝ => (grid_slopes hx (by omega) h1 h2 (i := i) (j := 0) hi (by omega) f).2
    simp only [zero_add] at sl sl'
    simp only [sl, sl', mean4, slideMode, twistMode, (d0 i).1, (d0 i).2, (d1 i).1, (d1 i).2, (d0 (i + 1)).1,
      (d0 (i + 1)).2, (d1 (i + 1)).1, (d1 (i + 1)).2]
    rw [hy]
    rcases Nat.eq_zero_or_pos i with rfl | hp
    · have c1 : ¬ (0 + 1 = 0 ∨ m.nx < 0 + 1) := by omega
      simp only [c1, if_false, true_or, if_true]
      set a := m.x / m.nx
      refine ⟨?_, ?_, ?_, ?_, ?_, ?_, ?_, ?_⟩ <;> push_cast <;> field_simp <;> ring
    · have c0 : ¬ (i = 0 ∨ m.nx < i) := by omega
      have c1 : ¬ (i + 1 = 0 ∨ m.nx < i + 1) := by omega
      simp only [c0, c1, if_false]
      set a := m.x / m.nx
      refine ⟨?_, ?_, ?_, ?_, ?_, ?_, ?_, ?_⟩ <;> push_cast <;> field_simp <;> ring

theorem modes_held (hy : m.ny = 1) {bc : List ((ℕ × ℕ) × ℝ)} (hb : ∀ p ∈ bc, p.1.1 < 2) (n d : ℕ)
    (h : ¬ IsFree (freeTable (gridNodes m).length 6) bc (n, d)) : slideMode m n d = 0 ∧ twistMode m n d = 0 := by
  unfold slideMode twistMode
  by_cases hn : n / 2 = 0 ∨ m.nx < n / 2
  · rw [if_pos hn, if_pos hn]
    exact ⟨rfl, rfl⟩
  · rw [if_neg hn, if_neg hn]
    have hd : ¬ d < 6 := by
      intro hd
      refine h (free_table.2 ⟨?_, hd, fun hc => ?_⟩)
      · rw [gridNodes_length, hy]; omega
      · obtain ⟨p, hp, hpe⟩ := List.mem_map.1 hc
        have := hb p hp
        rw [hpe] at this
        simp only at this
        omega
    obtain ⟨k, rfl⟩ : ∃ k, d = k + 6 := ⟨d - 6, by omega⟩
    exact ⟨rfl, rfl⟩

/-- **C134**: on a strip held at its left end only, every solution can be slid sideways and twisted by any amount. -/
theorem C134_motions (hx : 0 < m.nx) (hy : m.ny = 1) (h1 : 0 < m.x) (h2 : 0 < m.y) {E V t : ℝ} (hV : |V| < 1) (ht : 0 < t)
    {bc q : List ((ℕ × ℕ) × ℝ)} (hq : ∀ p ∈ q, p.1.1 < (gridNodes m).length ∧ p.1.2 < 6)
    (hb : ∀ p ∈ bc, p.1.1 < 2) :
    ∃ calls, shellCalls (gridNodes m) (squareCells4 m) q E V t = some calls ∧ ∀ v : ℕ → ℕ → ℝ,
      (∀ p ∈ freeDofs (freeTable (gridNodes m).length 6) bc, residual calls v p.1 p.2 = 0) → ∀ a b : ℝ,
        (∀ p ∈ freeDofs (freeTable (gridNodes m).length 6) bc,
          residual calls (fun n d => v n d + a * slideMode m n d + b * twistMode m n d) p.1 p.2 = 0) ∧
        ∀ n d, ¬ IsFree (freeTable (gridNodes m).length 6) bc (n, d) →
          v n d + a * slideMode m n d + b * twistMode m n d = v n d := by
  have hF := grid_flat hx (by omega) h1 h2
  have hV' : 1 - V ^ 2 ≠ 0 := by
    obtain ⟨v1, v2⟩ := abs_lt.1 hV
    have : 0 < 1 - V ^ 2 := by nlinarith
    exact this.ne'
  obtain ⟨calls, e1, -, -, e4, -⟩ := shellCalls_spec (E := E) hF ht.ne' hV' hq
  obtain ⟨u1, u2⟩ := modes_unstrained hx hy h1 h2
  refine ⟨calls, e1, fun v hv a b => ⟨fun p hp => ?_, fun n d hn => ?_⟩⟩
  · have : (fun n d => v n d + a * slideMode m n d + b * twistMode m n d) = v + (a • slideMode m + b • twistMode m) := by
      funext n d
      simp only [Pi.add_apply, Pi.smul_apply, smul_eq_mul]
      ring
    rw [this, static_affine, hv p hp, map_add, map_smul, map_smul, energyForm_apply, energyForm_apply, e4, e4,
      (unstrained_work hF u1 _).2, (unstrained_work hF u2 _).2]
    simp
  · obtain ⟨z1, z2⟩ := modes_held hy hb n d hn
    rw [z1, z2]
    ring

/-- **C134**: on such a strip a single load across it, anywhere behind the clamp, has no equilibrium. -/
theorem C134_corner (hx : 0 < m.nx) (hy : m.ny = 1) (h1 : 0 < m.x) (h2 : 0 < m.y) {E V t : ℝ} (hE : 0 < E) (hV : |V| < 1)
    (ht : 0 < t) {bc : List ((ℕ × ℕ) × ℝ)} (hb : ∀ p ∈ bc, p.1.1 < 2) {n : ℕ} (hn : 2 ≤ n) (hn' : n < (gridNodes m).length)
    {P : ℝ} (hP : P ≠ 0) :
    ∃ calls, shellCalls (gridNodes m) (squareCells4 m) [((n, 2), P)] E V t = some calls ∧ ∀ v : ℕ → ℕ → ℝ,
      ∃ p ∈ freeDofs (freeTable (gridNodes m).length 6) bc, residual calls v p.1 p.2 ≠ 0 := by
  have hF := grid_flat hx (by omega) h1 h2
  obtain ⟨calls, e1, e2, -⟩ := C134_solvable (bc := bc) (q := [((n, 2), P)]) hF hE hV ht (fun p hp => by
    rw [List.mem_singleton.1 hp]
    exact ⟨hn', by norm_num⟩)
  refine ⟨calls, e1, fun v => ?_⟩
  by_contra hc
  push Not at hc
  have := (e2 v).1 ⟨v, hc, fun _ _ _ => rfl⟩ (twistMode m) (fun k d hk => (modes_held hy hb k d hk).2)
    (modes_unstrained hx hy h1 h2).2
  rw [gridNodes_length, hy] at hn'
  simp only [List.map_singleton, List.sum_singleton, twistMode, if_neg (by omega : ¬ (n / 2 = 0 ∨ m.nx < n / 2))] at this
  have h3 := (mul_eq_zero.1 this).resolve_left hP
  have h4 := (mul_eq_zero.1 h3).resolve_left (by positivity)
  rcases Nat.mod_two_eq_zero_or_one n with h | h <;> rw [h] at h4 <;> norm_num at h4

end

/-! ### The program as shipped -/

theorem shell_grid : 0 < shellMesh.nx ∧ shellMesh.ny = 1 ∧ 0 < shellMesh.x ∧ 0 < shellMesh.y := by
  refine ⟨?_, rfl, ?_, ?_⟩ <;> norm_num [shellMesh]

theorem leftSide_shell (i : ℕ) (b : ℝ) : leftSide (shellMesh.x * (i / shellMesh.nx), b) = true ↔ i = 0 := by
  unfold leftSide
  rw [decide_eq_true_eq]
  show |(15 : ℝ) * (i / ((3 : ℕ) : ℝ))| < 1 / 10 ^ 5 ↔ i = 0
  constructor
  · intro h
    by_contra hc
    have : (1 : ℝ) ≤ i := by exact_mod_cast Nat.one_le_iff_ne_zero.2 hc
    rw [abs_of_nonneg (by positivity)] at h
    norm_num at h
    linarith
  · rintro rfl
    norm_num

theorem rightEnd_shell (b : ℝ) : rightEnd (shellMesh.x * (((3 : ℕ) : ℝ) / shellMesh.nx), b) = true := by
  norm_num [rightEnd, shellMesh]

/-- **C134**: the program returns, and the solver reports convergence. -/
theorem C134_program : ∃ u, shellProgram = some (u, true) := by
  obtain ⟨g1, g2, g3, g4⟩ := shell_grid
  obtain ⟨x, elements, bc, q, e1, u, e2⟩ := C134_strip shellMesh g1 g2 g3 g4 (E := 210000) (V := 3 / 10) (t := 1)
    (by norm_num) (by rw [abs_of_pos] <;> norm_num) (by norm_num) leftSide rightEnd (value := -10) (by norm_num)
    (fun y => by norm_num [leftSide]) (fun _ _ _ => rfl)
    ⟨3, by norm_num [shellMesh], 0, by norm_num [shellMesh], rightEnd_shell _, by
      rw [Bool.eq_false_iff]
      intro h
      have := (leftSide_shell 3 _).1 h
      omega⟩ (by norm_num [shellMesh])
  exact ⟨u, by simp only [shellProgram, e1, Option.bind_eq_bind, Option.bind_some]; exact e2⟩

/-- **C134** is false: the equations of the program as shipped have solutions, and two of them with the same given values
differ in the displacements, along the second and the third axis, of the loaded end. -/
theorem C134_determined_false : ∃ x elements bc q calls,
    shellProblem shellMesh leftSide rightEnd (-10) = some (x, elements, bc, q) ∧
    shellCalls x elements q 210000 (3 / 10) 1 = some calls ∧ ∃ v v' : ℕ → ℕ → ℝ,
      ((∀ p ∈ freeDofs (freeTable x.length 6) bc, residual calls v p.1 p.2 = 0) ∧
        ∀ n d, ¬ IsFree (freeTable x.length 6) bc (n, d) → v n d = 0) ∧
      ((∀ p ∈ freeDofs (freeTable x.length 6) bc, residual calls v' p.1 p.2 = 0) ∧
        ∀ n d, ¬ IsFree (freeTable x.length 6) bc (n, d) → v' n d = 0) ∧
      v' 6 1 ≠ v 6 1 ∧ v' 6 2 ≠ v 6 2 := by
  obtain ⟨g1, g2, g3, g4⟩ := shell_grid
  obtain ⟨bc, q, e, hF, b0, bk, qv, qk, qn, bl, ql⟩ := C134_problem shellMesh g1 (by rw [g2]; norm_num) g3 g4 leftSide
    rightEnd (-10)
  have hE : (0 : ℝ) < 210000 := by norm_num
  have hV : |(3 / 10 : ℝ)| < 1 := by rw [abs_of_pos] <;> norm_num
  have ql' : ∀ p ∈ q, p.1.1 < (gridNodes shellMesh).length ∧ p.1.2 < 6 :=
    fun p hp => ⟨(ql p hp).1, by rw [(ql p hp).2]; omega⟩
  obtain ⟨calls, c1, c2, -⟩ := C134_solvable (bc := bc) hF hE hV one_pos ql'
  have hb : ∀ p ∈ bc, p.1.1 < 2 := by
    intro p hp
    obtain ⟨i, hi, j, hj, hij⟩ := node_split (bl p hp).1
    have h := List.mem_map_of_mem (f := Prod.fst) hp
    rw [show p.1 = (squareNode shellMesh.ny i j, p.1.2) from Prod.ext hij rfl] at h
    have := (leftSide_shell i _).1 ((bk i hi j hj _).1 h).2
    rw [hij, this, squareNode, g2]
    omega
  obtain ⟨v, hv, hv0⟩ := (c2 0).2 fun w hw hs => strip_work g2 (fun _ _ _ => rfl) qv qk qn ql
    (strip_unstrained g1 g2 g3 g4 hs fun j hj d hd => hw _ _ fun hc => (free_table.1 hc).2.2
      ((bk 0 (by omega) j hj d).2 ⟨by omega, (leftSide_shell 0 _).2 rfl⟩))
  obtain ⟨calls', c1', c3⟩ := C134_motions (E := 210000) (bc := bc) g1 g2 g3 g4 hV one_pos ql' hb
  obtain rfl := Option.some.inj (c1'.symm.trans c1)
  obtain ⟨m1, m2⟩ := c3 v hv 1 1
  refine ⟨_, _, _, _, _, e, c1, v, _, ⟨hv, hv0⟩, ⟨m1, fun n d hn => ?_⟩, ?_, ?_⟩
  · rw [m2 n d hn]
    exact hv0 n d hn
  · norm_num [slideMode, twistMode, shellMesh]
  · norm_num [slideMode, twistMode, shellMesh]

/-- A square plate of two by two cells: its tip deflection is determined. -/
example : ∃ x elements bc q, shellProblem ⟨2, 2, 2, 2⟩ leftSide (fun r => decide (r.1 = 2)) 1 = some (x, elements, bc, q) ∧
    ∃ u, shellStatic x elements bc q 1 0 1 = some (u, true) := by
  refine C134_grid ⟨2, 2, 2, 2⟩ (by norm_num) (by norm_num) (by norm_num) (by norm_num) (by norm_num) (by norm_num)
    (by norm_num) leftSide _ one_ne_zero (fun y => by norm_num [leftSide]) ⟨2, le_rfl, 0, by norm_num, by norm_num, ?_⟩
    (by norm_num)
  norm_num [leftSide]

/-- The equations of the strip with a load at one corner of its free end, and of a run that reports convergence. -/
example : ∃ calls, shellCalls (gridNodes shellMesh) (squareCells4 shellMesh) [((7, 2), -10)] 210000 (3 / 10) 1 = some calls ∧
    ∀ v : ℕ → ℕ → ℝ, residual calls v 7 2 =
      plateWork (gridNodes shellMesh) (squareCells4 shellMesh) 210000 (3 / 10) 1 (unitField 7 2) v + 10 := by
  obtain ⟨g1, g2, g3, g4⟩ := shell_grid
  obtain ⟨calls, e1, -, e2⟩ := C134_equations (E := 210000) (V := 3 / 10) (t := 1) (q := [((7, 2), -10)])
    (grid_flat g1 (by rw [g2]; norm_num) g3 g4) one_ne_zero (by norm_num) (fun p hp => by
      rw [List.mem_singleton.1 hp, gridNodes_length]
      norm_num [shellMesh])
  refine ⟨calls, e1, fun v => ?_⟩
  rw [e2]
  norm_num

example : ∃ u, ∀ x elements bc q, shellProblem shellMesh leftSide rightEnd (-10) = some (x, elements, bc, q) →
    dofNorm (freeDofs (freeTable x.length 6) bc) (fun n d =>
        plateWork x elements 210000 (3 / 10) 1 (unitField n d) (valOf u) -
          (q.map fun p => if p.1 = (n, d) then p.2 else 0).sum) <
      1 / 10 ^ 10 * dofNorm (freeDofs (freeTable x.length 6) bc) (fun n d =>
        plateWork x elements 210000 (3 / 10) 1 (unitField n d) (given (zeroField x.length 6) (freeTable x.length 6) bc) -
          (q.map fun p => if p.1 = (n, d) then p.2 else 0).sum) := by
  obtain ⟨u, hu⟩ := C134_program
  refine ⟨u, fun x elements bc q e => ?_⟩
  obtain ⟨g1, g2, g3, g4⟩ := shell_grid
  obtain ⟨bc', q', e', hF, -, -, -, -, -, -, ql⟩ := C134_problem shellMesh g1 (by rw [g2]; norm_num) g3 g4 leftSide
    rightEnd (-10)
  rw [e'] at e
  simp only [Option.some.injEq, Prod.mk.injEq] at e
  obtain ⟨rfl, rfl, rfl, rfl⟩ := e
  simp only [shellProgram, e', Option.bind_eq_bind, Option.bind_some] at hu
  exact (C134_run hF one_ne_zero (by norm_num) (fun p hp => ⟨(ql p hp).1, by rw [(ql p hp).2]; omega⟩) hu).2.1 rfl

/-- That load has no equilibrium. -/
example : ∃ calls, shellCalls (gridNodes shellMesh) (squareCells4 shellMesh) [((7, 2), -10)] 210000 (3 / 10) 1 = some calls ∧
    ∀ v : ℕ → ℕ → ℝ, ∃ p ∈ freeDofs (freeTable (gridNodes shellMesh).length 6)
      ((List.range 6).flatMap fun d => [((0, d), (0 : ℝ)), ((1, d), 0)]), residual calls v p.1 p.2 ≠ 0 := by
  obtain ⟨g1, g2, g3, g4⟩ := shell_grid
  refine C134_corner (m := shellMesh) (E := 210000) (V := 3 / 10) (t := 1) (n := 7) (P := -10) g1 g2 g3 g4 (by norm_num)
    (by rw [abs_of_pos] <;> norm_num) one_pos ?_ (by norm_num) (by rw [gridNodes_length]; norm_num [shellMesh])
    (by norm_num)
  intro p hp
  simp only [List.mem_flatMap, List.mem_cons, List.not_mem_nil, or_false] at hp
  obtain ⟨d, -, rfl | rfl⟩ := hp <;> norm_num

/-- Supports of the left side of a plate of two by two cells. -/
example : ∃ calls, shellCalls (gridNodes ⟨2, 2, 2, 2⟩) (squareCells4 ⟨2, 2, 2, 2⟩) [((6, 2), 1)] 1 0 1 = some calls ∧
    ∀ v v' : ℕ → ℕ → ℝ,
      (∀ p ∈ freeDofs (freeTable (gridNodes ⟨2, 2, 2, 2⟩).length 6)
        ((List.range 6).flatMap fun d => [((0, d), (0 : ℝ)), ((1, d), 0), ((2, d), 0)]), residual calls v p.1 p.2 = 0) →
      (∀ p ∈ freeDofs (freeTable (gridNodes ⟨2, 2, 2, 2⟩).length 6)
        ((List.range 6).flatMap fun d => [((0, d), (0 : ℝ)), ((1, d), 0), ((2, d), 0)]), residual calls v' p.1 p.2 = 0) →
      (∀ n d, ¬ IsFree (freeTable (gridNodes ⟨2, 2, 2, 2⟩).length 6)
        ((List.range 6).flatMap fun d => [((0, d), (0 : ℝ)), ((1, d), 0), ((2, d), 0)]) (n, d) → v' n d = v n d) →
      v' 6 2 = v 6 2 := by
  obtain ⟨calls, e1, e2⟩ := C134_determined_partial (m := ⟨2, 2, 2, 2⟩) (E := 1) (V := 0) (t := 1) (q := [((6, 2), 1)])
    (bc := (List.range 6).flatMap fun d => [((0, d), (0 : ℝ)), ((1, d), 0), ((2, d), 0)])
    (by norm_num) (by norm_num) (by norm_num) (by norm_num) one_pos (by norm_num) one_pos (fun p hp => by
      rw [List.mem_singleton.1 hp, gridNodes_length]
      norm_num) (fun j hj d hd => by
      simp only at hj
      simp only [List.mem_map, List.mem_flatMap, List.mem_range, squareNode]
      refine ⟨((j, d), 0), ⟨d, by omega, ?_⟩, by simp⟩
      interval_cases j <;> simp)
  exact ⟨calls, e1, fun v v' hv hv' hvv => e2 v v' hv hv' hvv 6 2 (by norm_num)⟩

end Pansfem
