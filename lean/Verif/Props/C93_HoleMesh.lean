/-
C93: the rectangle with a rectangular hole.
-/
import Verif.Props.C54_Fixedlist
import Mathlib.Tactic.LinearCombination
import Mathlib.Tactic.Linarith

namespace Pansfem

section
variable {K : Type}

/-! ### Numbering -/

/-- The number of the first node of a column. -/
def holeColumn (m : HoleMesh K) (i : ℕ) : ℕ :=
  if i ≤ m.nxv then (m.ny + 1) * i
  else if i < m.nxv + m.nv then (m.ny + 1) * (m.nxv + 1) + 2 * (m.nyw + 1) * (i - m.nxv - 1)
  else (m.ny + 1) * (m.nxv + 1) + 2 * (m.nyw + 1) * (m.nv - 1) + (m.ny + 1) * (i - m.nxv - m.nv)

/-- The number of the node at a grid position. -/
def holeNode (m : HoleMesh K) (i j : ℕ) : ℕ :=
  holeColumn m i + (if m.nxv < i ∧ i < m.nxv + m.nv ∧ m.nyw < j then j - m.nw + 1 else j)

/-- The grid positions of nodes: not inside the hole. -/
def holeVertex (m : HoleMesh K) (i j : ℕ) : Prop :=
  i ≤ m.nx ∧ j ≤ m.ny ∧ ¬ (m.nxv < i ∧ i < m.nxv + m.nv ∧ m.nyw < j ∧ j < m.nyw + m.nw)

/-- What is assumed: the hole is not empty and does not touch the outer boundary. -/
structure HoleOk (m : HoleMesh K) : Prop where
  nx : m.nx = 2 * m.nxv + m.nv
  ny : m.ny = 2 * m.nyw + m.nw
  v : 0 < m.nv
  w : 0 < m.nw
  xv : 0 < m.nxv
  yw : 0 < m.nyw

theorem holeOk_of_construct {a b : K} {nx ny nv nw : ℕ} {m : HoleMesh K}
    (h : HoleMesh.construct a b nx ny nv nw = some m) (hv : 0 < nv) (hw : 0 < nw) (hvx : nv < nx)
    (hwy : nw < ny) : HoleOk m := by
  unfold HoleMesh.construct at h
  split_ifs at h with hc
  cases h
  constructor <;> simp only <;> omega

/-- The number of nodes in a column. -/
def holeWidth (m : HoleMesh K) (i : ℕ) : ℕ :=
  if m.nxv < i ∧ i < m.nxv + m.nv then 2 * (m.nyw + 1) else m.ny + 1

variable {m : HoleMesh K}

theorem holeColumn_succ (h : HoleOk m) (i : ℕ) : holeColumn m (i + 1) = holeColumn m i + holeWidth m i := by
  have := h.v
  unfold holeColumn holeWidth
  by_cases h1 : i + 1 ≤ m.nxv
  · rw [if_pos h1, if_pos (by omega), if_neg (by omega)]; ring
  by_cases h2 : i ≤ m.nxv
  · have e : i = m.nxv := by omega
    subst e
    rw [if_neg h1, if_pos h2, if_neg (show ¬ (m.nxv < m.nxv ∧ m.nxv < m.nxv + m.nv) by omega)]
    by_cases h3 : m.nxv + 1 < m.nxv + m.nv
    · rw [if_pos h3, show m.nxv + 1 - m.nxv - 1 = 0 by omega]; ring
    · rw [if_neg h3, show m.nv - 1 = 0 by omega, show m.nxv + 1 - m.nxv - m.nv = 0 by omega]; ring
  by_cases h3 : i + 1 < m.nxv + m.nv
  · rw [if_neg h1, if_pos h3, if_neg h2, if_pos (by omega), if_pos (by omega),
      show i + 1 - m.nxv - 1 = i - m.nxv - 1 + 1 by omega]
    ring
  by_cases h4 : i < m.nxv + m.nv
  · rw [if_neg h1, if_neg h3, if_neg h2, if_pos h4, if_pos (by omega),
      show i + 1 - m.nxv - m.nv = 0 by omega, show m.nv - 1 = i - m.nxv - 1 + 1 by omega]
    ring
  · rw [if_neg h1, if_neg h3, if_neg h2, if_neg h4, if_neg (by omega),
      show i + 1 - m.nxv - m.nv = i - m.nxv - m.nv + 1 by omega]
    ring

theorem holeColumn_mono (h : HoleOk m) {i i' : ℕ} (hi : i < i') :
    holeColumn m i + holeWidth m i ≤ holeColumn m i' := by
  induction i' with
  | zero => omega
  | succ i' ih =>
    rcases Nat.lt_or_ge i i' with h' | h'
    · have := ih h'
      rw [holeColumn_succ h i']
      omega
    · have e : i = i' := by omega
      subst e
      rw [holeColumn_succ h]

theorem holeNode_bounds (h : HoleOk m) {i j : ℕ} (hv : holeVertex m i j) :
    holeColumn m i ≤ holeNode m i j ∧ holeNode m i j < holeColumn m i + holeWidth m i := by
  obtain ⟨h1, h2, h3⟩ := hv
  have := h.ny
  have := h.w
  unfold holeNode holeWidth
  split_ifs <;> omega

theorem holeNode_inj (h : HoleOk m) {i j i' j' : ℕ} (hv : holeVertex m i j) (hv' : holeVertex m i' j')
    (e : holeNode m i j = holeNode m i' j') : i = i' ∧ j = j' := by
  have b := holeNode_bounds h hv
  have b' := holeNode_bounds h hv'
  have hi : i = i' := by
    rcases Nat.lt_trichotomy i i' with h' | h' | h'
    · have := holeColumn_mono h h'; omega
    · exact h'
    · have := holeColumn_mono h h'; omega
  subst hi
  refine ⟨rfl, ?_⟩
  obtain ⟨-, h2, h3⟩ := hv
  obtain ⟨-, h2', h3'⟩ := hv'
  have := h.w
  unfold holeNode at e
  split_ifs at e <;> omega

theorem holeColumn_last (h : HoleOk m) :
    holeColumn m (m.nx + 1) = 2 * ((m.nxv + 1) * (m.ny + 1)) + (m.nv - 1) * (2 * (m.nyw + 1)) := by
  have := h.v
  have := h.nx
  unfold holeColumn
  rw [if_neg (by omega), if_neg (by omega), show m.nx + 1 - m.nxv - m.nv = m.nxv + 1 by omega]
  ring

theorem holeNode_lt (h : HoleOk m) {i j : ℕ} (hv : holeVertex m i j) :
    holeNode m i j < 2 * ((m.nxv + 1) * (m.ny + 1)) + (m.nv - 1) * (2 * (m.nyw + 1)) := by
  have b := holeNode_bounds h hv
  have := holeColumn_mono h (show i < m.nx + 1 by have := hv.1; omega)
  rw [holeColumn_last h] at this
  omega

/-- Every number is the number of a node. -/
theorem exists_holeNode (h : HoleOk m) {k : ℕ}
    (hk : k < 2 * ((m.nxv + 1) * (m.ny + 1)) + (m.nv - 1) * (2 * (m.nyw + 1))) :
    ∃ i j, holeVertex m i j ∧ holeNode m i j = k := by
  rw [← holeColumn_last h] at hk
  have key : ∀ n, n ≤ m.nx + 1 → k < holeColumn m n → ∃ i j, holeVertex m i j ∧ holeNode m i j = k := by
    intro n
    induction n with
    | zero => intro _ hk; simp [holeColumn] at hk
    | succ n ih =>
      intro hn hk
      by_cases h' : k < holeColumn m n
      · exact ih (by omega) h'
      · rw [holeColumn_succ h] at hk
        have := h.ny
        have := h.w
        unfold holeWidth at hk
        by_cases hc : m.nxv < n ∧ n < m.nxv + m.nv
        · rw [if_pos hc] at hk
          by_cases hj : k - holeColumn m n ≤ m.nyw
          · refine ⟨n, k - holeColumn m n, ⟨by omega, by omega, by omega⟩, ?_⟩
            unfold holeNode
            rw [if_neg (by omega)]
            omega
          · refine ⟨n, k - holeColumn m n + m.nw - 1, ⟨by omega, by omega, by omega⟩, ?_⟩
            unfold holeNode
            rw [if_pos (by omega)]
            omega
        · rw [if_neg hc] at hk
          refine ⟨n, k - holeColumn m n, ⟨by omega, by omega, by omega⟩, ?_⟩
          unfold holeNode
          rw [if_neg (by omega)]
          omega
  exact key _ le_rfl hk

/-! ### Cells -/

/-- The cells in the order of the code. -/
def holeCells (m : HoleMesh K) : List (ℕ × ℕ) :=
  (grid m.nxv m.ny Prod.mk) ++
  ((List.range m.nyw).map fun j => (m.nxv, j)) ++
  ((List.range (m.nv - 1)).flatMap fun i =>
    ((List.range m.nyw).map fun j => (m.nxv + i, m.nyw + m.nw + j)) ++
    ((List.range m.nyw).map fun j => (m.nxv + 1 + i, j))) ++
  ((List.range m.nyw).map fun j => (m.nxv + m.nv - 1, m.nyw + m.nw + j)) ++
  grid m.nxv m.ny fun i j => (m.nxv + m.nv + i, j)

theorem mem_holeCells (h : HoleOk m) (c : ℕ × ℕ) :
    c ∈ holeCells m ↔ c.1 < m.nx ∧ c.2 < m.ny ∧
      ¬ (m.nxv ≤ c.1 ∧ c.1 < m.nxv + m.nv ∧ m.nyw ≤ c.2 ∧ c.2 < m.nyw + m.nw) := by
  obtain ⟨i, j⟩ := c
  have := h.nx
  have := h.ny
  have := h.v
  simp only [holeCells, List.mem_append, mem_grid, List.mem_map, List.mem_flatMap, List.mem_range,
    Prod.mk.injEq]
  constructor
  · rintro ((((⟨i', hi', j', hj', rfl, rfl⟩ | ⟨j', hj', rfl, rfl⟩) |
      ⟨i', hi', ⟨j', hj', rfl, rfl⟩ | ⟨j', hj', rfl, rfl⟩⟩) | ⟨j', hj', rfl, rfl⟩) |
      ⟨i', hi', j', hj', rfl, rfl⟩) <;> omega
  · rintro ⟨h1, h2, h3⟩
    by_cases c1 : i < m.nxv
    · exact Or.inl (Or.inl (Or.inl (Or.inl ⟨i, c1, j, h2, rfl, rfl⟩)))
    by_cases c2 : m.nxv + m.nv ≤ i
    · exact Or.inr ⟨i - m.nxv - m.nv, by omega, j, h2, by omega, rfl⟩
    by_cases c3 : j < m.nyw
    · by_cases c4 : i = m.nxv
      · exact Or.inl (Or.inl (Or.inl (Or.inr ⟨j, c3, c4.symm, rfl⟩)))
      · exact Or.inl (Or.inl (Or.inr ⟨i - m.nxv - 1, by omega, Or.inr ⟨j, c3, by omega, rfl⟩⟩))
    · by_cases c4 : i = m.nxv + m.nv - 1
      · exact Or.inl (Or.inr ⟨j - m.nyw - m.nw, by omega, c4.symm, by omega⟩)
      · exact Or.inl (Or.inl (Or.inr ⟨i - m.nxv, by omega,
          Or.inl ⟨j - m.nyw - m.nw, by omega, by omega, by omega⟩⟩))

theorem holeCells_length (h : HoleOk m) : (holeCells m).length + m.nv * m.nw = m.nx * m.ny := by
  have hx := h.nx
  have hy := h.ny
  obtain ⟨v, hv⟩ : ∃ v, m.nv = v + 1 := ⟨m.nv - 1, by have := h.v; omega⟩
  simp only [holeCells, List.length_append, length_grid, List.length_map, List.length_range,
    List.length_flatMap]
  rw [hx, hy, hv]
  simp
  ring

theorem holeCells_nodup (h : HoleOk m) : (holeCells m).Nodup := by
  have hx := h.nx
  have hy := h.ny
  -- as many as the cells of the rectangle outside the hole, and containing all of them
  set all := (grid m.nx m.ny Prod.mk).filter fun c : ℕ × ℕ =>
    !decide (m.nxv ≤ c.1 ∧ c.1 < m.nxv + m.nv ∧ m.nyw ≤ c.2 ∧ c.2 < m.nyw + m.nw) with hall
  have hnd : all.Nodup :=
    (grid_nodup fun i _ j _ i' _ j' _ e => by simpa using e).filter _
  have hsub : all ⊆ holeCells m := by
    intro c hc
    rw [hall, List.mem_filter] at hc
    obtain ⟨hc, hc'⟩ := hc
    obtain ⟨i, hi, j, hj, rfl⟩ := mem_grid.1 hc
    refine (mem_holeCells h _).2 ⟨hi, hj, ?_⟩
    rw [Bool.not_eq_true'] at hc'
    exact of_decide_eq_false hc'
  have hlen : (holeCells m).length ≤ all.length := by
    have h1 := holeCells_length h
    have h2 : all.length + (((grid m.nx m.ny Prod.mk).filter fun c : ℕ × ℕ =>
        decide (m.nxv ≤ c.1 ∧ c.1 < m.nxv + m.nv ∧ m.nyw ≤ c.2 ∧ c.2 < m.nyw + m.nw))).length = m.nx * m.ny := by
      rw [← length_grid m.nx m.ny (Prod.mk : ℕ → ℕ → ℕ × ℕ), add_comm]
      have := List.length_eq_length_filter_add (l := grid m.nx m.ny (Prod.mk : ℕ → ℕ → ℕ × ℕ))
        (fun c => decide (m.nxv ≤ c.1 ∧ c.1 < m.nxv + m.nv ∧ m.nyw ≤ c.2 ∧ c.2 < m.nyw + m.nw))
      rw [this]
    have h3 : ((grid m.nx m.ny Prod.mk).filter fun c : ℕ × ℕ =>
        decide (m.nxv ≤ c.1 ∧ c.1 < m.nxv + m.nv ∧ m.nyw ≤ c.2 ∧ c.2 < m.nyw + m.nw)).length ≤ m.nv * m.nw := by
      rw [← length_grid m.nv m.nw (fun i j => (m.nxv + i, m.nyw + j))]
      refine (List.subperm_of_subset ?_ ?_).length_le
      · exact (grid_nodup fun i _ j _ i' _ j' _ e => by simpa using e).filter _
      · intro c hc
        rw [List.mem_filter] at hc
        have := of_decide_eq_true hc.2
        refine mem_grid.2 ⟨c.1 - m.nxv, by omega, c.2 - m.nyw, by omega, ?_⟩
        rw [Prod.ext_iff]
        constructor <;> simp only <;> omega
    omega
  exact ((List.subperm_of_subset hnd hsub).perm_of_length_le hlen).nodup_iff.1 hnd

theorem holeCells_cells (h : HoleOk m) :
    Cells (holeNode m) (· + 1) (holeVertex m) (holeCells m) where
  nodup := holeCells_nodup h
  vert := by
    intro c hc
    obtain ⟨h1, h2, h3⟩ := (mem_holeCells h c).1 hc
    unfold holeVertex
    refine ⟨?_, ?_, ?_, ?_⟩ <;> refine ⟨?_, ?_, ?_⟩ <;> omega
  inj := fun _ _ _ _ hv hv' e => holeNode_inj h hv hv' e
  sinj := by intro c _ c' _ e; simpa using e
  sne := by intro c _; exact Nat.succ_ne_self _
  stwo := by intro c _ c' _ (e : c.2 + 1 = c'.2) (e' : c'.2 + 1 = c.2); omega

theorem mapM_number (l : List ℕ) : (l.map fun k : ℕ => (k : ℤ)).mapM HoleMesh.number = some l := by
  induction l with
  | nil => rfl
  | cons a l ih =>
    rw [List.map_cons, List.mapM_cons, ih]
    unfold HoleMesh.number
    rw [if_neg (by omega)]
    rfl

theorem mapM_numbers (l : List (List ℕ)) :
    ((l.map fun e : List ℕ => e.map fun k : ℕ => (k : ℤ)).mapM fun e : List ℤ => e.mapM HoleMesh.number) =
      some l := by
  induction l with
  | nil => rfl
  | cons a l ih =>
    rw [List.map_cons, List.mapM_cons, ih, mapM_number]
    rfl

/-- The number with the formulas of the code: left of the hole and its left side. -/
theorem holeNode_left {i : ℕ} (j : ℕ) (hi : i ≤ m.nxv) : (holeNode m i j : ℤ) = (m.ny + 1) * i + j := by
  unfold holeNode holeColumn
  rw [if_pos hi, if_neg (by omega)]
  push_cast; ring

/-- Below the hole. -/
theorem holeNode_below {i j : ℕ} (h1 : m.nxv < i) (h2 : i ≤ m.nxv + m.nv) (hj : j ≤ m.nyw) :
    (holeNode m i j : ℤ) = (m.ny + 1) * (m.nxv + 1) + 2 * (m.nyw + 1) * (i - m.nxv - 1) + j := by
  unfold holeNode holeColumn
  rw [if_neg (by omega), if_neg (show ¬ (m.nxv < i ∧ i < m.nxv + m.nv ∧ m.nyw < j) by omega)]
  by_cases h3 : i < m.nxv + m.nv
  · rw [if_pos h3]
    push_cast [show m.nxv ≤ i by omega, show 1 ≤ i - m.nxv by omega]
    ring
  · rw [if_neg h3, show i - m.nxv - m.nv = 0 by omega, ← show i - m.nxv - 1 = m.nv - 1 by omega]
    push_cast [show m.nxv ≤ i by omega, show 1 ≤ i - m.nxv by omega]
    ring

/-- Above the hole, with its left side. -/
theorem holeNode_above (h : HoleOk m) {i j : ℕ} (h1 : m.nxv ≤ i) (h2 : i < m.nxv + m.nv) :
    (holeNode m i (m.nyw + m.nw + j) : ℤ) =
      (m.ny + 1) * m.nxv + m.nw - 1 + (m.nyw + 1) * (2 * (i - m.nxv) + 1) + j := by
  have hy : (m.ny : ℤ) = 2 * m.nyw + m.nw := by exact_mod_cast h.ny
  have hw := h.w
  by_cases h3 : i = m.nxv
  · subst h3
    rw [holeNode_left _ le_rfl]
    push_cast; ring
  · unfold holeNode holeColumn
    rw [if_neg (by omega), if_pos h2, if_pos (by omega), show m.nyw + m.nw + j - m.nw + 1 = m.nyw + j + 1 by omega]
    push_cast [show m.nxv ≤ i by omega, show 1 ≤ i - m.nxv by omega]
    rw [hy]
    ring

/-- Right of the hole. -/
theorem holeNode_right (h : HoleOk m) {i : ℕ} (j : ℕ) :
    (holeNode m (m.nxv + m.nv + i) j : ℤ) =
      (m.ny + 1) * (m.nxv + 1) + 2 * (m.nyw + 1) * (m.nv - 1) + (m.ny + 1) * i + j := by
  have hv := h.v
  unfold holeNode holeColumn
  rw [if_neg (by omega), if_neg (by omega), if_neg (by omega),
    show m.nxv + m.nv + i - m.nxv - m.nv = i by omega]
  push_cast [show 1 ≤ m.nv by omega]
  ring

/-- Inside a cell the next node has the next number. -/
theorem holeNode_next (h : HoleOk m) {c : ℕ × ℕ} (hc : c ∈ holeCells m) (i : ℕ) (hi : i = c.1 ∨ i = c.1 + 1) :
    holeNode m i (c.2 + 1) = holeNode m i c.2 + 1 := by
  obtain ⟨h1, h2, h3⟩ := (mem_holeCells h c).1 hc
  have := h.w
  unfold holeNode
  split_ifs <;> omega

theorem cell_eq (h : HoleOk m) {i j : ℕ} (hc : (i, j) ∈ holeCells m) {p q : ℤ} (hp : (holeNode m i j : ℤ) = p)
    (hq : (holeNode m (i + 1) j : ℤ) = q) :
    HoleMesh.cell p q = (quad (holeNode m) (· + 1) (i, j)).map fun k : ℕ => (k : ℤ) := by
  have e1 := holeNode_next h hc i (Or.inl rfl)
  have e2 := holeNode_next h hc (i + 1) (Or.inr rfl)
  simp only at e1 e2
  unfold HoleMesh.cell quad
  simp only [List.map_cons, List.map_nil]
  rw [e1, e2, ← hp, ← hq]
  push_cast
  rfl

theorem holeCells_eq (h : HoleOk m) :
    m.cells = ((holeCells m).map (quad (holeNode m) (· + 1))).map fun e : List ℕ => e.map fun k : ℕ => (k : ℤ) := by
  have hy : (m.ny : ℤ) = 2 * m.nyw + m.nw := by exact_mod_cast h.ny
  have hyn := h.ny
  have hxn := h.nx
  have hv := h.v
  have hw := h.w
  unfold HoleMesh.cells
  rw [List.map_map]
  unfold holeCells
  simp only [List.map_append, List.map_flatMap, List.map_map, map_grid]
  congr 1
  · congr 1
    · congr 1
      · congr 1
        · unfold grid
          refine List.flatMap_congr fun i hi => List.map_congr_left fun j hj => ?_
          rw [List.mem_range] at hi hj
          refine cell_eq h ((mem_holeCells h _).2 ⟨by simp only; omega, hj, by simp only; omega⟩)
            (holeNode_left _ (by omega)) ?_
          rw [holeNode_left _ (by omega)]; push_cast; ring
        · refine List.map_congr_left fun j hj => ?_
          rw [List.mem_range] at hj
          refine cell_eq h ((mem_holeCells h _).2 ⟨by simp only; omega, by simp only; omega, by simp only; omega⟩)
            (holeNode_left _ (by omega)) ?_
          rw [holeNode_below (by omega) (by omega) (by omega)]; push_cast; ring
      · refine List.flatMap_congr fun i hi => ?_
        rw [List.mem_range] at hi
        congr 1
        · refine List.map_congr_left fun j hj => ?_
          rw [List.mem_range] at hj
          refine cell_eq h ((mem_holeCells h _).2 ⟨by simp only; omega, by simp only; omega, by simp only; omega⟩) ?_ ?_
          · rw [holeNode_above h (by omega) (by omega)]; push_cast; ring
          · rw [holeNode_above h (by omega) (by omega)]; push_cast; ring
        · refine List.map_congr_left fun j hj => ?_
          rw [List.mem_range] at hj
          refine cell_eq h ((mem_holeCells h _).2 ⟨by simp only; omega, by simp only; omega, by simp only; omega⟩) ?_ ?_
          · rw [holeNode_below (by omega) (by omega) (by omega)]; push_cast; ring
          · rw [holeNode_below (by omega) (by omega) (by omega)]; push_cast; ring
    · refine List.map_congr_left fun j hj => ?_
      rw [List.mem_range] at hj
      refine cell_eq h ((mem_holeCells h _).2 ⟨by simp only; omega, by simp only; omega, by simp only; omega⟩) ?_ ?_
      · rw [holeNode_above h (by omega) (by omega), hy]
        push_cast [show 1 ≤ m.nxv + m.nv by omega]
        ring
      · rw [show m.nxv + m.nv - 1 + 1 = m.nxv + m.nv + 0 by omega, holeNode_right h]
        push_cast; ring
  · unfold grid
    refine List.flatMap_congr fun i hi => List.map_congr_left fun j hj => ?_
    rw [List.mem_range] at hi hj
    refine cell_eq h ((mem_holeCells h _).2 ⟨by simp only; omega, hj, by simp only; omega⟩) (holeNode_right h _) ?_
    rw [show m.nxv + m.nv + i + 1 = m.nxv + m.nv + (i + 1) by omega, holeNode_right h]; push_cast; ring

theorem sized_counted {α : Type} (l : List α) (n : ℤ) (hn : n = l.length) :
    HoleMesh.sized n (HoleMesh.counted l) = some l := by
  unfold HoleMesh.sized
  rw [if_neg (by omega), hn, Int.toNat_natCast, fill_seq (counted_fst _), counted_snd]

theorem holeElements_eq (h : HoleOk m) :
    m.elements = some ((holeCells m).map (quad (holeNode m) (· + 1))) := by
  unfold HoleMesh.elements
  rw [holeCells_eq h, mapM_numbers]
  show HoleMesh.sized _ _ = _
  apply sized_counted
  rw [List.length_map]
  have := holeCells_length h
  have h' : ((holeCells m).length : ℤ) + m.nv * m.nw = m.nx * m.ny := by exact_mod_cast this
  linarith

/-! ### Edges -/

theorem range_map_add {α : Type} (f : ℕ → α) (a b : ℕ) :
    (List.range (a + b)).map f = (List.range a).map f ++ (List.range b).map fun k => f (a + k) := by
  rw [List.range_add, List.map_append, List.map_map]
  rfl

/-- The edges of the rim side by side. -/
theorem rim_split (N : ℕ → ℕ → ℕ) (nx ny : ℕ) :
    (List.range (2 * (nx + ny))).map (rimEdge N nx ny) =
      ((List.range nx).map fun i => [N i 0, N (i + 1) 0]) ++ ((List.range ny).map fun j => [N nx j, N nx (j + 1)]) ++
      ((List.range nx).map fun i => [N (nx - i) ny, N (nx - i - 1) ny]) ++
      ((List.range ny).map fun j => [N 0 (ny - j), N 0 (ny - j - 1)]) := by
  rw [show 2 * (nx + ny) = nx + ny + nx + ny by ring, range_map_add, range_map_add, range_map_add]
  congr 1
  · congr 1
    · congr 1
      · refine List.map_congr_left fun k hk => ?_
        rw [List.mem_range] at hk
        unfold rimEdge; rw [if_pos hk]
      · refine List.map_congr_left fun k hk => ?_
        rw [List.mem_range] at hk
        unfold rimEdge
        rw [if_neg (by omega), if_pos (by omega), show nx + k - nx = k by omega]
    · refine List.map_congr_left fun k hk => ?_
      rw [List.mem_range] at hk
      unfold rimEdge
      rw [if_neg (by omega), if_neg (by omega), if_pos (by omega),
        show 2 * nx + ny - (nx + ny + k) = nx - k by omega]
  · refine List.map_congr_left fun k hk => ?_
    rw [List.mem_range] at hk
    unfold rimEdge
    rw [if_neg (by omega), if_neg (by omega), if_neg (by omega),
      show 2 * (nx + ny) - (nx + ny + nx + k) = ny - k by omega]

theorem holeNode_top (h : HoleOk m) {i : ℕ} (h1 : m.nxv ≤ i) (h2 : i < m.nxv + m.nv) :
    (holeNode m i m.ny : ℤ) = (m.ny + 1) * (m.nxv + 1) + 2 * (m.nyw + 1) * (i - m.nxv) - 1 := by
  have hy : (m.ny : ℤ) = 2 * m.nyw + m.nw := by exact_mod_cast h.ny
  have e := holeNode_above h (j := m.nyw) h1 h2
  rw [show m.nyw + m.nw + m.nyw = m.ny by have := h.ny; omega] at e
  rw [e, hy]
  ring

theorem holeEdges_eq (h : HoleOk m) :
    m.edges = some ((List.range (2 * (m.nx + m.ny))).map (rimEdge (holeNode m) m.nx m.ny)) := by
  have hy : (m.ny : ℤ) = 2 * m.nyw + m.nw := by exact_mod_cast h.ny
  have hyn := h.ny
  have hxn := h.nx
  have hv := h.v
  have hw := h.w
  have key : m.edgeList = ((List.range (2 * (m.nx + m.ny))).map (rimEdge (holeNode m) m.nx m.ny)).map
      fun e : List ℕ => e.map fun k : ℕ => (k : ℤ) := by
    have hb : (List.range m.nx).map (fun i => [holeNode m i 0, holeNode m (i + 1) 0]) =
        ((List.range (m.nxv + 1)).map fun i => [holeNode m i 0, holeNode m (i + 1) 0]) ++
        ((List.range (m.nv - 1)).map fun i =>
          [holeNode m (m.nxv + 1 + i) 0, holeNode m (m.nxv + 1 + i + 1) 0]) ++
        ((List.range m.nxv).map fun i => [holeNode m (m.nxv + m.nv + i) 0, holeNode m (m.nxv + m.nv + i + 1) 0]) := by
      rw [show m.nx = m.nxv + 1 + (m.nv - 1) + m.nxv by omega, range_map_add, range_map_add,
        show m.nxv + 1 + (m.nv - 1) = m.nxv + m.nv by omega]
    have ht : (List.range m.nx).map (fun i => [holeNode m (m.nx - i) m.ny, holeNode m (m.nx - i - 1) m.ny]) =
        ((List.range (m.nxv + 1)).map fun i => [holeNode m (m.nx - i) m.ny, holeNode m (m.nx - i - 1) m.ny]) ++
        ((List.range (m.nv - 1)).map fun i =>
          [holeNode m (m.nx - (m.nxv + 1 + i)) m.ny, holeNode m (m.nx - (m.nxv + 1 + i) - 1) m.ny]) ++
        ((List.range m.nxv).map fun i =>
          [holeNode m (m.nx - (m.nxv + 1 + (m.nv - 1) + i)) m.ny,
            holeNode m (m.nx - (m.nxv + 1 + (m.nv - 1) + i) - 1) m.ny]) := by
      rw [← range_map_add, ← range_map_add]
      congr 2
      omega
    rw [rim_split, hb, ht]
    unfold HoleMesh.edgeList
    simp only [List.map_append, List.map_map, ← List.append_assoc]
    refine congrArg₂ _ (congrArg₂ _ (congrArg₂ _ (congrArg₂ _ (congrArg₂ _ (congrArg₂ _ (congrArg₂ _ ?_ ?_) ?_)
      ?_) ?_) ?_) ?_) ?_ <;> refine List.map_congr_left fun i hi => ?_ <;> rw [List.mem_range] at hi <;>
      simp only [Function.comp, List.map_cons, List.map_nil]
    · rw [holeNode_left _ (by omega)]
      by_cases hc : i + 1 ≤ m.nxv
      · rw [holeNode_left _ hc]; push_cast; simp
      · rw [holeNode_below (by omega) (by omega) (by omega), show i = m.nxv by omega]; push_cast; simp
    · rw [holeNode_below (by omega) (by omega) (by omega), holeNode_below (by omega) (by omega) (by omega)]
      push_cast
      congr 1
      · ring
      · congr 1; ring
    · rw [show m.nxv + m.nv + i + 1 = m.nxv + m.nv + (i + 1) by omega, holeNode_right h, holeNode_right h]
      push_cast
      simp
    · rw [show m.nx = m.nxv + m.nv + m.nxv by omega, holeNode_right h, holeNode_right h]
      push_cast
      congr 1
      · ring
      · congr 1; ring
    · rw [show m.nx - i = m.nxv + m.nv + (m.nxv - i) by omega, holeNode_right h]
      by_cases hc : i < m.nxv
      · rw [show m.nxv + m.nv + (m.nxv - i) - 1 = m.nxv + m.nv + (m.nxv - i - 1) by omega, holeNode_right h]
        push_cast [show i ≤ m.nxv by omega, show 1 ≤ m.nxv - i by omega]
        congr 1
        · ring
        · congr 1; ring
      · have hi' : i = m.nxv := by omega
        subst hi'
        rw [show m.nxv + m.nv + (m.nxv - m.nxv) - 1 = m.nxv + m.nv - 1 by omega,
          holeNode_top h (by omega) (by omega)]
        push_cast [show 1 ≤ m.nxv + m.nv by omega]
        congr 1
        · simp; ring
        · congr 1; ring
    · rw [show m.nx - (m.nxv + 1 + i) = m.nxv + m.nv - 1 - i by omega,
        show m.nxv + m.nv - 1 - i - 1 = m.nxv + m.nv - 2 - i by omega,
        holeNode_top h (by omega) (by omega), holeNode_top h (by omega) (by omega)]
      push_cast [show 1 ≤ m.nxv + m.nv by omega, show 2 ≤ m.nxv + m.nv by omega,
        show i ≤ m.nxv + m.nv - 1 by omega, show i ≤ m.nxv + m.nv - 2 by omega]
      congr 1
      · ring
      · congr 1; ring
    · rw [show m.nx - (m.nxv + 1 + (m.nv - 1) + i) = m.nxv - i by omega, holeNode_left _ (by omega),
        holeNode_left _ (by omega)]
      push_cast [show i ≤ m.nxv by omega, show 1 ≤ m.nxv - i by omega]
      congr 1
      · ring
      · congr 1; ring
    · rw [holeNode_left _ (by omega), holeNode_left _ (by omega)]
      push_cast [show i ≤ m.ny by omega, show 1 ≤ m.ny - i by omega]
      congr 1
      · ring
      · congr 1; ring
  unfold HoleMesh.edges
  rw [key, mapM_numbers]
  show fill _ _ = _
  rw [fill_seq, counted_snd]
  rw [counted_fst, List.length_map, List.length_range]

end

section
variable {K : Type} [Field K] {m : HoleMesh K}

/-! ### Coordinates -/

theorem hole_middle (m : HoleMesh K) :
    ((List.range (m.nv - 1)).flatMap fun i : ℕ =>
      ((List.range (m.nyw + 1)).map fun j : ℕ => (m.a * (m.nxv + 1 + i) / m.nx, m.b * j / m.ny)) ++
      ((List.range (m.nyw + 1)).map fun j : ℕ =>
        (m.a * (m.nxv + 1 + i) / m.nx, m.b * (j + m.nyw + m.nw) / m.ny))) =
    grid (m.nv - 1) (2 * (m.nyw + 1)) fun i j =>
      (m.a * (m.nxv + 1 + i) / m.nx,
        if j ≤ m.nyw then m.b * j / m.ny else m.b * ((j - (m.nyw + 1) : ℕ) + m.nyw + m.nw) / m.ny) := by
  unfold grid
  refine List.flatMap_congr fun i _ => ?_
  rw [two_mul, range_map_add _ (m.nyw + 1) (m.nyw + 1)]
  congr 1
  · refine List.map_congr_left fun j hj => ?_
    rw [List.mem_range] at hj
    simp only
    rw [if_pos (by omega)]
  · refine List.map_congr_left fun j _ => ?_
    simp only
    rw [if_neg (by omega), show m.nyw + 1 + j - (m.nyw + 1) = j by omega]

theorem holePoints (h : HoleOk m) {i j : ℕ} (hv : holeVertex m i j) :
    m.points[holeNode m i j]? = some (m.a * i / m.nx, m.b * j / m.ny) := by
  obtain ⟨h1, h2, h3⟩ := hv
  have hyn := h.ny
  have hxn := h.nx
  have hnv := h.v
  have hw := h.w
  unfold HoleMesh.points
  rw [hole_middle]
  by_cases c1 : i ≤ m.nxv
  · have e : holeNode m i j = (m.ny + 1) * i + j := by exact_mod_cast holeNode_left j c1
    rw [List.append_assoc, List.getElem?_append_left, e, getElem?_grid _ (by omega) (by omega)]
    rw [length_grid, e]
    exact row_lt (by omega) (by omega)
  by_cases c2 : i < m.nxv + m.nv
  · have e : holeNode m i j = (m.nxv + 1) * (m.ny + 1) + (2 * (m.nyw + 1) * (i - m.nxv - 1) +
        (if m.nyw < j then j - m.nw + 1 else j)) := by
      unfold holeNode holeColumn
      rw [if_neg c1, if_pos c2]
      by_cases hj : m.nyw < j
      · rw [if_pos (by omega), if_pos hj]; ring
      · rw [if_neg (by omega), if_neg hj]; ring
    have hlt : (if m.nyw < j then j - m.nw + 1 else j) < 2 * (m.nyw + 1) := by split_ifs <;> omega
    rw [List.getElem?_append_left, List.getElem?_append_right, length_grid, e, Nat.add_sub_cancel_left,
      getElem?_grid _ (by omega) hlt]
    · congr 2
      · congr 2
        rw [Nat.cast_sub (by omega), Nat.cast_sub (by omega)]
        push_cast; ring
      · by_cases hj : m.nyw < j
        · rw [if_pos hj, if_neg (by omega)]
          congr 2
          rw [← Nat.cast_add, ← Nat.cast_add]
          congr 1
          omega
        · rw [if_neg hj, if_pos (by omega)]
    · rw [length_grid, e]; omega
    · rw [List.length_append, length_grid, length_grid, e]
      have := row_lt (show i - m.nxv - 1 < m.nv - 1 by omega) hlt
      omega
  · have e : holeNode m i j = (m.nxv + 1) * (m.ny + 1) + (m.nv - 1) * (2 * (m.nyw + 1)) +
        ((m.ny + 1) * (i - m.nxv - m.nv) + j) := by
      unfold holeNode holeColumn
      rw [if_neg c1, if_neg c2, if_neg (by omega)]
      ring
    rw [List.getElem?_append_right, List.length_append, length_grid, length_grid, e, Nat.add_sub_cancel_left,
      getElem?_grid _ (by omega) (by omega)]
    · congr 4
      rw [Nat.cast_sub (by omega), Nat.cast_sub (by omega)]
      ring
    · rw [List.length_append, length_grid, length_grid, e]; omega

/-! ### The theorems -/

/-- Whether a point is on the outer boundary. -/
def onRim (m : HoleMesh K) (p : K × K) : Prop := p.1 = 0 ∨ p.1 = m.a ∨ p.2 = 0 ∨ p.2 = m.b

theorem onRim_iff [CharZero K] (h : HoleOk m) (ha : m.a ≠ 0) (hb : m.b ≠ 0) (i j : ℕ) :
    onRim m (m.a * i / m.nx, m.b * j / m.ny) ↔ i = 0 ∨ i = m.nx ∨ j = 0 ∨ j = m.ny := by
  have hx0 : (m.nx : K) ≠ 0 := Nat.cast_ne_zero.2 (by have := h.nx; have := h.v; omega)
  have hy0 : (m.ny : K) ≠ 0 := Nat.cast_ne_zero.2 (by have := h.ny; have := h.w; omega)
  have z : ∀ (l : K) (n k : ℕ), l ≠ 0 → (n : K) ≠ 0 → (l * k / n = 0 ↔ k = 0) := by
    intro l n k hl hn
    rw [div_eq_zero_iff, mul_eq_zero]
    simp [hl, hn]
  have o : ∀ (l : K) (n k : ℕ), l ≠ 0 → (n : K) ≠ 0 → (l * k / n = l ↔ k = n) := by
    intro l n k hl hn
    rw [div_eq_iff hn, mul_right_inj' hl, Nat.cast_inj]
  unfold onRim
  simp only
  rw [z _ _ _ ha hx0, z _ _ _ hb hy0, o _ _ _ ha hx0, o _ _ _ hb hy0]

/-- C93, as far as it goes: four different existing corners, every node used, neighbouring elements fit
together, all elements congruent rectangles, and `GenerateEdges` lists exactly the sides of the outer
boundary, in the order of a closed walk.  What is missing: the sides of the hole, which are boundary
sides too, are not listed; see `C93_hole_false`. -/
theorem C93_hole_partial [CharZero K] (h : HoleOk m) (ha : m.a ≠ 0) (hb : m.b ≠ 0) :
    ∃ nodes elements edges, m.nodes = some nodes ∧ m.elements = some elements ∧ m.edges = some edges ∧
      nodes.length + (m.nv - 1) * (m.nw - 1) = (m.nx + 1) * (m.ny + 1) ∧
      elements.length + m.nv * m.nw = m.nx * m.ny ∧ edges.length = 2 * (m.nx + m.ny) ∧
      (∀ e ∈ elements, e.length = 4 ∧ e.Nodup ∧ ∀ n ∈ e, n < nodes.length) ∧
      (∀ n < nodes.length, ∃ e ∈ elements, n ∈ e) ∧
      (elements.flatMap sides).Nodup ∧
      (∀ e ∈ elements, polyArea nodes e = m.a / m.nx * (m.b / m.ny)) ∧
      ClosedLoop edges ∧ edges.Nodup ∧ (∀ e ∈ edges, ∃ a b, e = [a, b]) ∧
      ∀ a b, [a, b] ∈ edges ↔
        ((a, b) ∈ elements.flatMap sides ∧ (b, a) ∉ elements.flatMap sides) ∧
          (∃ p, nodes[a]? = some p ∧ onRim m p) ∧ ∃ p, nodes[b]? = some p ∧ onRim m p := by
  have hyn := h.ny
  have hxn := h.nx
  have hnv := h.v
  have hw := h.w
  have hxv := h.xv
  have hyw := h.yw
  have hx0 : (m.nx : K) ≠ 0 := Nat.cast_ne_zero.2 (by omega)
  have hy0 : (m.ny : K) ≠ 0 := Nat.cast_ne_zero.2 (by omega)
  have hc := holeCells_cells h
  have hnodes : m.nodes = some m.points := by
    unfold HoleMesh.nodes
    rw [if_neg (by omega)]
    apply sized_counted
    rw [points_length]
    obtain ⟨v, hv'⟩ : ∃ v, m.nv = v + 1 := ⟨m.nv - 1, by omega⟩
    rw [hxn, hv', Nat.add_sub_cancel, hyn]
    push_cast
    ring
  have vert : ∀ i j, i ≤ m.nx → j ≤ m.ny → (i = 0 ∨ i = m.nx ∨ j = 0 ∨ j = m.ny) → holeVertex m i j := by
    intro i j h1 h2 h3
    exact ⟨h1, h2, by omega⟩
  refine ⟨_, _, _, hnodes, holeElements_eq h, holeEdges_eq h, ?_, ?_, by simp, ?_, ?_, hc.sides_nodup, ?_,
    rim_loop _ (by omega) (by omega), ?_, ?_, ?_⟩
  · rw [points_length]
    obtain ⟨v, hv'⟩ : ∃ v, m.nv = v + 1 := ⟨m.nv - 1, by omega⟩
    obtain ⟨w, hw'⟩ : ∃ w, m.nw = w + 1 := ⟨m.nw - 1, by omega⟩
    rw [hxn, hyn, hv', hw', Nat.add_sub_cancel, Nat.add_sub_cancel]
    ring
  · rw [List.length_map]; exact holeCells_length h
  · intro e he
    obtain ⟨c, hcm, rfl⟩ := List.mem_map.1 he
    refine ⟨rfl, hc.quad_nodup hcm, ?_⟩
    obtain ⟨v1, v2, v3, v4⟩ := hc.vert c hcm
    intro n hn
    rw [points_length]
    simp only [quad, List.mem_cons, List.not_mem_nil, or_false] at hn
    rcases hn with rfl | rfl | rfl | rfl
    · exact holeNode_lt h v1
    · exact holeNode_lt h v2
    · exact holeNode_lt h v3
    · exact holeNode_lt h v4
  · intro n hn
    rw [points_length] at hn
    obtain ⟨i, j, ⟨h1, h2, h3⟩, rfl⟩ := exists_holeNode h hn
    have fin : ∀ c, c ∈ holeCells m → holeNode m i j ∈ quad (holeNode m) (· + 1) c →
        ∃ e ∈ (holeCells m).map (quad (holeNode m) (· + 1)), holeNode m i j ∈ e :=
      fun c hcm hq => ⟨_, List.mem_map.2 ⟨c, hcm, rfl⟩, hq⟩
    -- the cell to the left below, right below, left above or right above
    by_cases hi : i ≤ m.nxv
    · rcases Nat.eq_zero_or_pos i with h0 | h0
      · by_cases hj : j < m.ny
        · exact fin (i, j) ((mem_holeCells h _).2 ⟨by simp only; omega, hj, by simp only; omega⟩) (by simp [quad])
        · refine fin (i, j - 1) ((mem_holeCells h _).2 ⟨by simp only; omega, by simp only; omega, by simp only; omega⟩) ?_
          simp only [quad, show j - 1 + 1 = j by omega]; simp
      · by_cases hj : j < m.ny
        · refine fin (i - 1, j) ((mem_holeCells h _).2 ⟨by simp only; omega, hj, by simp only; omega⟩) ?_
          simp only [quad, show i - 1 + 1 = i by omega]; simp
        · refine fin (i - 1, j - 1) ((mem_holeCells h _).2 ⟨by simp only; omega, by simp only; omega, by simp only; omega⟩) ?_
          simp only [quad, show j - 1 + 1 = j by omega, show i - 1 + 1 = i by omega]; simp
    by_cases hi' : m.nxv + m.nv ≤ i
    · by_cases h0 : i < m.nx
      · by_cases hj : j < m.ny
        · exact fin (i, j) ((mem_holeCells h _).2 ⟨h0, hj, by simp only; omega⟩) (by simp [quad])
        · refine fin (i, j - 1) ((mem_holeCells h _).2 ⟨h0, by simp only; omega, by simp only; omega⟩) ?_
          simp only [quad, show j - 1 + 1 = j by omega]; simp
      · by_cases hj : j < m.ny
        · refine fin (i - 1, j) ((mem_holeCells h _).2 ⟨by simp only; omega, hj, by simp only; omega⟩) ?_
          simp only [quad, show i - 1 + 1 = i by omega]; simp
        · refine fin (i - 1, j - 1) ((mem_holeCells h _).2 ⟨by simp only; omega, by simp only; omega, by simp only; omega⟩) ?_
          simp only [quad, show j - 1 + 1 = j by omega, show i - 1 + 1 = i by omega]; simp
    by_cases hj : j ≤ m.nyw
    · by_cases hj0 : j < m.nyw
      · exact fin (i, j) ((mem_holeCells h _).2 ⟨by simp only; omega, by simp only; omega, by simp only; omega⟩) (by simp [quad])
      · refine fin (i, j - 1) ((mem_holeCells h _).2 ⟨by simp only; omega, by simp only; omega, by simp only; omega⟩) ?_
        simp only [quad, show j - 1 + 1 = j by omega]; simp
    · by_cases hj0 : j < m.ny
      · exact fin (i, j) ((mem_holeCells h _).2 ⟨by simp only; omega, hj0, by simp only; omega⟩) (by simp [quad])
      · refine fin (i, j - 1) ((mem_holeCells h _).2 ⟨by simp only; omega, by simp only; omega, by simp only; omega⟩) ?_
        simp only [quad, show j - 1 + 1 = j by omega]; simp
  · intro e he
    obtain ⟨c, hcm, rfl⟩ := List.mem_map.1 he
    obtain ⟨v1, v2, v3, v4⟩ := hc.vert c hcm
    have g : ∀ {i j}, holeVertex m i j → m.points.getD (holeNode m i j) (0, 0) = (m.a * i / m.nx, m.b * j / m.ny) := by
      intro i j hv
      rw [List.getD_eq_getElem?_getD, holePoints h hv]
      rfl
    unfold polyArea quad
    rw [sides_four]
    simp only [List.map_cons, List.map_nil, List.sum_cons, List.sum_nil]
    rw [g v1, g v2, g v3, g v4]
    unfold cross
    push_cast
    field_simp
    ring
  · refine List.Nodup.map_on ?_ List.nodup_range
    intro k hk k' hk' e
    refine rimEdge_inj (fun i j i' j' hi hj hi' hj' hr hr' e => holeNode_inj h (vert i j hi hj hr)
      (vert i' j' hi' hj' hr') e) (by omega) (by omega) (List.mem_range.1 hk) (List.mem_range.1 hk') e
  · intro e he
    obtain ⟨k, -, rfl⟩ := List.mem_map.1 he
    unfold rimEdge
    split_ifs <;> exact ⟨_, _, rfl⟩
  · intro a b
    have rim : ∀ i j, holeVertex m i j →
        ((∃ p, m.points[holeNode m i j]? = some p ∧ onRim m p) ↔ (i = 0 ∨ i = m.nx ∨ j = 0 ∨ j = m.ny)) := by
      intro i j hv
      rw [holePoints h hv, ← onRim_iff h ha hb]
      constructor
      · rintro ⟨p, e, hp⟩; cases e; exact hp
      · intro hp; exact ⟨_, rfl, hp⟩
    rw [mem_rimEdges, hc.mem_boundary]
    constructor
    · rintro (⟨i, hi, rfl, rfl⟩ | ⟨j, hj, rfl, rfl⟩ | ⟨i, hi, rfl, rfl⟩ | ⟨j, hj, rfl, rfl⟩)
      · refine ⟨⟨(i, 0), (mem_holeCells h _).2 ⟨hi, by simp only; omega, by simp only; omega⟩,
          Or.inl ⟨rfl, fun c' _ _ => by simp⟩⟩, ?_, ?_⟩
        · exact (rim i 0 (vert _ _ (by omega) (by omega) (by omega))).2 (by omega)
        · exact (rim (i + 1) 0 (vert _ _ (by omega) (by omega) (by omega))).2 (by omega)
      · refine ⟨⟨(m.nx - 1, j), (mem_holeCells h _).2 ⟨by simp only; omega, hj, by simp only; omega⟩,
          Or.inr (Or.inl ⟨?_, ?_⟩)⟩, ?_, ?_⟩
        · simp only [show m.nx - 1 + 1 = m.nx by omega]
        · intro hm
          have := ((mem_holeCells h _).1 hm).1
          simp only at this; omega
        · exact (rim m.nx j (vert _ _ (by omega) (by omega) (by omega))).2 (by omega)
        · exact (rim m.nx (j + 1) (vert _ _ (by omega) (by omega) (by omega))).2 (by omega)
      · refine ⟨⟨(i, m.ny - 1), (mem_holeCells h _).2 ⟨hi, by simp only; omega, by simp only; omega⟩,
          Or.inr (Or.inr (Or.inl ⟨?_, ?_⟩))⟩, ?_, ?_⟩
        · simp only [show m.ny - 1 + 1 = m.ny by omega]
        · intro hm
          have := ((mem_holeCells h _).1 hm).2.1
          simp only at this; omega
        · exact (rim (i + 1) m.ny (vert _ _ (by omega) (by omega) (by omega))).2 (by omega)
        · exact (rim i m.ny (vert _ _ (by omega) (by omega) (by omega))).2 (by omega)
      · refine ⟨⟨(0, j), (mem_holeCells h _).2 ⟨by simp only; omega, hj, by simp only; omega⟩,
          Or.inr (Or.inr (Or.inr ⟨rfl, fun c' _ _ => by simp⟩))⟩, ?_, ?_⟩
        · exact (rim 0 (j + 1) (vert _ _ (by omega) (by omega) (by omega))).2 (by omega)
        · exact (rim 0 j (vert _ _ (by omega) (by omega) (by omega))).2 (by omega)
    · rintro ⟨⟨c, hcm, hh⟩, ra, rb⟩
      obtain ⟨v1, v2, v3, v4⟩ := hc.vert c hcm
      obtain ⟨i, j⟩ := c
      have hm := (mem_holeCells h _).1 hcm
      simp only at hm v1 v2 v3 v4 hh
      rcases hh with ⟨e, hb'⟩ | ⟨e, hb'⟩ | ⟨e, hb'⟩ | ⟨e, hb'⟩ <;>
        simp only [Prod.mk.injEq] at e <;> obtain ⟨rfl, rfl⟩ := e
      · rw [rim _ _ v1] at ra
        rw [rim _ _ v2] at rb
        have : j = 0 := by
          by_contra h0
          refine hb' (i, j - 1) ((mem_holeCells h _).2 ⟨hm.1, by simp only; omega, by simp only; omega⟩) rfl (by simp; omega)
        subst this
        exact Or.inl ⟨i, hm.1, rfl, rfl⟩
      · rw [rim _ _ v2] at ra
        rw [rim _ _ v3] at rb
        have : i + 1 = m.nx := by
          by_contra h0
          exact hb' ((mem_holeCells h _).2 ⟨by simp only; omega, hm.2.1, by simp only; omega⟩)
        exact Or.inr (Or.inl ⟨j, hm.2.1, by rw [this], by rw [this]⟩)
      · rw [rim _ _ v3] at ra
        rw [rim _ _ v4] at rb
        have : j + 1 = m.ny := by
          by_contra h0
          exact hb' ((mem_holeCells h _).2 ⟨hm.1, by simp only; omega, by simp only; omega⟩)
        exact Or.inr (Or.inr (Or.inl ⟨i, hm.1, by rw [this], by rw [this]⟩))
      · rw [rim _ _ v4] at ra
        rw [rim _ _ v1] at rb
        have : i = 0 := by
          by_contra h0
          exact hb' (i - 1, j) ((mem_holeCells h _).2 ⟨by simp only; omega, hm.2.1, by simp only; omega⟩) rfl (by simp; omega)
        subst this
        exact Or.inr (Or.inr (Or.inr ⟨j, hm.2.1, rfl, rfl⟩))

/-- C90 for this mesh: the area of the rectangle less that of the hole. -/
theorem C90_hole [CharZero K] (h : HoleOk m) (ha : m.a ≠ 0) (hb : m.b ≠ 0) :
    ∃ nodes elements, m.nodes = some nodes ∧ m.elements = some elements ∧
      (elements.map (polyArea nodes)).sum = m.a * m.b - (m.a * m.nv / m.nx) * (m.b * m.nw / m.ny) := by
  have hx0 : (m.nx : K) ≠ 0 := Nat.cast_ne_zero.2 (by have := h.nx; have := h.v; omega)
  have hy0 : (m.ny : K) ≠ 0 := Nat.cast_ne_zero.2 (by have := h.ny; have := h.w; omega)
  obtain ⟨nodes, elements, -, h1, h2, -, -, h3, -, -, -, -, h4, -⟩ := C93_hole_partial h ha hb
  refine ⟨nodes, elements, h1, h2, ?_⟩
  rw [List.map_congr_left h4, List.map_const', List.sum_replicate, nsmul_eq_mul]
  have : (elements.length : K) = m.nx * m.ny - m.nv * m.nw := by
    rw [eq_sub_iff_add_eq]; exact_mod_cast h3
  rw [this]
  field_simp

end

/-- A rectangle of three by three cells without the middle one. -/
def exHole : HoleMesh ℚ := ⟨3, 3, 3, 3, 1, 1, 1, 1⟩

theorem exHole_ok : HoleMesh.construct (3 : ℚ) 3 3 3 1 1 = some exHole ∧ HoleOk exHole :=
  ⟨rfl, by constructor <;> decide⟩

/-- C93 fails: the sides of the hole are boundary sides which `GenerateEdges` does not list. -/
theorem C93_hole_false :
    ¬ ∀ (a b : ℚ) (nx ny nv nw : ℕ) (m : HoleMesh ℚ), HoleMesh.construct a b nx ny nv nw = some m →
      0 < nv → 0 < nw → nv < nx → nw < ny → ∀ nodes elements edges, m.nodes = some nodes →
        m.elements = some elements → m.edges = some edges → CellsOk nodes.length elements edges := by
  intro h
  obtain ⟨nodes, elements, edges, h1, h2, h3, -, -, hlen, -⟩ :=
    C93_hole_partial exHole_ok.2 (by norm_num [exHole]) (by norm_num [exHole])
  have hm := h 3 3 3 3 1 1 exHole exHole_ok.1 (by norm_num) (by norm_num) (by norm_num) (by norm_num) _ _ _ h1 h2 h3
  have e2 : exHole.elements = some [[0, 4, 5, 1], [1, 5, 6, 2], [2, 6, 7, 3], [4, 8, 9, 5], [6, 10, 11, 7],
    [8, 12, 13, 9], [9, 13, 14, 10], [10, 14, 15, 11]] := by decide +kernel
  have e3 : exHole.edges = some [[0, 4], [4, 8], [8, 12], [12, 13], [13, 14], [14, 15], [15, 11], [11, 7],
    [7, 3], [3, 2], [2, 1], [1, 0]] := by decide +kernel
  rw [e2] at h2
  rw [e3] at h3
  cases h2
  cases h3
  exact absurd ((hm.boundary 5 6).2 (by decide)) (by decide)

example : ∃ nodes elements edges, exHole.nodes = some nodes ∧ exHole.elements = some elements ∧
    exHole.edges = some edges ∧ nodes.length + (1 - 1) * (1 - 1) = (3 + 1) * (3 + 1) ∧
    elements.length + 1 * 1 = 3 * 3 ∧ edges.length = 2 * (3 + 3) := by
  obtain ⟨n, el, ed, h1, h2, h3, h4, h5, h6, -⟩ :=
    C93_hole_partial exHole_ok.2 (by norm_num [exHole]) (by norm_num [exHole])
  exact ⟨n, el, ed, h1, h2, h3, h4, h5, h6⟩

/-- Without divisions across the hole more nodes are written than the list has. -/
theorem C93_no_width : ∃ m, HoleMesh.construct (2 : ℚ) 2 2 2 0 0 = some m ∧ m.nodes = none :=
  ⟨_, rfl, by decide +kernel⟩

end Pansfem
