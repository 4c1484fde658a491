/-
C56: the ground structure contains every bar shorter than the limit exactly once.
-/
import Verif.Props.C52_SquareMesh
import Mathlib.Analysis.Real.Sqrt

namespace Pansfem

section
variable {K : Type} [Field K] [LinearOrder K]

theorem groundNodes_eq (m : GrandStructure K) (hx : 0 < m.nx) (hy : 0 < m.ny) :
    m.nodes = some (grid (m.nx + 1) (m.ny + 1) fun i j =>
      (m.x * ((i : K) / (m.nx : K)), m.y * ((j : K) / (m.ny : K)))) := by
  unfold GrandStructure.nodes
  rw [if_neg (by omega), fill_grid]

/-- The squared distance of two points. -/
def dist2 (p q : K × K) : K := (p.1 - q.1) ^ 2 + (p.2 - q.2) ^ 2

theorem isBar_iff (m : GrandStructure K) (i j k l : ℕ) :
    m.isBar i j k l = true ↔ (m.ny + 1) * k + l < (m.ny + 1) * i + j ∧
      dist2 (m.x * ((i : K) / (m.nx : K)), m.y * ((j : K) / (m.ny : K)))
        (m.x * ((k : K) / (m.nx : K)), m.y * ((l : K) / (m.ny : K))) < m.lmax ^ 2 := by
  unfold GrandStructure.isBar dist2
  rw [Bool.and_eq_true, decide_eq_true_eq, decide_eq_true_eq]
  refine and_congr Iff.rfl ?_
  rw [show m.x * (((i : ℤ) - (k : ℤ) : ℤ) : K) / (m.nx : K) =
      m.x * ((i : K) / (m.nx : K)) - m.x * ((k : K) / (m.nx : K)) by push_cast; ring,
    show m.y * (((j : ℤ) - (l : ℤ) : ℤ) : K) / (m.ny : K) =
      m.y * ((j : K) / (m.ny : K)) - m.y * ((l : K) / (m.ny : K)) by push_cast; ring]

theorem mem_bars (m : GrandStructure K) (e : List ℕ) :
    (e ∈ (List.range (m.nx + 1)).flatMap fun i : ℕ => (List.range (m.ny + 1)).flatMap fun j : ℕ =>
      (List.range (m.nx + 1)).flatMap fun k : ℕ => (List.range (m.ny + 1)).flatMap fun l : ℕ =>
        if m.isBar i j k l then [[(m.ny + 1) * i + j, (m.ny + 1) * k + l]] else []) ↔
    ∃ i ≤ m.nx, ∃ j ≤ m.ny, ∃ k ≤ m.nx, ∃ l ≤ m.ny,
      m.isBar i j k l = true ∧ e = [(m.ny + 1) * i + j, (m.ny + 1) * k + l] := by
  simp only [List.mem_flatMap, List.mem_range, Nat.lt_succ_iff]
  constructor
  · rintro ⟨i, hi, j, hj, k, hk, l, hl, h⟩
    split_ifs at h with hb
    · exact ⟨i, hi, j, hj, k, hk, l, hl, hb, by simpa using h⟩
    · simp at h
  · rintro ⟨i, hi, j, hj, k, hk, l, hl, hb, rfl⟩
    exact ⟨i, hi, j, hj, k, hk, l, hl, by rw [if_pos hb]; simp⟩

/-- The bars in the order of the loops are sorted by their node numbers, so none is listed twice. -/
theorem bars_nodup (m : GrandStructure K) :
    ((List.range (m.nx + 1)).flatMap fun i : ℕ => (List.range (m.ny + 1)).flatMap fun j : ℕ =>
      (List.range (m.nx + 1)).flatMap fun k : ℕ => (List.range (m.ny + 1)).flatMap fun l : ℕ =>
        if m.isBar i j k l then [[(m.ny + 1) * i + j, (m.ny + 1) * k + l]] else []).Nodup := by
  have key : ∀ (n : ℕ) (f : ℕ → List (List ℕ)) , (∀ i < n, (f i).Nodup) →
      (∀ i < n, ∀ i' < n, ∀ e, e ∈ f i → e ∈ f i' → i = i') → ((List.range n).flatMap f).Nodup := by
    intro n f h1 h2
    rw [List.nodup_flatMap]
    refine ⟨fun i hi => h1 i (List.mem_range.1 hi), ?_⟩
    refine List.Pairwise.imp_of_mem ?_ (List.nodup_range (n := n))
    intro i i' hi hi' hne e he he'
    exact hne (h2 i (List.mem_range.1 hi) i' (List.mem_range.1 hi') e he he')
  have mem1 : ∀ i j k l e, (e ∈ if m.isBar i j k l then [[(m.ny + 1) * i + j, (m.ny + 1) * k + l]] else []) →
      e = [(m.ny + 1) * i + j, (m.ny + 1) * k + l] := by
    intro i j k l e he
    split_ifs at he with hb
    · simpa using he
    · simp at he
  have mem2 : ∀ i j k e, (e ∈ (List.range (m.ny + 1)).flatMap fun l : ℕ =>
      if m.isBar i j k l then [[(m.ny + 1) * i + j, (m.ny + 1) * k + l]] else []) →
      ∃ l ≤ m.ny, e = [(m.ny + 1) * i + j, (m.ny + 1) * k + l] := by
    intro i j k e he
    obtain ⟨l, hl, he⟩ := List.mem_flatMap.1 he
    exact ⟨l, Nat.lt_succ_iff.1 (List.mem_range.1 hl), mem1 _ _ _ _ _ he⟩
  have mem3 : ∀ i j e, (e ∈ (List.range (m.nx + 1)).flatMap fun k : ℕ =>
      (List.range (m.ny + 1)).flatMap fun l : ℕ =>
      if m.isBar i j k l then [[(m.ny + 1) * i + j, (m.ny + 1) * k + l]] else []) →
      e.head? = some ((m.ny + 1) * i + j) := by
    intro i j e he
    obtain ⟨k, hk, he⟩ := List.mem_flatMap.1 he
    obtain ⟨l, -, rfl⟩ := mem2 _ _ _ _ he
    rfl
  apply key
  · intro i _
    apply key
    · intro j _
      apply key
      · intro k _
        apply key
        · intro l _
          split_ifs <;> simp
        · intro l _ l' _ e he he'
          have := (mem1 _ _ _ _ _ he).symm.trans (mem1 _ _ _ _ _ he')
          simpa using this
      · intro k _ k' _ e he he'
        obtain ⟨l, hl, rfl⟩ := mem2 _ _ _ _ he
        obtain ⟨l', hl', e'⟩ := mem2 _ _ _ _ he'
        simp only [List.cons.injEq, and_true, true_and] at e'
        exact (row_inj (by omega) (by omega) e').1
    · intro j _ j' _ e he he'
      have := (mem3 _ _ _ he).symm.trans (mem3 _ _ _ he')
      simpa using this
  · intro i _ i' _ e he he'
    obtain ⟨j, hj, he⟩ := List.mem_flatMap.1 he
    obtain ⟨j', hj', he'⟩ := List.mem_flatMap.1 he'
    have := (mem3 _ _ _ he).symm.trans (mem3 _ _ _ he')
    exact (row_inj (List.mem_range.1 hj) (List.mem_range.1 hj') (Option.some.inj this)).1

/-- C56: a bar joins two different existing nodes, the greater number first; of any two different nodes
exactly one order is listed if their distance is less than the limit and none otherwise; no bar is listed
twice. -/
theorem C56_bars (m : GrandStructure K) (hx : 0 < m.nx) (hy : 0 < m.ny) :
    ∃ nodes elements, m.nodes = some nodes ∧ m.elements = some elements ∧ elements.Nodup ∧
      (∀ e ∈ elements, ∃ a b, e = [a, b] ∧ b < a ∧ a < nodes.length) ∧
      ∀ a b p q, nodes[a]? = some p → nodes[b]? = some q → b < a →
        ([b, a] ∉ elements ∧ ([a, b] ∈ elements ↔ dist2 p q < m.lmax ^ 2)) := by
  have hb : ∀ e, e ∈ ((List.range (m.nx + 1)).flatMap fun i : ℕ => (List.range (m.ny + 1)).flatMap fun j : ℕ =>
      (List.range (m.nx + 1)).flatMap fun k : ℕ => (List.range (m.ny + 1)).flatMap fun l : ℕ =>
        if m.isBar i j k l then [[(m.ny + 1) * i + j, (m.ny + 1) * k + l]] else []) →
      ∃ a b, e = [a, b] ∧ b < a ∧ a < (m.nx + 1) * (m.ny + 1) := by
    intro e he
    obtain ⟨i, hi, j, hj, k, hk, l, hl, hb, rfl⟩ := (mem_bars m e).1 he
    exact ⟨_, _, rfl, ((isBar_iff m i j k l).1 hb).1, row_lt (by omega) (by omega)⟩
  refine ⟨_, _, groundNodes_eq m hx hy, by unfold GrandStructure.elements; rw [if_neg (by omega)],
    bars_nodup m, ?_, ?_⟩
  · intro e he
    rw [length_grid]
    exact hb e he
  · intro a b p q ha hb' hlt
    have hal := (List.getElem?_eq_some_iff.1 ha).1
    have hbl := (List.getElem?_eq_some_iff.1 hb').1
    rw [length_grid] at hal hbl
    obtain ⟨i, hi, j, hj, rfl⟩ := exists_row hal
    obtain ⟨k, hk, l, hl, rfl⟩ := exists_row hbl
    rw [getElem?_grid _ hi hj] at ha
    rw [getElem?_grid _ hk hl] at hb'
    cases ha
    cases hb'
    constructor
    · intro he
      obtain ⟨a, b, e, h1, -⟩ := hb _ he
      simp only [List.cons.injEq, and_true] at e
      omega
    · rw [mem_bars]
      constructor
      · rintro ⟨i', hi', j', hj', k', hk', l', hl', hbar, e⟩
        simp only [List.cons.injEq, and_true] at e
        obtain ⟨rfl, rfl⟩ := row_inj hj (by omega) e.1
        obtain ⟨rfl, rfl⟩ := row_inj hl (by omega) e.2
        exact ((isBar_iff m _ _ _ _).1 hbar).2
      · intro hd
        exact ⟨i, by omega, j, by omega, k, by omega, l, by omega, (isBar_iff m _ _ _ _).2 ⟨hlt, hd⟩, rfl⟩

end

/-- C56 with the Euclidean distance: for a limit that is not negative. -/
theorem C56_distance (m : GrandStructure ℝ) (hx : 0 < m.nx) (hy : 0 < m.ny) (hl : 0 ≤ m.lmax) :
    ∃ nodes elements, m.nodes = some nodes ∧ m.elements = some elements ∧ elements.Nodup ∧
      ∀ a b p q, nodes[a]? = some p → nodes[b]? = some q → b < a →
        ([b, a] ∉ elements ∧
          ([a, b] ∈ elements ↔ Real.sqrt ((p.1 - q.1) ^ 2 + (p.2 - q.2) ^ 2) < m.lmax)) := by
  obtain ⟨nodes, elements, h1, h2, h3, -, h4⟩ := C56_bars m hx hy
  refine ⟨nodes, elements, h1, h2, h3, fun a b p q ha hb hlt => ?_⟩
  obtain ⟨h5, h6⟩ := h4 a b p q ha hb hlt
  refine ⟨h5, h6.trans ?_⟩
  exact (Real.sqrt_lt (add_nonneg (sq_nonneg _) (sq_nonneg _)) hl).symm

example : (⟨2, 1, 2, 1, 6 / 5⟩ : GrandStructure ℚ).elements =
    some [[1, 0], [2, 0], [3, 1], [3, 2], [4, 2], [5, 3], [5, 4]] := by decide +kernel

example : ∃ nodes elements, (⟨2, 1, 2, 1, 6 / 5⟩ : GrandStructure ℚ).nodes = some nodes ∧
    (⟨2, 1, 2, 1, 6 / 5⟩ : GrandStructure ℚ).elements = some elements ∧ elements.Nodup ∧
    (∀ e ∈ elements, ∃ a b, e = [a, b] ∧ b < a ∧ a < nodes.length) ∧
    ∀ a b p q, nodes[a]? = some p → nodes[b]? = some q → b < a →
      ([b, a] ∉ elements ∧ ([a, b] ∈ elements ↔ dist2 p q < (6 / 5) ^ 2)) :=
  C56_bars ⟨2, 1, 2, 1, 6 / 5⟩ (by norm_num) (by norm_num)

end Pansfem
