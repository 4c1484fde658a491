/-
C05  `LILCSR` is a finite map from positions to values.
C06  `CSR` is the same finite map and keeps the columns of every row strictly increasing.

Histories are arbitrary lists of writes; `lastWrite` and `writtenBefore` (Verif/Spec/Sparse.lean)
say what the answers must be.
-/
import Verif.Lemmas.SparseHistory
import Mathlib.Algebra.Field.Rat

namespace Pansfem

variable {K : Type}

/-- After any history of writes to an empty `LILCSR`, `get` returns the last value written to a
position (zero if none), and each `set` reported whether its position had been written before. -/
theorem C05_lil_history [Zero K] (r c : ℕ) (ops : List (Write K)) (h : ∀ o ∈ ops, o.1 < r) :
    ∃ m, runSets LIL.set (LIL.new r c) ops = some (m, writtenBefore [] ops) ∧
      (∀ i < r, ∀ j, m.get i j = some ((lastWrite ops i j).getD 0)) ∧ m.WF := by
  obtain ⟨m, hm, hI⟩ := runSets_spec LIL.set r (LIL.Holds r) (LIL.holds_set r) ops (LIL.new r c)
    (fun _ _ => none) [] (LIL.holds_new r c) (by simp) h
  refine ⟨m, hm, ?_, hI.1⟩
  intro i hi j
  rw [LIL.holds_get hI i j hi]
  simp

/-- On any well formed matrix: a write changes the written position and nothing else, and keeps
the matrix well formed. -/
theorem C05_lil_set_get [Zero K] (m : LIL K) (h : m.WF) (i j : ℕ) (x : K) (hi : i < m.rows) :
    ∃ m' b, m.set i j x = some (m', b) ∧ m'.WF ∧ m'.rows = m.rows ∧ m'.cols = m.cols ∧
      ∀ i' j', i' < m.rows →
        m'.get i' j' = if i' = i ∧ j' = j then some x else m.get i' j' := by
  have hH := LIL.holds_of_wf h
  obtain ⟨m', hm, hI⟩ := LIL.holds_set m.rows m _ i j x hH hi
  refine ⟨m', _, hm, hI.1, hI.2.1, ?_, ?_⟩
  · unfold LIL.set at hm
    cases hr : m.data[i]? with
    | none => simp [hr] at hm
    | some row =>
      simp only [hr, Option.bind_eq_bind, Option.bind_some, Option.pure_def, Option.some.injEq,
        Prod.mk.injEq] at hm
      rw [← hm.1]
  · intro i' j' hi'
    rw [LIL.holds_get hI i' j' hi', LIL.holds_get hH i' j' hi']
    by_cases h : i' = i ∧ j' = j
    · obtain ⟨rfl, rfl⟩ := h; simp
    · have h' : ¬ (i = i' ∧ j = j') := fun hh => h ⟨hh.1.symm, hh.2.symm⟩
      simp [h, h']

/-- Rows outside the matrix are undefined behaviour. -/
theorem C05_lil_fails [Zero K] (m : LIL K) (h : m.WF) (i j : ℕ) (x : K) :
    (m.get i j = none ↔ ¬ i < m.rows) ∧ (m.set i j x = none ↔ ¬ i < m.rows) := by
  rw [← h.1]
  unfold LIL.get LIL.set
  by_cases hi : i < m.data.length
  · simp [List.getElem?_eq_getElem hi, hi]
  · simp [List.getElem?_eq_none (not_lt.1 hi), hi]

/-- The same for `CSR`, through binary search, insertion and pointer updates. -/
theorem C06_csr_history [Zero K] (r c : ℕ) (ops : List (Write K)) (h : ∀ o ∈ ops, o.1 < r) :
    ∃ m, runSets CSR.set (CSR.new r c) ops = some (m, writtenBefore [] ops) ∧
      (∀ i < r, ∀ j, m.get i j = some ((lastWrite ops i j).getD 0)) ∧ m.WF := by
  obtain ⟨m, hm, hI⟩ := runSets_spec CSR.set r (CSR.Holds r c) (CSR.holds_set r c) ops (CSR.new r c)
    (fun _ _ => none) [] (CSR.holds_new r c) (by simp) h
  refine ⟨m, hm, ?_, hI.wf.1⟩
  intro i hi j
  rw [CSR.holds_get hI i j hi]
  simp

/-- On any well formed `CSR`: a write changes the written position and nothing else. -/
theorem C06_csr_set_get [Zero K] (m : CSR K) (h : m.WF) (i j : ℕ) (x : K) (hi : i < m.rows) :
    ∃ m' b, m.set i j x = some (m', b) ∧ m'.WF ∧ m'.rows = m.rows ∧ m'.cols = m.cols ∧
      ∀ i' j', i' < m.rows →
        m'.get i' j' = if i' = i ∧ j' = j then some x else m.get i' j' := by
  obtain ⟨f, hH⟩ := CSR.holds_of_wf h
  obtain ⟨m', hm, hI⟩ := CSR.holds_set m.rows m.cols m _ i j x hH hi
  refine ⟨m', _, hm, hI.wf.1, hI.wf.2.1, hI.wf.2.2, ?_⟩
  intro i' j' hi'
  rw [CSR.holds_get hI i' j' hi', CSR.holds_get hH i' j' hi']
  by_cases h : i' = i ∧ j' = j
  · obtain ⟨rfl, rfl⟩ := h; simp
  · have h' : ¬ (i = i' ∧ j = j') := fun hh => h ⟨hh.1.symm, hh.2.symm⟩
    simp [h, h']

/-- After any history the column list of every row, read between the row pointers, is strictly
increasing, the pointers are non-decreasing from `0` to the number of stored entries, and there is
one value per column index. -/
theorem C06_csr_sorted [Zero K] (r c : ℕ) (ops : List (Write K)) (h : ∀ o ∈ ops, o.1 < r)
    (m : CSR K) (bs : List Bool) (hm : runSets CSR.set (CSR.new r c) ops = some (m, bs)) :
    m.indptr.length = r + 1 ∧ m.indptr[0]? = some 0 ∧ m.indptr[r]? = some m.indices.length ∧
    m.data.length = m.indices.length ∧
    ∀ i < r, ∃ b e, m.indptr[i]? = some b ∧ m.indptr[i + 1]? = some e ∧ b ≤ e ∧
      e ≤ m.indices.length ∧
      ∀ k l u v, b ≤ k → k < l → l < e → m.indices[k]? = some u → m.indices[l]? = some v →
        u < v := by
  obtain ⟨m', hm', hI⟩ := runSets_spec CSR.set r (CSR.Holds r c) (CSR.holds_set r c) ops
    (CSR.new r c) (fun _ _ => none) [] (CSR.holds_new r c) (by simp) h
  rw [hm] at hm'
  simp only [Option.some.injEq, Prod.mk.injEq] at hm'
  rw [← hm'.1] at hI
  obtain ⟨R, rfl, hR, hs, -⟩ := hI
  refine ⟨?_, ?_, ?_, ?_, ?_⟩
  · simp only [csrOf, rowPtrs_length, hR]
  · simp only [csrOf]
    rw [rowPtrs_get _ _ _ (by omega)]; simp
  · simp only [csrOf]
    rw [rowPtrs_get _ _ _ (by omega), List.length_map, ← hR, List.take_length, zero_add]
  · simp only [csrOf, List.length_map]
  · intro i hi
    have hi' : i < R.length := by omega
    obtain ⟨h1, h2⟩ := rowPtrs_row R i hi'
    have hfl := flatten_split R i hi'
    refine ⟨_, _, h1, h2, by omega, ?_, ?_⟩
    · simp only [csrOf, List.length_map]
      rw [hfl]; simp only [List.length_append]; omega
    · intro k l u v hk hkl hl hu hv
      obtain ⟨k, rfl⟩ := Nat.exists_eq_add_of_le hk
      obtain ⟨l, rfl⟩ := Nat.exists_eq_add_of_le (le_trans hk (le_of_lt hkl))
      have hget : ∀ q, q < R[i].length →
          (R.flatten.map Prod.fst)[(R.take i).flatten.length + q]? = (R[i][q]?).map Prod.fst := by
        intro q hq
        rw [hfl, List.getElem?_map, List.getElem?_append_right (by omega), Nat.add_sub_cancel_left,
          List.getElem?_append_left hq]
      simp only [csrOf] at hu hv
      rw [hget k (by omega), List.getElem?_eq_getElem (by omega)] at hu
      rw [hget l (by omega), List.getElem?_eq_getElem (by omega)] at hv
      simp only [Option.map_some, Option.some.injEq] at hu hv
      subst hu hv
      exact List.pairwise_iff_getElem.1 (hs _ (List.getElem_mem hi')) k l (by omega) (by omega)
        (by omega)

/-- Rows outside the matrix are undefined behaviour. -/
theorem C06_csr_fails [Zero K] (m : CSR K) (h : m.WF) (i j : ℕ) (x : K) :
    (m.get i j = none ↔ ¬ i < m.rows) ∧ (m.set i j x = none ↔ ¬ i < m.rows) := by
  obtain ⟨f, hH⟩ := CSR.holds_of_wf h
  by_cases hi : i < m.rows
  · obtain ⟨m', hm, -⟩ := CSR.holds_set m.rows m.cols m _ i j x hH hi
    simp [CSR.holds_get hH i j hi, hm, hi]
  · have hl : m.locate i j = none := by
      obtain ⟨R, hR, -⟩ := h
      unfold CSR.locate
      have h2 : m.indptr[i + 1]? = none := by
        rw [hR] at hi ⊢
        simp only [csrOf] at hi ⊢
        rw [List.getElem?_eq_none (by rw [rowPtrs_length]; omega)]
      rw [h2]
      cases m.indptr[i]? <;> rfl
    simp [CSR.get, CSR.set, hl, hi]

/-! ### Concrete instances -/

example : ∀ o ∈ ([(0, 2, 5), (1, 0, 7), (0, 1, 3), (0, 2, -1)] : List (Write ℚ)), o.1 < 2 := by
  decide
example : runSets CSR.set (CSR.new 2 3)
      ([(0, 2, 5), (1, 0, 7), (0, 1, 3), (0, 2, -1)] : List (Write ℚ))
    = some (⟨2, 3, [0, 2, 3], [1, 2, 0], [3, -1, 7]⟩, [false, false, false, true]) := by
  decide +kernel
example : runSets LIL.set (LIL.new 2 3)
      ([(0, 2, 5), (1, 0, 7), (0, 1, 3), (0, 2, -1)] : List (Write ℚ))
    = some (⟨2, 3, [[(2, -1), (1, 3)], [(0, 7)]]⟩, [false, false, false, true]) := by
  decide +kernel
example : (⟨2, 3, [[(2, -1), (1, 3)], [(0, 7)]]⟩ : LIL ℚ).WF := by
  unfold LIL.WF; decide
example : (⟨2, 3, [0, 2, 3], [1, 2, 0], [3, -1, 7]⟩ : CSR ℚ).WF :=
  ⟨[[(1, 3), (2, -1)], [(0, 7)]], rfl, by unfold RowSorted; decide⟩

end Pansfem
