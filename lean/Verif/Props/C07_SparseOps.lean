/-
C07  Converting between `LILCSR` and `CSR` keeps every entry.
C08  Sparse matrix times vector is the mathematical product, for every parallel schedule.
C09  Sparse sums, differences and scalar multiples are entrywise.

`toMatrix` reads an object through its own `get`.
-/
import Verif.Lemmas.SparseConv
import Verif.Props.C05_SparseMaps
import Mathlib.Algebra.Field.Rat

namespace Pansfem

variable {K : Type}

/-! ### C07 -/

/-- `CSR(LILCSR&)`: the new matrix and the source (whose rows the constructor sorts) both answer
`get` exactly as the source did. -/
theorem C07_csr_of_lil [Zero K] (s : LIL K) (h : s.WF) :
    ∃ m s', CSR.ofLIL s = some (m, s') ∧ m.WF ∧ m.rows = s.rows ∧ m.cols = s.cols ∧
      s'.WF ∧ s'.rows = s.rows ∧ s'.cols = s.cols ∧
      ∀ i j, m.get i j = s.get i j ∧ s'.get i j = s.get i j := by
  refine ⟨_, _, ofLIL_eq s h.1, ?_, ?_, rfl, ?_, rfl, rfl, ?_⟩
  · refine ⟨_, rfl, ?_⟩
    intro row hrow
    obtain ⟨r0, hr0, rfl⟩ := List.mem_map.1 hrow
    exact sortRow_sorted (h.2 r0 hr0)
  · simp [csrOf, h.1]
  · refine ⟨by simp [h.1], ?_⟩
    intro row hrow
    obtain ⟨r0, hr0, rfl⟩ := List.mem_map.1 hrow
    exact ((sortRow_perm r0).map Prod.fst).nodup_iff.2 (h.2 r0 hr0)
  · intro i j
    by_cases hi : i < s.data.length
    · have hn := h.2 s.data[i] (List.getElem_mem hi)
      have hlk : (sortRow s.data[i]).lookup j = s.data[i].lookup j :=
        (lookup_perm (sortRow_perm _).symm hn j).symm
      constructor
      · rw [csr_get _ _ i j (by simpa using hi) (by simpa using sortRow_sorted hn)]
        unfold LIL.get
        simp [List.getElem?_eq_getElem hi, rowGet_eq_lookup, hlk]
      · unfold LIL.get
        simp [List.getElem?_eq_getElem hi, rowGet_eq_lookup, hlk]
    · have hs : s.get i j = none := (C05_lil_fails s h i j 0).1.2 (by rw [← h.1]; exact hi)
      constructor
      · rw [hs]
        unfold CSR.get CSR.locate
        have h2 : (csrOf s.cols (s.data.map sortRow)).indptr[i + 1]? = none := by
          simp only [csrOf]
          rw [List.getElem?_eq_none (by rw [rowPtrs_length]; simp; omega)]
        rw [h2]
        cases (csrOf s.cols (s.data.map sortRow)).indptr[i]? <;> rfl
      · unfold LIL.get
        have : (s.data.map sortRow)[i]? = none := List.getElem?_eq_none (by simp; omega)
        simp [this, List.getElem?_eq_none (not_lt.1 hi)]

/-- `LILCSR(CSR)`: the new matrix answers `get` exactly as the source does. -/
theorem C07_lil_of_csr [Zero K] (m : CSR K) (h : m.WF) :
    ∃ l, LIL.ofCSR m = some l ∧ l.WF ∧ l.rows = m.rows ∧ l.cols = m.cols ∧
      ∀ i j, l.get i j = m.get i j := by
  obtain ⟨R, hm, hs⟩ := h
  have hWF : m.WF := ⟨R, hm, hs⟩
  have hrows : m.rows = R.length := by rw [hm]; rfl
  have hl : LIL.ofCSR m = some ⟨m.rows, m.cols, R⟩ := by
    unfold LIL.ofCSR
    have : (List.range m.rows).mapM m.rowEntries = some R := by
      rw [hrows, range_mapM (g := fun i : Fin R.length => R[(i : ℕ)])]
      · congr 1; exact List.ofFn_getElem
      · intro i; rw [hm]; exact csr_rowEntries m.cols R i i.2
    rw [this]; rfl
  have hW : (⟨m.rows, m.cols, R⟩ : LIL K).WF := ⟨hrows.symm, fun row hr => (hs row hr).nodup⟩
  refine ⟨_, hl, hW, rfl, rfl, ?_⟩
  intro i j
  by_cases hi : i < R.length
  · have hg : m.get i j = some ((R[i].lookup j).getD 0) := by
      rw [hm]; exact csr_get m.cols R i j hi (hs _ (List.getElem_mem hi))
    rw [hg]
    simp [LIL.get, List.getElem?_eq_getElem hi, rowGet_eq_lookup]
  · rw [(C05_lil_fails _ hW i j 0).1.2 (by simp only; omega),
      (C06_csr_fails m hWF i j 0).1.2 (by omega)]

/-- Round trip CSR → LILCSR → CSR gives the identical object. -/
theorem C07_round_trip [Zero K] (m : CSR K) (h : m.WF) :
    ∃ l l', LIL.ofCSR m = some l ∧ CSR.ofLIL l = some (m, l') := by
  obtain ⟨R, hm, hs⟩ := h
  have hrows : m.rows = R.length := by rw [hm]; rfl
  have hl : LIL.ofCSR m = some ⟨m.rows, m.cols, R⟩ := by
    unfold LIL.ofCSR
    have : (List.range m.rows).mapM m.rowEntries = some R := by
      rw [hrows, range_mapM (g := fun i : Fin R.length => R[(i : ℕ)])]
      · congr 1; exact List.ofFn_getElem
      · intro i; rw [hm]; exact csr_rowEntries m.cols R i i.2
    rw [this]; rfl
  refine ⟨_, { rows := m.rows, cols := m.cols, data := R }, hl, ?_⟩
  rw [ofLIL_eq _ hrows.symm]
  have hR : R.map sortRow = R := by
    conv_rhs => rw [← List.map_id R]
    apply List.map_congr_left
    intro row hr
    exact (sortRow_unique (hs row hr).nodup (List.Perm.refl _)
      ((hs row hr).imp fun h => by omega)).symm
  simp only [hR]
  rw [← hm]

/-- The row order produced by the constructor does not depend on the sorting algorithm: with
distinct columns there is exactly one sorted arrangement. -/
theorem C07_sort_unique {row row' : List (ℕ × K)} (hn : (row.map Prod.fst).Nodup)
    (hp : row'.Perm row) (hs : row'.Pairwise fun a b => a.1 ≤ b.1) :
    row' = row.mergeSort fun a b => decide (a.1 ≤ b.1) := sortRow_unique hn hp hs

/-! ### C08 -/

/-- `LILCSR * vector`. -/
theorem C08_lil_mulVec [Ring K] (m : LIL K) (h : m.WF) (hb : m.InBounds) (x : Fin m.cols → K) :
    m.mulVec (List.ofFn x) = some (List.ofFn (m.toMatrix.mulVec x)) := by
  unfold LIL.mulVec
  rw [if_pos (by simp)]
  rw [range_mapM (g := m.toMatrix.mulVec x)]
  intro i
  have hi : (i : ℕ) < m.data.length := by rw [h.1]; exact i.2
  rw [List.getElem?_eq_getElem hi]
  simp only [Option.bind_eq_bind, Option.bind_some]
  have hmem := List.getElem_mem hi
  have hp := row_product m.data[(i : ℕ)] (h.2 _ hmem) (List.ofFn x)
    (by intro p hp; simpa using hb _ hmem p hp)
  simp only [Option.bind_eq_bind] at hp
  rw [hp]
  congr 1
  rw [Matrix.mulVec, dotProduct]
  refine Fintype.sum_equiv (finCongr (by simp)) _ _ ?_
  intro j
  have hg : m.get i j = some ((m.data[(i : ℕ)].lookup (j : ℕ)).getD 0) := by
    unfold LIL.get
    rw [List.getElem?_eq_getElem hi]
    simp only [Option.bind_eq_bind, Option.bind_some, rowGet_eq_lookup, Option.pure_def]
  simp only [LIL.toMatrix, Matrix.of_apply, finCongr_apply, Fin.val_cast, hg]
  simp
  rfl

/-- `LILCSR * vector` fails when the vector has the wrong length. -/
theorem C08_lil_mulVec_fails [Ring K] (m : LIL K) (x : List K) (h : m.cols ≠ x.length) :
    m.mulVec x = none := by
  unfold LIL.mulVec; rw [if_neg h]

/-- `CSR * vector`, executed sequentially. -/
theorem C08_csr_mulVec [Ring K] (m : CSR K) (h : m.WF) (hb : m.InBounds) (x : Fin m.cols → K) :
    m.mulVec (List.ofFn x) = some (List.ofFn (m.toMatrix.mulVec x)) := by
  obtain ⟨R, hm, hs⟩ := h
  have hrows : m.rows = R.length := by rw [hm]; rfl
  unfold CSR.mulVec
  rw [range_mapM (g := m.toMatrix.mulVec x)]
  intro i
  have hi : (i : ℕ) < R.length := by rw [← hrows]; exact i.2
  have hmem := List.getElem_mem hi
  have he : m.rowEntries i = some R[(i : ℕ)] := by
    have := csr_rowEntries m.cols R i hi
    rwa [← hm] at this
  rw [he]
  simp only [Option.bind_eq_bind, Option.bind_some]
  have hp := row_product R[(i : ℕ)] (hs _ hmem).nodup (List.ofFn x) (by
    intro p hp
    rw [List.length_ofFn]
    apply hb
    rw [hm]
    simp only [csrOf]
    exact List.mem_map_of_mem (List.mem_flatten_of_mem hmem hp))
  simp only [Option.bind_eq_bind] at hp
  rw [hp]
  congr 1
  rw [Matrix.mulVec, dotProduct]
  refine Fintype.sum_equiv (finCongr (by simp)) _ _ ?_
  intro j
  have hg : m.get i j = some ((R[(i : ℕ)].lookup (j : ℕ)).getD 0) := by
    have := csr_get m.cols R i j hi (hs _ hmem)
    rwa [← hm] at this
  simp only [CSR.toMatrix, Matrix.of_apply, finCongr_apply, Fin.val_cast, hg]
  simp
  rfl

/-- Every schedule of the parallel loop that passes the barrier stores exactly the vector computed
by the sequential loop.  No law of arithmetic is used, so this holds for floating point as well. -/
theorem C08_csr_parallel [Zero K] [Add K] [Mul K] (m : CSR K) (h : m.WF) (x : List K)
    (hb : ∀ j ∈ m.indices, j < x.length) (sched : List (Fin m.rows)) :
    ∃ s, parRun m x (ParState.init _) sched = some s ∧
      (s.done m → m.mulVec x = some (List.ofFn s.v)) := by
  obtain ⟨R, hm, hs⟩ := h
  generalize m.cols = cols at hm
  subst hm
  set g : ℕ → K := fun j => if h : j < x.length then x[j] else 0 with hgdef
  have hg : ∀ row ∈ R, ∀ p ∈ row, x[p.1]? = some (g p.1) := by
    intro row hr p hp
    have : p.1 < x.length := hb _ (List.mem_map_of_mem (List.mem_flatten_of_mem hr hp))
    simp [hgdef, this]
  obtain ⟨s, hrun, hI⟩ := parRun_invariant cols R x g hg sched
  refine ⟨s, hrun, ?_⟩
  intro hd
  unfold CSR.mulVec
  change List.mapM _ (List.range R.length) = _
  rw [range_mapM (g := s.v)]
  · rfl
  intro i
  have he : (csrOf cols R).rowEntries (i : ℕ) = some R[(i : ℕ)] := csr_rowEntries cols R i i.2
  rw [he]
  simp only [Option.bind_eq_bind, Option.bind_some]
  have hf := row_fold R[(i : ℕ)] x g (fun p hp => hg _ (List.getElem_mem i.2) p hp) 0
  simp only [Option.bind_eq_bind] at hf
  rw [hf, (hI i).2.2]
  obtain ⟨b, e, hb1, he1, hle⟩ := hd i
  obtain ⟨h1, h2⟩ := rowPtrs_row R i i.2
  have hb2 : b = (R.take i).flatten.length := by
    have : (csrOf cols R).indptr[(i : ℕ)]? = some (R.take i).flatten.length := h1
    rw [hb1] at this; exact Option.some.inj this
  have he2 : e = (R.take i).flatten.length + R[(i : ℕ)].length := by
    have : (csrOf cols R).indptr[(i : ℕ) + 1]? = some ((R.take i).flatten.length + R[(i : ℕ)].length) := h2
    rw [he1] at this; exact Option.some.inj this
  rw [List.take_of_length_le (by omega)]

/-- The barrier is reached as soon as every row has had two accesses for each of its entries: no
schedule can block another row. -/
theorem C08_csr_parallel_finishes [Zero K] [Add K] [Mul K] (m : CSR K) (h : m.WF) (x : List K)
    (hb : ∀ j ∈ m.indices, j < x.length) (sched : List (Fin m.rows))
    (hfair : ∀ i : Fin m.rows, 2 * m.indices.length ≤ sched.count i) :
    ∃ s, parRun m x (ParState.init _) sched = some s ∧ s.done m := by
  obtain ⟨R, hm, hs⟩ := h
  generalize m.cols = cols at hm
  subst hm
  set g : ℕ → K := fun j => if h : j < x.length then x[j] else 0 with hgdef
  have hg : ∀ row ∈ R, ∀ p ∈ row, x[p.1]? = some (g p.1) := by
    intro row hr p hp
    have : p.1 < x.length := hb _ (List.mem_map_of_mem (List.mem_flatten_of_mem hr hp))
    simp [hgdef, this]
  obtain ⟨s, hrun, hI⟩ := parRun_invariant cols R x g hg sched
  refine ⟨s, hrun, ?_⟩
  intro i
  obtain ⟨h1, h2⟩ := rowPtrs_row R i i.2
  refine ⟨_, _, h1, h2, ?_⟩
  have h3 := hfair i
  have h4 : R[(i : ℕ)].length ≤ (csrOf cols R).indices.length := by
    simp only [csrOf, List.length_map]
    rw [flatten_split R i i.2]
    simp only [List.length_append]
    exact Nat.le_trans (Nat.le_add_right _ _) (Nat.le_add_left _ _)
  rw [Nat.add_sub_cancel_left, (hI i).1]
  change R[(i : ℕ)].length ≤ min R[(i : ℕ)].length (List.count i sched / 2)
  rw [Nat.min_eq_left (by omega)]

/-- In exact arithmetic every completed schedule stores the mathematical product. -/
theorem C08_csr_parallel_product [Ring K] (m : CSR K) (h : m.WF) (hb : m.InBounds)
    (x : Fin m.cols → K) (sched : List (Fin m.rows)) (s : ParState m.rows K)
    (hs : parRun m (List.ofFn x) (ParState.init _) sched = some s) (hd : s.done m) :
    s.v = m.toMatrix.mulVec x := by
  obtain ⟨s', hs', hp⟩ := C08_csr_parallel m h (List.ofFn x)
    (by intro j hj; rw [List.length_ofFn]; exact hb j hj) sched
  rw [hs] at hs'
  have := Option.some.inj hs'
  subst this
  have h1 := hp hd
  rw [C08_csr_mulVec m h hb x] at h1
  exact (List.ofFn_injective (Option.some.inj h1)).symm

/-! ### C09 -/

/-- `LILCSR + LILCSR` and `LILCSR - LILCSR` are entrywise. -/
theorem C09_lil_add [AddGroup K] (a b : LIL K) (ha : a.WF) (hb : b.WF) (hr : a.rows = b.rows)
    (hc : a.cols = b.cols) :
    ∃ m, LIL.add a b = some m ∧ m.WF ∧ m.rows = a.rows ∧
      ∀ i < a.rows, ∀ j, ∃ u v, a.get i j = some u ∧ b.get i j = some v ∧
        m.get i j = some (u + v) :=
  lil_acc_spec (· + ·) (fun a => add_zero a) a b ha hb hr hc

theorem C09_lil_sub [AddGroup K] (a b : LIL K) (ha : a.WF) (hb : b.WF) (hr : a.rows = b.rows)
    (hc : a.cols = b.cols) :
    ∃ m, LIL.sub a b = some m ∧ m.WF ∧ m.rows = a.rows ∧
      ∀ i < a.rows, ∀ j, ∃ u v, a.get i j = some u ∧ b.get i j = some v ∧
        m.get i j = some (u - v) :=
  lil_acc_spec (· - ·) (fun a => sub_zero a) a b ha hb hr hc

/-- `CSR + CSR` and `CSR - CSR` are entrywise. -/
theorem C09_csr_add [AddGroup K] (a b : CSR K) (ha : a.WF) (hb : b.WF) (hr : a.rows = b.rows)
    (hc : a.cols = b.cols) :
    ∃ m, CSR.add a b = some m ∧ m.WF ∧ m.rows = a.rows ∧ m.cols = a.cols ∧
      ∀ i < a.rows, ∀ j, ∃ u v, a.get i j = some u ∧ b.get i j = some v ∧
        m.get i j = some (u + v) :=
  csr_acc_spec (· + ·) (fun a => add_zero a) a b ha hb hr hc

theorem C09_csr_sub [AddGroup K] (a b : CSR K) (ha : a.WF) (hb : b.WF) (hr : a.rows = b.rows)
    (hc : a.cols = b.cols) :
    ∃ m, CSR.sub a b = some m ∧ m.WF ∧ m.rows = a.rows ∧ m.cols = a.cols ∧
      ∀ i < a.rows, ∀ j, ∃ u v, a.get i j = some u ∧ b.get i j = some v ∧
        m.get i j = some (u - v) :=
  csr_acc_spec (· - ·) (fun a => sub_zero a) a b ha hb hr hc

/-- Sums and differences of matrices of different shape fail. -/
theorem C09_shape_fails [AddGroup K] (a b : LIL K) (c d : CSR K) :
    (¬ (a.rows = b.rows ∧ a.cols = b.cols) → a.add b = none ∧ a.sub b = none) ∧
    (¬ (c.rows = d.rows ∧ c.cols = d.cols) → c.add d = none ∧ c.sub d = none) := by
  constructor
  · intro h; simp only [LIL.add, LIL.sub, LIL.acc, if_neg h, and_self]
  · intro h; simp only [CSR.add, CSR.sub, CSR.acc, if_neg h, and_self]

/-- Scalar multiples of a `LILCSR`. -/
theorem C09_lil_smul [Ring K] (m : LIL K) (h : m.WF) (a : K) :
    (m.smul a).WF ∧ ∀ i j, (m.smul a).get i j = (m.get i j).map (· * a) := by
  refine ⟨⟨by simpa [LIL.smul] using h.1, ?_⟩, ?_⟩
  · intro row hrow
    simp only [LIL.smul] at hrow
    obtain ⟨r0, hr0, rfl⟩ := List.mem_map.1 hrow
    have := h.2 r0 hr0
    simpa [List.map_map, Function.comp_def] using this
  · intro i j
    simp only [LIL.get, LIL.smul, List.getElem?_map]
    cases hr : m.data[i]? with
    | none => rfl
    | some row =>
      have := lookup_map_snd row (· * a) j
      simp only [Option.map_some, Option.bind_eq_bind, Option.bind_some, Option.pure_def,
        rowGet_eq_lookup, this]
      cases row.lookup j <;> simp

/-- Scalar quotients of a `LILCSR`. -/
theorem C09_lil_sdiv [Field K] [DecidableEq K] (m : LIL K) (h : m.WF) (a : K) (ha : a ≠ 0) :
    ∃ q, m.sdiv a = some q ∧ q.WF ∧ ∀ i j, q.get i j = (m.get i j).map (· / a) := by
  refine ⟨m.smul a⁻¹, ?_, (C09_lil_smul m h _).1, ?_⟩
  · unfold LIL.sdiv
    rw [if_neg (by simp [ha])]
    simp only [LIL.smul, div_eq_mul_inv]
  · intro i j
    rw [(C09_lil_smul m h _).2]
    simp only [div_eq_mul_inv]

/-- Scalar multiples of a `CSR`. -/
theorem C09_csr_smul [Ring K] (m : CSR K) (h : m.WF) (a : K) :
    (m.smul a).WF ∧ ∀ i < m.rows, ∀ j, (m.smul a).get i j = (m.get i j).map (· * a) := by
  obtain ⟨R, hm, hs⟩ := h
  have hs' : ∀ row ∈ R.map (fun row => row.map fun p => (p.1, p.2 * a)), RowSorted row := by
    intro row hr
    obtain ⟨r0, hr0, rfl⟩ := List.mem_map.1 hr
    exact List.pairwise_map.2 (hs r0 hr0)
  have he : m.smul a = csrOf m.cols (R.map fun row => row.map fun p => (p.1, p.2 * a)) := by
    conv_lhs => rw [hm]
    exact csr_smul_eq m.cols R a
  refine ⟨⟨_, he, hs'⟩, ?_⟩
  intro i hi j
  have hrows : m.rows = R.length := by rw [hm]; rfl
  have hi' : i < R.length := by omega
  have hg : m.get i j = some ((R[i].lookup j).getD 0) := by
    rw [hm]; exact csr_get m.cols R i j hi' (hs _ (List.getElem_mem hi'))
  rw [hg, he, csr_get _ _ i j (by simpa using hi') (hs' _ (List.getElem_mem _))]
  have := lookup_map_snd R[i] (· * a) j
  simp only [List.getElem_map, this]
  cases R[i].lookup j <;> simp

/-- Scalar quotients of a `CSR`. -/
theorem C09_csr_sdiv [Field K] [DecidableEq K] (m : CSR K) (h : m.WF) (a : K) (ha : a ≠ 0) :
    ∃ q, m.sdiv a = some q ∧ q.WF ∧ ∀ i < m.rows, ∀ j, q.get i j = (m.get i j).map (· / a) := by
  refine ⟨m.smul a⁻¹, ?_, (C09_csr_smul m h _).1, ?_⟩
  · unfold CSR.sdiv
    rw [if_neg (by simp [ha])]
    simp only [CSR.smul, div_eq_mul_inv]
  · intro i hi j
    rw [(C09_csr_smul m h _).2 i hi]
    simp only [div_eq_mul_inv]

/-! ### Concrete instances -/

example : ∃ m s', CSR.ofLIL (⟨2, 3, [[(2, -1), (1, 3)], [(0, 7)]]⟩ : LIL ℚ) = some (m, s') ∧
    m.get 0 2 = some (-1) := by
  obtain ⟨m, s', h, -, -, -, -, -, -, hg⟩ :=
    C07_csr_of_lil (⟨2, 3, [[(2, -1), (1, 3)], [(0, 7)]]⟩ : LIL ℚ) (by unfold LIL.WF; decide)
  exact ⟨m, s', h, by rw [(hg 0 2).1]; decide +kernel⟩
example : (⟨2, 3, [0, 2, 3], [1, 2, 0], [3, -1, 7]⟩ : CSR ℚ).InBounds := by
  unfold CSR.InBounds; decide
example : (⟨2, 3, [[(2, -1), (1, 3)], [(0, 7)]]⟩ : LIL ℚ).InBounds := by
  unfold LIL.InBounds; decide
example : (⟨2, 3, [0, 2, 3], [1, 2, 0], [3, -1, 7]⟩ : CSR ℚ).mulVec [1, 2, 3]
    = some [3, 7] := by decide +kernel
/-- A schedule that interleaves the two rows and completes. -/
example : ∀ i : Fin 2, 2 * ([1, 2, 0] : List ℕ).length
    ≤ ([0, 1, 1, 0, 0, 1, 0, 1, 0, 1, 0, 1] : List (Fin 2)).count i := by decide
example : CSR.add (⟨1, 3, [0, 2], [0, 2], [1, 2]⟩ : CSR ℚ) ⟨1, 3, [0, 2], [1, 2], [5, 7]⟩
    = some ⟨1, 3, [0, 3], [0, 1, 2], [1, 5, 9]⟩ := by decide +kernel

end Pansfem
