/-
From one write to any history of writes, for both sparse formats.
-/
import Verif.Lemmas.Sparse

namespace Pansfem

variable {K : Type}

theorem lastWrite_nil (i j : ℕ) : lastWrite ([] : List (Write K)) i j = none := rfl

theorem lastWrite_cons (o : Write K) (ops : List (Write K)) (i j : ℕ) :
    lastWrite (o :: ops) i j =
      (lastWrite ops i j).or (if o.1 = i ∧ o.2.1 = j then some o.2.2 else none) := by
  unfold lastWrite
  rw [List.reverse_cons, List.find?_append]
  by_cases h : o.1 = i ∧ o.2.1 = j
  · cases hf : List.find? (fun o => decide (o.1 = i ∧ o.2.1 = j)) ops.reverse <;> simp [h]
  · have hd : decide (o.1 = i ∧ o.2.1 = j) = false := decide_eq_false h
    cases hf : List.find? (fun o => decide (o.1 = i ∧ o.2.1 = j)) ops.reverse with
    | none => simp only [Option.none_or, List.find?_cons, hd, List.find?_nil, h, if_false]; rfl
    | some p => simp

theorem runSets_spec {M : Type} (setf : M → ℕ → ℕ → K → Option (M × Bool)) (r : ℕ)
    (Inv : M → (ℕ → ℕ → Option K) → Prop)
    (hstep : ∀ m f i j x, Inv m f → i < r → ∃ m', setf m i j x = some (m', (f i j).isSome) ∧
      Inv m' fun i' j' => if i = i' ∧ j = j' then some x else f i' j') :
    ∀ (ops : List (Write K)) (m : M) (f : ℕ → ℕ → Option K) (seen : List (ℕ × ℕ)),
      Inv m f → (∀ i j, (f i j).isSome ↔ (i, j) ∈ seen) → (∀ o ∈ ops, o.1 < r) →
      ∃ m', runSets setf m ops = some (m', writtenBefore seen ops) ∧
        Inv m' fun i j => (lastWrite ops i j).or (f i j) := by
  intro ops
  induction ops with
  | nil =>
    intro m f seen hI _ _
    exact ⟨m, rfl, by simpa [lastWrite_nil] using hI⟩
  | cons o ops ih =>
    intro m f seen hI hs hr
    obtain ⟨m1, h1, hI1⟩ := hstep m f o.1 o.2.1 o.2.2 hI (hr o (by simp))
    obtain ⟨m2, h2, hI2⟩ := ih m1 _ ((o.1, o.2.1) :: seen) hI1 (by
      intro i j
      by_cases h : o.1 = i ∧ o.2.1 = j
      · obtain ⟨rfl, rfl⟩ := h; simp
      · have h' : ¬ ((i, j) = (o.1, o.2.1)) := by
          intro he; simp only [Prod.mk.injEq] at he; exact h ⟨he.1.symm, he.2.symm⟩
        rw [if_neg h, hs, List.mem_cons]
        simp only [h', false_or]) (fun p hp => hr p (by simp [hp]))
    refine ⟨m2, ?_, ?_⟩
    · simp only [runSets, h1, h2, Option.bind_eq_bind, Option.bind_some, writtenBefore]
      have : (f o.1 o.2.1).isSome = decide ((o.1, o.2.1) ∈ seen) := by
        rw [Bool.eq_iff_iff, hs]; simp
      rw [this]
      rfl
    · convert hI2 using 3
      rename_i i j
      rw [lastWrite_cons, Option.or_assoc]
      congr 1
      by_cases h : o.1 = i ∧ o.2.1 = j <;> simp [h]

/-- The stored entries of a `LILCSR`. -/
def LIL.Holds (r : ℕ) (m : LIL K) (f : ℕ → ℕ → Option K) : Prop :=
  m.WF ∧ m.rows = r ∧ ∀ i < r, ∃ row, m.data[i]? = some row ∧ ∀ j, row.lookup j = f i j

theorem LIL.holds_new (r c : ℕ) : LIL.Holds r (LIL.new r c : LIL K) fun _ _ => none := by
  refine ⟨⟨by simp [LIL.new], ?_⟩, rfl, ?_⟩
  · intro row h
    have := List.eq_of_mem_replicate h
    subst this; simp
  · intro i hi
    exact ⟨[], by simp [LIL.new, hi], fun j => rfl⟩

theorem LIL.holds_set (r : ℕ) (m : LIL K) (f : ℕ → ℕ → Option K) (i j : ℕ) (x : K)
    (h : LIL.Holds r m f) (hi : i < r) :
    ∃ m', m.set i j x = some (m', (f i j).isSome) ∧
      LIL.Holds r m' fun i' j' => if i = i' ∧ j = j' then some x else f i' j' := by
  obtain ⟨⟨hl, hn⟩, hr, hf⟩ := h
  obtain ⟨row, hrow, hlk⟩ := hf i hi
  refine ⟨{ m with data := m.data.set i (rowSet row j x).1 }, ?_, ⟨?_, ?_⟩, hr, ?_⟩
  · unfold LIL.set
    rw [hrow]
    simp only [Option.bind_eq_bind, Option.bind_some]
    rw [← hlk, ← rowSet_flag row j x]
    rfl
  · simpa using hl
  · intro q hq
    rcases List.mem_or_eq_of_mem_set hq with hq | rfl
    · exact hn q hq
    · exact rowSet_nodup (hn row (List.mem_of_getElem? hrow)) j x
  · intro i' hi'
    by_cases h : i = i'
    · subst h
      refine ⟨(rowSet row j x).1, ?_, ?_⟩
      · simp only
        rw [List.getElem?_set_self (by omega)]
      · intro j'
        rw [rowSet_lookup, hlk]
        by_cases hj : j' = j
        · simp [hj]
        · simp [hj, Ne.symm hj]
    · obtain ⟨row', hrow', hlk'⟩ := hf i' hi'
      refine ⟨row', ?_, ?_⟩
      · simp only
        rw [List.getElem?_set_ne h, hrow']
      · intro j'; simp [h, hlk']

theorem LIL.holds_get [Zero K] {r : ℕ} {m : LIL K} {f : ℕ → ℕ → Option K} (h : LIL.Holds r m f)
    (i j : ℕ) (hi : i < r) : m.get i j = some ((f i j).getD 0) := by
  obtain ⟨row, hrow, hlk⟩ := h.2.2 i hi
  unfold LIL.get
  rw [hrow]
  simp [rowGet_eq_lookup, hlk]

theorem LIL.holds_of_wf {m : LIL K} (h : m.WF) :
    LIL.Holds m.rows m fun i j => (m.data[i]?.bind fun row => row.lookup j) := by
  refine ⟨h, rfl, fun i hi => ?_⟩
  have hl : i < m.data.length := by rw [h.1]; exact hi
  refine ⟨m.data[i], List.getElem?_eq_getElem hl, fun j => ?_⟩
  simp [List.getElem?_eq_getElem hl]

/-- The stored entries of a `CSR`. -/
def CSR.Holds (r cols : ℕ) (m : CSR K) (f : ℕ → ℕ → Option K) : Prop :=
  ∃ R : List (List (ℕ × K)), m = csrOf cols R ∧ R.length = r ∧ (∀ row ∈ R, RowSorted row) ∧
    ∀ i (hi : i < R.length), ∀ j, R[i].lookup j = f i j

theorem rowPtrs_replicate (s n : ℕ) :
    rowPtrs s (List.replicate n ([] : List (ℕ × K))) = List.replicate (n + 1) s := by
  induction n with
  | zero => rfl
  | succ n ih => simp only [List.replicate_succ, rowPtrs, List.length_nil, add_zero, ih]

theorem CSR.new_eq (r c : ℕ) : (CSR.new r c : CSR K) = csrOf c (List.replicate r []) := by
  unfold CSR.new csrOf
  rw [rowPtrs_replicate]
  simp

theorem CSR.holds_new (r c : ℕ) : CSR.Holds r c (CSR.new r c : CSR K) fun _ _ => none := by
  refine ⟨List.replicate r [], CSR.new_eq r c, by simp, ?_, ?_⟩
  · intro row h
    have := List.eq_of_mem_replicate h
    subst this; exact List.Pairwise.nil
  · intro i hi j; simp

theorem CSR.holds_set (r cols : ℕ) (m : CSR K) (f : ℕ → ℕ → Option K) (i j : ℕ) (x : K)
    (h : CSR.Holds r cols m f) (hi : i < r) :
    ∃ m', m.set i j x = some (m', (f i j).isSome) ∧
      CSR.Holds r cols m' fun i' j' => if i = i' ∧ j = j' then some x else f i' j' := by
  obtain ⟨R, rfl, hr, hs, hf⟩ := h
  have hi' : i < R.length := by omega
  have hsi := hs R[i] (List.getElem_mem hi')
  refine ⟨csrOf cols (R.set i (sIns R[i] j x)), ?_, R.set i (sIns R[i] j x), rfl, by simpa using hr,
    ?_, ?_⟩
  · rw [csr_set cols R i j x hi' hsi, hf i hi']
  · intro q hq
    rcases List.mem_or_eq_of_mem_set hq with hq | rfl
    · exact hs q hq
    · exact sIns_sorted hsi j x
  · intro k hk j'
    simp only [List.length_set] at hk
    by_cases h : i = k
    · subst h
      rw [List.getElem_set_self, sIns_lookup hsi, hf i hi']
      by_cases hj : j' = j
      · simp [hj]
      · simp [hj, Ne.symm hj]
    · rw [List.getElem_set_ne h, hf k hk]
      simp [h]

theorem CSR.holds_get [Zero K] {r cols : ℕ} {m : CSR K} {f : ℕ → ℕ → Option K}
    (h : CSR.Holds r cols m f) (i j : ℕ) (hi : i < r) : m.get i j = some ((f i j).getD 0) := by
  obtain ⟨R, rfl, hr, hs, hf⟩ := h
  have hi' : i < R.length := by omega
  rw [csr_get cols R i j hi' (hs _ (List.getElem_mem hi')), hf i hi']

theorem CSR.Holds.wf {r cols : ℕ} {m : CSR K} {f : ℕ → ℕ → Option K} (h : CSR.Holds r cols m f) :
    m.WF ∧ m.rows = r ∧ m.cols = cols := by
  obtain ⟨R, rfl, hr, hs, hf⟩ := h
  exact ⟨⟨R, rfl, hs⟩, hr, rfl⟩

theorem CSR.holds_of_wf {m : CSR K} (h : m.WF) : ∃ f, CSR.Holds m.rows m.cols m f := by
  obtain ⟨R, hm, hs⟩ := h
  refine ⟨fun i j => (R[i]?.bind fun row => row.lookup j), R, hm, by rw [hm]; rfl, hs, ?_⟩
  intro i hi j
  simp [List.getElem?_eq_getElem hi]

/-! ### Accumulating one matrix into another -/

/-- Entry of the accumulated matrix. -/
def accEntry [Zero K] (op : K → K → K) (a b : Option K) : Option K :=
  match b with
  | some v => some (op (a.getD 0) v)
  | none => a

theorem accRow_spec [Zero K] {M : Type} (setf : M → ℕ → ℕ → K → Option (M × Bool))
    (getf : M → ℕ → ℕ → Option K) (r : ℕ) (Inv : M → (ℕ → ℕ → Option K) → Prop)
    (hset : ∀ m f i j x, Inv m f → i < r → ∃ m', setf m i j x = some (m', (f i j).isSome) ∧
      Inv m' fun i' j' => if i = i' ∧ j = j' then some x else f i' j')
    (hget : ∀ m f i j, Inv m f → i < r → getf m i j = some ((f i j).getD 0))
    (op : K → K → K) (i : ℕ) (hi : i < r) :
    ∀ (row : List (ℕ × K)), (row.map Prod.fst).Nodup → ∀ m f, Inv m f →
      ∃ m', row.foldlM (fun m p => do
          return (← setf m i p.1 (op (← getf m i p.1) p.2)).1) m = some m' ∧
        Inv m' fun i' j' => if i = i' then accEntry op (f i' j') (row.lookup j') else f i' j' := by
  intro row
  induction row with
  | nil =>
    intro _ m f hI
    refine ⟨m, rfl, ?_⟩
    convert hI using 3
    simp [accEntry]
  | cons p l ih =>
    obtain ⟨c, v⟩ := p
    intro hn m f hI
    simp only [List.map_cons, List.nodup_cons] at hn
    obtain ⟨m1, h1, hI1⟩ := hset m f i c (op ((f i c).getD 0) v) hI hi
    obtain ⟨m2, h2, hI2⟩ := ih hn.2 m1 _ hI1
    refine ⟨m2, ?_, ?_⟩
    · rw [List.foldlM_cons]
      simp only [hget m f i c hI hi, Option.bind_eq_bind, Option.bind_some, h1]
      exact h2
    · convert hI2 using 3
      rename_i i' j'
      by_cases hii : i = i'
      · subst hii
        rw [if_pos rfl, if_pos rfl, lookup_cons']
        by_cases hj : j' = c
        · subst hj
          have h0 : l.lookup j' = none := by
            by_contra h
            have := Option.isSome_iff_ne_none.2 h
            rw [lookup_isSome_iff] at this
            exact hn.1 this
          simp [h0, accEntry]
        · simp [hj, Ne.symm hj]
      · simp [hii]

theorem acc_spec [Zero K] {M : Type} (setf : M → ℕ → ℕ → K → Option (M × Bool))
    (getf : M → ℕ → ℕ → Option K) (r : ℕ) (Inv : M → (ℕ → ℕ → Option K) → Prop)
    (hset : ∀ m f i j x, Inv m f → i < r → ∃ m', setf m i j x = some (m', (f i j).isSome) ∧
      Inv m' fun i' j' => if i = i' ∧ j = j' then some x else f i' j')
    (hget : ∀ m f i j, Inv m f → i < r → getf m i j = some ((f i j).getD 0))
    (op : K → K → K) (rowOf : ℕ → Option (List (ℕ × K))) (g : ℕ → ℕ → Option K)
    (hrow : ∀ i < r, ∃ row, rowOf i = some row ∧ (row.map Prod.fst).Nodup ∧
      ∀ j, row.lookup j = g i j) (m : M) (f : ℕ → ℕ → Option K) (hI : Inv m f) :
    ∀ k ≤ r, ∃ m', (List.range k).foldlM (fun m i => do
        (← rowOf i).foldlM (fun m p => do
          return (← setf m i p.1 (op (← getf m i p.1) p.2)).1) m) m = some m' ∧
      Inv m' fun i j => if i < k then accEntry op (f i j) (g i j) else f i j := by
  intro k
  induction k with
  | zero => intro _; exact ⟨m, rfl, by simpa using hI⟩
  | succ k ih =>
    intro hk
    obtain ⟨m1, h1, hI1⟩ := ih (by omega)
    obtain ⟨row, hr, hn, hl⟩ := hrow k (by omega)
    obtain ⟨m2, h2, hI2⟩ := accRow_spec setf getf r Inv hset hget op k (by omega) row hn m1 _ hI1
    refine ⟨m2, ?_, ?_⟩
    · rw [List.range_succ, List.foldlM_append, h1]
      simp only [Option.bind_eq_bind, Option.bind_some, List.foldlM_cons, List.foldlM_nil, hr]
      simp only [Option.bind_eq_bind] at h2
      rw [h2]
      rfl
    · convert hI2 using 3
      rename_i i j
      by_cases hik : i = k
      · subst hik; simp [hl]
      · have h3 : (i < k + 1) ↔ i < k := by omega
        simp [h3, Ne.symm hik]

end Pansfem
