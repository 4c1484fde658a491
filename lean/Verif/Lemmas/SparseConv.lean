/-
Helper lemmas: sorting rows, building a CSR from a LILCSR, products with vectors.
-/
import Verif.Lemmas.SparseHistory
import Verif.Model.ParSpMV

namespace Pansfem

variable {K : Type}

theorem lookup_eq_some_iff {row : List (ℕ × K)} (hn : (row.map Prod.fst).Nodup) (j : ℕ) (v : K) :
    row.lookup j = some v ↔ (j, v) ∈ row := by
  induction row with
  | nil => simp
  | cons p l ih =>
    obtain ⟨c, w⟩ := p
    simp only [List.map_cons, List.nodup_cons] at hn
    rw [lookup_cons']
    by_cases h : j = c
    · subst h
      simp only [if_true, Option.some.injEq, List.mem_cons, Prod.mk.injEq, true_and]
      constructor
      · intro h; exact Or.inl h.symm
      · rintro (h | h)
        · exact h.symm
        · exact absurd (List.mem_map_of_mem h) hn.1
    · simp [h, ih hn.2]

theorem lookup_perm {r1 r2 : List (ℕ × K)} (hp : r1.Perm r2) (hn : (r1.map Prod.fst).Nodup)
    (j : ℕ) : r1.lookup j = r2.lookup j := by
  have hn2 : (r2.map Prod.fst).Nodup := (hp.map Prod.fst).nodup_iff.1 hn
  ext v
  rw [lookup_eq_some_iff hn, lookup_eq_some_iff hn2, hp.mem_iff]

/-- The sort of the constructor. -/
def sortRow (row : List (ℕ × K)) : List (ℕ × K) := row.mergeSort fun a b => decide (a.1 ≤ b.1)

theorem sortRow_perm (row : List (ℕ × K)) : (sortRow row).Perm row := List.mergeSort_perm _ _

theorem sortRow_sorted {row : List (ℕ × K)} (hn : (row.map Prod.fst).Nodup) :
    RowSorted (sortRow row) := by
  have h1 : (sortRow row).Pairwise fun a b => (decide (a.1 ≤ b.1)) = true := by
    apply List.pairwise_mergeSort
    · intro a b c; simp only [decide_eq_true_eq]; omega
    · intro a b; simp only [Bool.or_eq_true, decide_eq_true_eq]; omega
  have hn2 : ((sortRow row).map Prod.fst).Nodup :=
    ((sortRow_perm row).map Prod.fst).nodup_iff.2 hn
  have h2 : (sortRow row).Pairwise fun a b => a.1 ≠ b.1 := List.pairwise_map.1 hn2
  refine (h1.and h2).imp ?_
  intro a b h
  simp only [decide_eq_true_eq] at h
  omega

/-- With distinct columns there is only one sorted arrangement of a row. -/
theorem sortRow_unique {row row' : List (ℕ × K)} (hn : (row.map Prod.fst).Nodup)
    (hp : row'.Perm row) (hs : row'.Pairwise fun a b => a.1 ≤ b.1) : row' = sortRow row := by
  have hn2 : (row'.map Prod.fst).Nodup := (hp.map Prod.fst).nodup_iff.2 hn
  have h2 : row'.Pairwise fun a b => a.1 ≠ b.1 := List.pairwise_map.1 hn2
  have h3 : row'.Pairwise fun a b => a.1 < b.1 := (hs.and h2).imp fun h => by omega
  have h4 : (sortRow row).Pairwise fun a b => a.1 < b.1 := sortRow_sorted hn
  refine List.Perm.eq_of_pairwise ?_ h3 h4 (hp.trans (sortRow_perm row).symm)
  intro a b _ _ h1 h2
  omega

theorem rowPtrs_snoc (s : ℕ) (A : List (List (ℕ × K))) (r : List (ℕ × K)) :
    rowPtrs s (A ++ [r]) = rowPtrs s A ++ [s + A.flatten.length + r.length] := by
  induction A generalizing s with
  | nil => simp [rowPtrs]
  | cons a A ih =>
    simp only [List.cons_append, rowPtrs, ih, List.flatten_cons, List.length_append]
    congr 3
    omega

theorem ofLIL_eq (s : LIL K) (h : s.data.length = s.rows) :
    CSR.ofLIL s = some (csrOf s.cols (s.data.map sortRow),
      { s with data := s.data.map sortRow }) := by
  set S := s.data.map sortRow with hS
  have hSl : S.length = s.rows := by simp [hS, h]
  have key : ∀ k ≤ s.rows, (List.range k).foldlM
      (fun (st : CSR K × LIL K) i => do
        let row ← st.2.data[i]?
        let p ← st.1.indptr[i]?
        if i + 1 < st.1.indptr.length then
          let row' := row.mergeSort (fun a b => decide (a.1 ≤ b.1))
          return ({ st.1 with
              indptr := st.1.indptr.set (i + 1) (p + row.length)
              indices := st.1.indices ++ row'.map Prod.fst
              data := st.1.data ++ row'.map Prod.snd },
            { st.2 with data := st.2.data.set i row' })
        else none) (CSR.new s.rows s.cols, s)
      = some (⟨s.rows, s.cols, rowPtrs 0 (S.take k) ++ List.replicate (s.rows - k) 0,
          (S.take k).flatten.map Prod.fst, (S.take k).flatten.map Prod.snd⟩,
          { s with data := S.take k ++ s.data.drop k }) := by
    intro k
    induction k with
    | zero =>
      intro _
      simp [CSR.new, rowPtrs, List.replicate_succ]
    | succ k ih =>
      intro hk
      rw [List.range_succ, List.foldlM_append, ih (by omega)]
      have hkl : k < s.data.length := by omega
      have hkS : k < S.length := by omega
      have hrow : (S.take k ++ s.data.drop k)[k]? = some s.data[k] := by
        rw [List.getElem?_append_right (by simp), List.length_take, Nat.min_eq_left (by omega)]
        simp
      have hptr : (rowPtrs 0 (S.take k) ++ List.replicate (s.rows - k) 0)[k]?
          = some (S.take k).flatten.length := by
        have hl : (rowPtrs 0 (S.take k)).length = k + 1 := by
          rw [rowPtrs_length, List.length_take, Nat.min_eq_left (by omega)]
        rw [List.getElem?_append_left (by omega), rowPtrs_get _ _ _ (by simp; omega),
          List.take_of_length_le (by simp), zero_add]
      have hSk : S[k] = s.data[k].mergeSort fun a b => decide (a.1 ≤ b.1) := by
        simp [hS, sortRow]
      have hlen : S[k].length = s.data[k].length := by rw [hSk, List.length_mergeSort]
      have htk : S.take (k + 1) = S.take k ++ [S[k]] := by
        rw [List.take_succ_eq_append_getElem hkS]
      simp only [Option.bind_eq_bind, Option.bind_some, List.foldlM_cons, List.foldlM_nil, hrow,
        hptr]
      rw [if_pos (by rw [List.length_append, rowPtrs_length, List.length_take, Nat.min_eq_left (by omega),
        List.length_replicate]; omega)]
      simp only [Option.pure_def, Option.bind_some, Option.some.injEq, Prod.mk.injEq]
      refine ⟨?_, ?_⟩
      · congr 1
        · rw [htk, rowPtrs_snoc]
          have hl : (rowPtrs 0 (S.take k)).length = k + 1 := by
            rw [rowPtrs_length, List.length_take, Nat.min_eq_left (by omega)]
          rw [List.set_append_right _ _ (by omega), hl, Nat.sub_self]
          have : s.rows - k = (s.rows - (k + 1)) + 1 := by omega
          rw [this, List.replicate_succ, List.set_cons_zero, hlen, zero_add]
          simp
        · rw [htk, List.flatten_append, List.map_append, ← hSk]; simp
        · rw [htk, List.flatten_append, List.map_append, ← hSk]; simp
      · congr 1
        rw [htk, List.set_append_right _ _ (by simp), List.length_take, Nat.min_eq_left (by omega),
          Nat.sub_self, List.drop_eq_getElem_cons hkl, List.set_cons_zero, ← hSk, List.append_assoc]
        rfl
  unfold CSR.ofLIL
  rw [key s.rows le_rfl]
  rw [List.take_of_length_le (by omega), List.drop_of_length_le (by omega)]
  simp [csrOf, hSl]

/-- The fold of one row of a product. -/
theorem row_fold [Add K] [Mul K] (row : List (ℕ × K)) (x : List K)
    (g : ℕ → K) (hg : ∀ p ∈ row, x[p.1]? = some (g p.1)) (a : K) :
    row.foldlM (fun acc p => do return acc + p.2 * (← x[p.1]?)) a
      = some (row.foldl (fun acc p => acc + p.2 * g p.1) a) := by
  induction row generalizing a with
  | nil => rfl
  | cons p l ih =>
    rw [List.foldlM_cons, hg p (by simp)]
    simp only [Option.bind_eq_bind, Option.bind_some, Option.pure_def, List.foldl_cons]
    simp only [Option.bind_eq_bind, Option.pure_def] at ih
    exact ih (fun q hq => hg q (by simp [hq])) _

theorem foldl_add_sum [Ring K] (row : List (ℕ × K)) (g : ℕ → K) (a : K) :
    row.foldl (fun acc p => acc + p.2 * g p.1) a = a + (row.map fun p => p.2 * g p.1).sum := by
  induction row generalizing a with
  | nil => simp
  | cons p l ih => simp [ih, add_assoc]

theorem row_product [Ring K] (row : List (ℕ × K)) (hn : (row.map Prod.fst).Nodup) (x : List K)
    (hb : ∀ p ∈ row, p.1 < x.length) :
    row.foldlM (fun acc p => do return acc + p.2 * (← x[p.1]?)) 0
      = some (∑ j : Fin x.length, (row.lookup (j : ℕ)).getD 0 * x[j]) := by
  rw [row_fold row x (fun j => if h : j < x.length then x[j] else 0),
    foldl_add_sum row (fun j => if h : j < x.length then x[j] else 0), zero_add]
  · have := row_sum row hn x.length hb (fun j => x[j])
    simp only [Fin.getElem_fin] at this ⊢
    rw [← this]
  · intro p hp
    have := hb p hp
    simp [this]

/-- State of the parallel loop reached by a schedule: what every row has accumulated so far. -/
theorem parRun_invariant [Zero K] [Add K] [Mul K] (cols : ℕ) (R : List (List (ℕ × K))) (x : List K)
    (g : ℕ → K) (hg : ∀ row ∈ R, ∀ p ∈ row, x[p.1]? = some (g p.1))
    (sched : List (Fin R.length)) :
    ∃ s, parRun (csrOf cols R) x (ParState.init _) sched = some s ∧
      ∀ i : Fin R.length,
        s.pc i = min (R[(i : ℕ)].length) (sched.count i / 2) ∧
        (s.reg i = if sched.count i % 2 = 1 ∧ sched.count i / 2 < R[(i : ℕ)].length
          then some (s.v i) else none) ∧
        s.v i = (R[(i : ℕ)].take (s.pc i)).foldl (fun acc p => acc + p.2 * g p.1) 0 := by
  induction sched using List.reverseRecOn with
  | nil =>
    refine ⟨ParState.init _, rfl, ?_⟩
    intro i
    simp [ParState.init]
  | append_singleton sched k ih =>
    obtain ⟨s, hs, hI⟩ := ih
    obtain ⟨hpc, hreg, hv⟩ := hI k
    obtain ⟨h1, h2⟩ := rowPtrs_row R k k.2
    have hrun : parRun (csrOf cols R) x (ParState.init _) (sched ++ [k])
        = parStep (csrOf cols R) x s k := by
      unfold parRun at hs ⊢
      rw [List.foldlM_append, hs]
      simp [List.foldlM_cons]
    rw [hrun]
    have hcount : ∀ i : Fin R.length, (sched ++ [k]).count i
        = sched.count i + if k = i then 1 else 0 := by
      intro i
      rw [List.count_append, List.count_singleton]
      simp
    have hstep : parStep (csrOf cols R) x s k =
        (if s.pc k < R[(k : ℕ)].length then
          match s.reg k with
          | none => some { s with reg := Function.update s.reg k (some (s.v k)) }
          | some a => do
            let j ← (csrOf cols R).indices[(R.take k).flatten.length + s.pc k]?
            let d ← (csrOf cols R).data[(R.take k).flatten.length + s.pc k]?
            let xj ← x[j]?
            return { v := Function.update s.v k (a + d * xj)
                     pc := Function.update s.pc k (s.pc k + 1)
                     reg := Function.update s.reg k none }
        else some s) := by
      unfold parStep
      have h1' : (csrOf cols R).indptr[(k : ℕ)]? = some (R.take k).flatten.length := h1
      have h2' : (csrOf cols R).indptr[(k : ℕ) + 1]?
          = some ((R.take k).flatten.length + R[(k : ℕ)].length) := h2
      rw [h1', h2']
      simp only [Option.bind_eq_bind, Option.bind_some, Nat.add_sub_cancel_left]
      rfl
    rw [hstep]
    set c := sched.count k with hc
    by_cases hlt : s.pc k < R[(k : ℕ)].length
    · rw [if_pos hlt]
      have hc2 : c / 2 < R[(k : ℕ)].length := by
        by_contra h
        rw [hpc, Nat.min_eq_left (by omega)] at hlt
        omega
      have hpc' : s.pc k = c / 2 := by rw [hpc, Nat.min_eq_right (by omega)]
      by_cases hodd : c % 2 = 1
      · -- pending store
        have hr : s.reg k = some (s.v k) := by rw [hreg, if_pos ⟨hodd, hc2⟩]
        rw [hr]
        have hfl := flatten_split R k k.2
        have hgk : R.flatten[(R.take k).flatten.length + s.pc k]? = some (R[(k : ℕ)][s.pc k]'hlt) := by
          rw [hfl, List.getElem?_append_right (by omega), Nat.add_sub_cancel_left,
            List.getElem?_append_left hlt, List.getElem?_eq_getElem hlt]
        have hi1 : (csrOf cols R).indices[(R.take k).flatten.length + s.pc k]?
            = some (R[(k : ℕ)][s.pc k]'hlt).1 := by
          simp only [csrOf]; rw [List.getElem?_map, hgk]; rfl
        have hi2 : (csrOf cols R).data[(R.take k).flatten.length + s.pc k]?
            = some (R[(k : ℕ)][s.pc k]'hlt).2 := by
          simp only [csrOf]; rw [List.getElem?_map, hgk]; rfl
        have hx := hg R[(k : ℕ)] (List.getElem_mem k.2) (R[(k : ℕ)][s.pc k]'hlt) (List.getElem_mem hlt)
        simp only [hi1, hi2, hx, Option.bind_eq_bind, Option.bind_some]
        refine ⟨_, rfl, ?_⟩
        intro i
        rw [hcount i]
        by_cases hik : k = i
        · subst hik
          simp only [Function.update_self, if_true]
          refine ⟨?_, ?_, ?_⟩
          · rw [hpc', ← hc]; omega
          · rw [if_neg]; rw [← hc]; omega
          · rw [List.take_succ_eq_append_getElem hlt, List.foldl_append, ← hv]
            rfl
        · simp only [Function.update_of_ne (Ne.symm hik), if_neg hik, add_zero]
          exact hI i
      · -- load
        have hr : s.reg k = none := by rw [hreg, if_neg (by omega)]
        rw [hr]
        refine ⟨_, rfl, ?_⟩
        intro i
        rw [hcount i]
        by_cases hik : k = i
        · subst hik
          simp only [Function.update_self, if_true]
          refine ⟨?_, ?_, hv⟩
          · rw [hpc, ← hc]; congr 1; omega
          · rw [if_pos]; rw [← hc]; omega
        · simp only [Function.update_of_ne (Ne.symm hik), if_neg hik, add_zero]
          exact hI i
    · rw [if_neg hlt]
      have hc2 : R[(k : ℕ)].length ≤ c / 2 := by
        by_contra h
        rw [hpc, Nat.min_eq_right (by omega)] at hlt
        omega
      refine ⟨s, rfl, ?_⟩
      intro i
      rw [hcount i]
      by_cases hik : k = i
      · subst hik
        simp only [if_true]
        refine ⟨?_, ?_, hv⟩
        · rw [hpc, ← hc, Nat.min_eq_left (by omega), Nat.min_eq_left (by omega)]
        · rw [hreg, if_neg (by omega), if_neg (by rw [← hc]; omega)]
      · simp only [if_neg hik, add_zero]
        exact hI i

theorem accEntry_getD [Zero K] (op : K → K → K) (h0 : ∀ a, op a 0 = a) (a b : Option K) :
    (accEntry op a b).getD 0 = op (a.getD 0) (b.getD 0) := by
  cases b <;> simp [accEntry, h0]

theorem lil_acc_spec [Zero K] (op : K → K → K) (h0 : ∀ a, op a 0 = a) (a b : LIL K) (ha : a.WF)
    (hb : b.WF) (hr : a.rows = b.rows) (hc : a.cols = b.cols) :
    ∃ m, LIL.acc op a b = some m ∧ m.WF ∧ m.rows = a.rows ∧
      ∀ i < a.rows, ∀ j, ∃ u v, a.get i j = some u ∧ b.get i j = some v ∧
        m.get i j = some (op u v) := by
  have hA := LIL.holds_of_wf ha
  have hB := LIL.holds_of_wf hb
  obtain ⟨m, hm, hI⟩ := acc_spec LIL.set LIL.get a.rows (LIL.Holds a.rows) (LIL.holds_set a.rows)
    (fun m f i j h hi => LIL.holds_get h i j hi) op (fun i => b.data[i]?)
    (fun i j => (b.data[i]?.bind fun row => row.lookup j)) (by
      intro i hi
      obtain ⟨row, h1, h2⟩ := hB.2.2 i (by omega)
      exact ⟨row, h1, hb.2 row (List.mem_of_getElem? h1), h2⟩) a _ hA a.rows le_rfl
  refine ⟨m, ?_, hI.1, hI.2.1, ?_⟩
  · unfold LIL.acc
    rw [if_pos ⟨hr, hc⟩, ← hr]
    exact hm
  · intro i hi j
    refine ⟨_, _, LIL.holds_get hA i j hi, LIL.holds_get hB i j (by omega), ?_⟩
    rw [LIL.holds_get hI i j hi]
    simp only [hi, if_true]
    rw [accEntry_getD op h0]

theorem csr_acc_spec [Zero K] (op : K → K → K) (h0 : ∀ a, op a 0 = a) (a b : CSR K) (ha : a.WF)
    (hb : b.WF) (hr : a.rows = b.rows) (hc : a.cols = b.cols) :
    ∃ m, CSR.acc op a b = some m ∧ m.WF ∧ m.rows = a.rows ∧ m.cols = a.cols ∧
      ∀ i < a.rows, ∀ j, ∃ u v, a.get i j = some u ∧ b.get i j = some v ∧
        m.get i j = some (op u v) := by
  obtain ⟨f, hA⟩ := CSR.holds_of_wf ha
  obtain ⟨g, hB⟩ := CSR.holds_of_wf hb
  have hB' := hB
  obtain ⟨R, hbR, hRl, hs, hlk⟩ := hB'
  obtain ⟨m, hm, hI⟩ := acc_spec CSR.set CSR.get a.rows (CSR.Holds a.rows a.cols)
    (CSR.holds_set a.rows a.cols)
    (fun m f i j h hi => CSR.holds_get h i j hi) op b.rowEntries g (by
      intro i hi
      have hi' : i < R.length := by omega
      refine ⟨R[i], ?_, (hs _ (List.getElem_mem hi')).nodup, hlk i hi'⟩
      rw [hbR]; exact csr_rowEntries b.cols R i hi') a _ hA a.rows le_rfl
  refine ⟨m, ?_, hI.wf.1, hI.wf.2.1, hI.wf.2.2, ?_⟩
  · unfold CSR.acc
    rw [if_pos ⟨hr, hc⟩, ← hr]
    exact hm
  · intro i hi j
    refine ⟨_, _, CSR.holds_get hA i j hi, CSR.holds_get hB i j (by omega), ?_⟩
    rw [CSR.holds_get hI i j hi]
    simp only [hi, if_true]
    rw [accEntry_getD op h0]

theorem lookup_map_snd (row : List (ℕ × K)) (F : K → K) (j : ℕ) :
    (row.map fun p => (p.1, F p.2)).lookup j = (row.lookup j).map F := by
  induction row with
  | nil => rfl
  | cons p l ih =>
    obtain ⟨c, v⟩ := p
    rw [List.map_cons, lookup_cons', lookup_cons', ih]
    by_cases h : j = c <;> simp [h]

/-- Rows of a scaled `CSR`. -/
theorem csr_smul_eq [Mul K] (cols : ℕ) (R : List (List (ℕ × K))) (a : K) :
    (csrOf cols R).smul a = csrOf cols (R.map fun row => row.map fun p => (p.1, p.2 * a)) := by
  unfold CSR.smul csrOf
  have hp : ∀ s, rowPtrs s (R.map fun row => row.map fun p => (p.1, p.2 * a)) = rowPtrs s R := by
    induction R with
    | nil => intro s; rfl
    | cons r R ih => intro s; simp only [List.map_cons, rowPtrs, List.length_map, ih]
  simp only [List.length_map, hp]
  congr 1
  · rw [List.map_flatten, List.map_flatten, List.map_map]
    congr 1
    apply List.map_congr_left
    intro row _
    simp [List.map_map, Function.comp_def]
  · rw [List.map_map, List.map_flatten, List.map_flatten, List.map_map]
    congr 1
    apply List.map_congr_left
    intro row _
    simp [List.map_map, Function.comp_def]

end Pansfem
