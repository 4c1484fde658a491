/-
Row sweeps over sparse matrices: the triangular solves of `PreILU0` and the sweeps of `SOR`.
-/
import Verif.Lemmas.Krylov
import Mathlib.Data.List.FinRange
import Mathlib.Algebra.BigOperators.Fin

namespace Pansfem

variable {n : ℕ}

/-- Total rule for a loop over the rows in increasing order. -/
theorem finRange_total {S : Type} (f : S → Fin n → Option S) (P : ℕ → S → Prop) (s : S)
    (h0 : P 0 s) (hs : ∀ (i : Fin n) s, P i s → ∃ t, f s i = some t ∧ P (i + 1) t) :
    ∃ t, (List.finRange n).foldlM f s = some t ∧ P n t := by
  induction n with
  | zero => exact ⟨s, by simp, h0⟩
  | succ n ih =>
    obtain ⟨t, ht, hP⟩ := ih (fun s i => f s i.castSucc) (fun i s h => hs i.castSucc s h)
    obtain ⟨u, hu, hP'⟩ := hs (Fin.last n) t hP
    refine ⟨u, ?_, hP'⟩
    rw [List.finRange_succ_last, List.foldlM_append, List.foldlM_map, ht]
    simp [hu]

/-- Partial rule for a loop over the rows in increasing order. -/
theorem finRange_inv {S : Type} (f : S → Fin n → Option S) (P : ℕ → S → Prop) (s t : S)
    (h0 : P 0 s) (hs : ∀ (i : Fin n) s t, P i s → f s i = some t → P (i + 1) t)
    (h : (List.finRange n).foldlM f s = some t) : P n t := by
  induction n generalizing t with
  | zero => simp at h; rwa [← h]
  | succ n ih =>
    rw [List.finRange_succ_last, List.foldlM_append, List.foldlM_map] at h
    obtain ⟨u, hu, h⟩ := Option.bind_eq_some_iff.1 h
    have := ih (fun s i => f s i.castSucc) u (fun i s t h => hs i.castSucc s t h) hu
    refine hs (Fin.last n) u t this ?_
    simpa using h

/-- Total rule for a loop over the rows in decreasing order. -/
theorem finRange_down {S : Type} (f : S → Fin n → Option S) (P : ℕ → S → Prop) (s : S)
    (h0 : P n s) (hs : ∀ (i : Fin n) s, P (i + 1) s → ∃ t, f s i = some t ∧ P i t) :
    ∃ t, (List.finRange n).reverse.foldlM f s = some t ∧ P 0 t := by
  induction n generalizing s with
  | zero => exact ⟨s, by simp, h0⟩
  | succ n ih =>
    obtain ⟨t, ht, hP⟩ := hs (Fin.last n) s h0
    obtain ⟨u, hu, hP'⟩ := ih (fun s i => f s i.castSucc) t hP (fun i s h => hs i.castSucc s h)
    refine ⟨u, ?_, hP'⟩
    rw [List.finRange_succ_last, List.reverse_append, ← List.map_reverse, List.foldlM_append]
    simp only [List.reverse_cons, List.reverse_nil, List.nil_append, List.foldlM_cons, ht,
      List.foldlM_nil, List.foldlM_map]
    simpa using hu

/-- What the loops over row `i` of a matrix in CSR form see. -/
theorem IsCSR.row {A : CSR ℝ} {K : Matrix (Fin n) (Fin n) ℝ} (hA : IsCSR n A K) (i : Fin n) :
    ∃ row, A.rowEntries i = some row ∧ RowSorted row ∧ (∀ p ∈ row, p.1 < n) ∧
      ∀ j : Fin n, (row.lookup (j : ℕ)).getD 0 = K i j := by
  obtain ⟨⟨R, hm, hs⟩, hinb, hr, hc, he⟩ := hA
  have hl : R.length = n := by rw [← hr, hm]; rfl
  have hi : (i : ℕ) < R.length := by rw [hl]; exact i.2
  refine ⟨R[(i : ℕ)], by rw [hm]; exact csr_rowEntries _ R i hi, hs _ (List.getElem_mem hi), ?_, ?_⟩
  · intro p hp
    rw [← hc]
    apply hinb
    rw [hm]
    exact List.mem_map_of_mem (List.mem_flatten_of_mem (List.getElem_mem hi) hp)
  · intro j
    have := he i j
    rw [hm, csr_get _ R i j hi (hs _ (List.getElem_mem hi))] at this
    exact Option.some.inj this

/-! ### PreILU0 -/

theorem ilFwd_eq (i : Fin n) (row : List (ℕ × ℝ)) (hs : RowSorted row) (v : Fin n → ℝ) :
    ilFwd i row v = some (Function.update v i (v i - (row.map fun p => p.2 *
      (if h : p.1 < n then (if p.1 < (i : ℕ) then v ⟨p.1, h⟩ else 0) else 0)).sum)) := by
  induction row generalizing v with
  | nil => simp [ilFwd]
  | cons p l ih =>
    obtain ⟨j, a⟩ := p
    obtain ⟨h1, h2⟩ := List.pairwise_cons.1 hs
    unfold ilFwd
    by_cases h : j < (i : ℕ)
    · rw [dif_pos h, ih h2]
      have hj : j < n := h.trans i.2
      rw [Function.update_idem, Function.update_self]
      simp only [List.map_cons, List.sum_cons, hj, h, dif_pos, if_true]
      rw [sub_sub]
      congr 5
      apply List.map_congr_left
      intro q hq
      by_cases hq' : q.1 < n
      · by_cases hqi : q.1 < (i : ℕ)
        · simp only [hq', hqi, dif_pos, if_true]
          rw [Function.update_of_ne]
          intro e; rw [← e] at hqi; exact lt_irrefl _ hqi
        · simp [hqi]
      · simp [hq']
    · rw [dif_neg h]
      have : (((j, a) :: l).map fun p => p.2 *
          (if h : p.1 < n then (if p.1 < (i : ℕ) then v ⟨p.1, h⟩ else 0) else 0)).sum = 0 := by
        apply List.sum_eq_zero
        intro x hx
        obtain ⟨q, hq, rfl⟩ := List.mem_map.1 hx
        have : ¬ q.1 < (i : ℕ) := by
          rcases List.mem_cons.1 hq with rfl | hq
          · exact h
          · have := h1 q hq; simp only at this; omega
        simp [this]
      rw [this, sub_zero, Function.update_eq_self]

theorem ilBwd_eq (i : Fin n) (row : List (ℕ × ℝ)) (hs : row.Pairwise fun a b => b.1 < a.1)
    (hb : ∀ p ∈ row, p.1 < n) (v : Fin n → ℝ) :
    ilBwd i row v = some (Function.update v i (v i - (row.map fun p => p.2 *
      (if h : p.1 < n then (if (i : ℕ) < p.1 then v ⟨p.1, h⟩ else 0) else 0)).sum)) := by
  induction row generalizing v with
  | nil => simp [ilBwd]
  | cons p l ih =>
    obtain ⟨j, a⟩ := p
    obtain ⟨h1, h2⟩ := List.pairwise_cons.1 hs
    have hj : j < n := hb (j, a) (by simp)
    unfold ilBwd
    by_cases h : (i : ℕ) < j
    · rw [if_pos h, dif_pos hj, ih h2 fun p hp => hb p (by simp [hp])]
      rw [Function.update_idem, Function.update_self]
      simp only [List.map_cons, List.sum_cons, hj, h, dif_pos, if_true]
      rw [sub_sub]
      congr 5
      apply List.map_congr_left
      intro q hq
      by_cases hq' : q.1 < n
      · by_cases hqi : (i : ℕ) < q.1
        · simp only [hq', hqi, dif_pos, if_true]
          rw [Function.update_of_ne]
          intro e; rw [← e] at hqi; exact lt_irrefl _ hqi
        · simp [hqi]
      · simp [hq']
    · rw [if_neg h]
      have : (((j, a) :: l).map fun p => p.2 *
          (if h : p.1 < n then (if (i : ℕ) < p.1 then v ⟨p.1, h⟩ else 0) else 0)).sum = 0 := by
        apply List.sum_eq_zero
        intro x hx
        obtain ⟨q, hq, rfl⟩ := List.mem_map.1 hx
        have : ¬ (i : ℕ) < q.1 := by
          rcases List.mem_cons.1 hq with rfl | hq
          · exact h
          · have := h1 q hq; simp only at this; omega
        simp [this]
      rw [this, sub_zero, Function.update_eq_self]

/-- Forward step on row `i`. -/
theorem fwd_row {A : CSR ℝ} {K : Matrix (Fin n) (Fin n) ℝ} (hA : IsCSR n A K) (i : Fin n)
    (v : Fin n → ℝ) :
    (do ilFwd i (← A.rowEntries i) v)
      = some (Function.update v i (v i - ∑ j, if j < i then K i j * v j else 0)) := by
  obtain ⟨row, hr, hs, hb, he⟩ := hA.row i
  rw [hr]
  simp only [Option.bind_eq_bind, Option.bind_some]
  rw [ilFwd_eq i row hs]
  have := row_sum row hs.nodup n hb (fun j => if (j : ℕ) < (i : ℕ) then v j else 0)
  rw [this]
  simp only [he, mul_ite, mul_zero, Fin.lt_def]

/-- Backward step on row `i`. -/
theorem bwd_row {A : CSR ℝ} {K : Matrix (Fin n) (Fin n) ℝ} (hA : IsCSR n A K) (i : Fin n)
    (v : Fin n → ℝ) (hd : K i i ≠ 0) :
    (do
      let v ← ilBwd i (← A.rowEntries i).reverse v
      let d ← sdivide (v i) (← A.get i i)
      return Function.update v i d)
      = some (Function.update v i ((v i - ∑ j, if i < j then K i j * v j else 0) / K i i)) := by
  obtain ⟨row, hr, hs, hb, he⟩ := hA.row i
  rw [hr]
  simp only [Option.bind_eq_bind, Option.bind_some]
  rw [ilBwd_eq i row.reverse (List.pairwise_reverse.2 hs) (fun p hp => hb p (by simpa using hp)),
    hA.entries]
  simp only [Option.bind_some, Function.update_self, sdivide, if_neg hd, Function.update_idem]
  have := row_sum row hs.nodup n hb (fun j => if (i : ℕ) < (j : ℕ) then v j else 0)
  rw [List.map_reverse, List.sum_reverse, this]
  simp only [he, mul_ite, mul_zero, Fin.lt_def]
  rfl

/-! ### SOR -/

theorem sorRow_eq (i : Fin n) (row : List (ℕ × ℝ)) (hs : (row.map Prod.fst).Nodup)
    (hb : ∀ p ∈ row, p.1 < n) (v : Fin n → ℝ) (d : ℝ) :
    sorRow i row (v, d) = some (Function.update v i (v i - (row.map fun p => p.2 *
      (if h : p.1 < n then (if p.1 ≠ (i : ℕ) then v ⟨p.1, h⟩ else 0) else 0)).sum),
      (row.lookup (i : ℕ)).getD d) := by
  induction row generalizing v d with
  | nil => simp [sorRow]
  | cons p l ih =>
    obtain ⟨j, a⟩ := p
    simp only [List.map_cons, List.nodup_cons] at hs
    have hj : j < n := hb (j, a) (by simp)
    unfold sorRow
    by_cases h : (i : ℕ) ≠ j
    · rw [if_pos h, dif_pos hj, ih hs.2 fun p hp => hb p (by simp [hp])]
      rw [Function.update_idem, Function.update_self, lookup_cons', if_neg h]
      simp only [List.map_cons, List.sum_cons, hj, h.symm, dif_pos, ne_eq, not_false_eq_true,
        if_true]
      rw [sub_sub]
      congr 6
      apply List.map_congr_left
      intro q hq
      by_cases hq' : q.1 < n
      · by_cases hqi : q.1 = (i : ℕ)
        · simp [hqi]
        · simp only [hq', hqi, dif_pos, not_false_eq_true, if_true]
          rw [Function.update_of_ne]
          intro e; rw [← e] at hqi; exact hqi rfl
      · simp [hq']
    · rw [if_neg h]
      push Not at h
      rw [ih hs.2 fun p hp => hb p (by simp [hp]), lookup_cons', if_pos h]
      have : l.lookup (i : ℕ) = none := by
        by_contra hcon
        have := Option.isSome_iff_ne_none.2 hcon
        rw [lookup_isSome_iff, h] at this
        exact hs.1 this
      rw [this]
      simp [h]

/-- Update of component `i`. -/
theorem sorComp_eq {A : CSR ℝ} {K : Matrix (Fin n) (Fin n) ℝ} (hA : IsCSR n A K) (b : Fin n → ℝ)
    (w : ℝ) (x : Fin n → ℝ) (e : Option ℝ) (i : Fin n) (hd : K i i ≠ 0) :
    ∃ e', sorComp A b w (x, e) i = some (Function.update x i
      (x i + w * ((b i - ∑ j, if j ≠ i then K i j * x j else 0) / K i i - x i)), e') := by
  obtain ⟨row, hr, hs, hb, he⟩ := hA.row i
  unfold sorComp
  rw [hr]
  simp only [Option.bind_eq_bind, Option.bind_some]
  rw [sorRow_eq i row hs.nodup hb]
  simp only [Option.bind_some, Function.update_self, Function.update_idem, he]
  have := row_sum row hs.nodup n hb
    (fun j => if (j : ℕ) ≠ (i : ℕ) then (Function.update x i (b i)) j else 0)
  rw [this]
  simp only [sdivide, if_neg hd, Option.bind_some, he]
  have e2 : (∑ j : Fin n, K i j * if (j : ℕ) ≠ (i : ℕ) then Function.update x i (b i) j else 0)
      = ∑ j, if j ≠ i then K i j * x j else 0 := by
    apply Finset.sum_congr rfl
    intro j _
    by_cases hj : j = i
    · simp [hj]
    · have : (j : ℕ) ≠ (i : ℕ) := fun h => hj (Fin.ext h)
      simp [hj, this]
  rw [e2]
  exact ⟨_, rfl⟩

/-- A sweep fails on a zero diagonal. -/
theorem sorComp_zero {A : CSR ℝ} {K : Matrix (Fin n) (Fin n) ℝ} (hA : IsCSR n A K) (b : Fin n → ℝ)
    (w : ℝ) (s : (Fin n → ℝ) × Option ℝ) (i : Fin n) (hd : K i i = 0) :
    sorComp A b w s i = none := by
  obtain ⟨row, hr, hs, hb, he⟩ := hA.row i
  unfold sorComp
  rw [hr]
  simp only [Option.bind_eq_bind, Option.bind_some]
  rw [sorRow_eq i row hs.nodup hb]
  simp only [Option.bind_some, he, sdivide, if_pos hd, Option.bind_none]

end Pansfem
