/-
Helper lemmas for `ILU0`.
-/
import Verif.Model.ILU
import Verif.Lemmas.Sweeps

namespace Pansfem

open Finset

/-- The stored entries of a square matrix as the loops of `ILU0` see them. -/
structure RowsOf (n : ℕ) (A : CSR ℝ) (a : ℕ → ℕ → Option ℝ) : Prop where
  rows : A.rows = n
  has : ∀ i < n, ∀ j, csrHas A i j = some (a i j).isSome
  row : ∀ i < n, ∃ row, A.rowEntries i = some row ∧ RowSorted row ∧ (∀ j, row.lookup j = a i j)
  lil : ∃ q, LIL.ofCSR A = some q ∧ LIL.Holds n q a

theorem rowsOf_of_holds {n cols : ℕ} {A : CSR ℝ} {a : ℕ → ℕ → Option ℝ}
    (h : CSR.Holds n cols A a) : RowsOf n A a := by
  obtain ⟨R, rfl, hr, hs, hf⟩ := h
  have hl : LIL.ofCSR (csrOf cols R) = some ⟨R.length, cols, R⟩ := by
    unfold LIL.ofCSR
    have : (List.range (csrOf cols R).rows).mapM (csrOf cols R).rowEntries = some R := by
      rw [show (csrOf cols R).rows = R.length from rfl,
        range_mapM (g := fun i : Fin R.length => R[(i : ℕ)])]
      · congr 1; exact List.ofFn_getElem
      · intro i; exact csr_rowEntries cols R i i.2
    rw [this]; rfl
  refine ⟨hr, ?_, ?_, _, hl, ⟨rfl, fun row hrow => (hs row hrow).nodup⟩, hr, ?_⟩
  · intro i hi j
    have hi' : i < R.length := by omega
    have hsi := hs _ (List.getElem_mem hi')
    obtain ⟨r1, r2, hrr, h1, h2, hl⟩ := csr_locate cols R i j hi' hsi
    have hfl := flatten_split R i hi'
    rw [← hf i hi' j]
    unfold csrHas
    rw [hl]
    simp only [Option.bind_eq_bind, Option.bind_some]
    cases r2 with
    | nil =>
      rw [if_pos (by rw [hrr]; simp)]
      have : ¬ (R[i].lookup j).isSome := by
        rw [lookup_isSome_iff, hrr]
        simp only [List.append_nil, List.mem_map, not_exists, not_and]
        intro p hp e
        exact absurd (h1 p hp) (by omega)
      simp only [Option.pure_def, Option.some.injEq]
      exact (Bool.eq_false_iff.2 this).symm
    | cons e t =>
      obtain ⟨c, v⟩ := e
      rw [if_neg (by rw [hrr]; simp)]
      have hx : R.flatten
          = ((R.take i).flatten ++ r1) ++ ((c, v) :: (t ++ (R.drop (i + 1)).flatten)) := by
        rw [hfl, hrr]; simp
      have hidx : (csrOf cols R).indices[(R.take i).flatten.length + r1.length]? = some c := by
        unfold csrOf
        simp only
        rw [hx, List.getElem?_map, List.getElem?_append_right (by simp)]
        simp
      rw [hidx]
      simp only [Option.bind_some, Option.pure_def, Option.some.injEq]
      have hc : j ≤ c := h2 (c, v) (by simp)
      have hs2 : RowSorted ((c, v) :: t) := by
        have := hrr ▸ hsi
        exact (List.pairwise_append.1 this).2.1
      rw [Bool.eq_iff_iff, lookup_isSome_iff, hrr]
      simp only [Bool.not_eq_true', decide_eq_false_iff_not, not_lt, List.map_append,
        List.map_cons, List.mem_append, List.mem_cons, List.mem_map]
      constructor
      · intro h; right; left; omega
      · rintro (⟨p, hp, e⟩ | e | ⟨p, hp, e⟩)
        · exact absurd (h1 p hp) (by omega)
        · omega
        · have := (List.pairwise_cons.1 hs2).1 p hp
          simp only at this; omega
  · intro i hi
    have hi' : i < R.length := by omega
    exact ⟨R[i], csr_rowEntries cols R i hi', hs _ (List.getElem_mem hi'), hf i hi'⟩
  · intro i hi
    have hi' : i < R.length := by omega
    exact ⟨R[i], List.getElem?_eq_getElem hi', hf i hi'⟩

section
variable {n : ℕ} {A : CSR ℝ} {a : ℕ → ℕ → Option ℝ} (hA : RowsOf n A a)
include hA

/-- Value of an entry, zero when it is not stored. -/
abbrev val (f : ℕ → ℕ → Option ℝ) (i j : ℕ) : ℝ := (f i j).getD 0

/-- Past `min i j` the loop changes nothing. -/
theorem iluInner_tail (q : LIL ℝ) {i j : ℕ} (hi : i < n) (m k : ℕ) (hm : k + m = n)
    (hk : min i j ≤ k) (v : ℝ) : iluInner A q i j m k v = some v := by
  induction m generalizing k with
  | zero => rfl
  | succ m ih =>
    unfold iluInner
    rw [hA.has i hi, hA.has k (by omega)]
    simp only [Option.bind_eq_bind, Option.bind_some]
    by_cases h1 : (a i k).isSome
    · rw [if_pos h1]
      by_cases h2 : (a k j).isSome
      · rw [if_pos h2, if_neg (by omega)]; rfl
      · rw [if_neg h2]; exact ih _ (by omega) (by omega)
    · rw [if_neg h1]; exact ih _ (by omega) (by omega)

theorem iluInner_eq {q : LIL ℝ} {f : ℕ → ℕ → Option ℝ} (hq : LIL.Holds n q f)
    (hp : ∀ i < n, ∀ j, (f i j).isSome = (a i j).isSome) {i j : ℕ} (hi : i < n) (m k : ℕ)
    (hm : k + m = n) (hk : k ≤ min i j) (v : ℝ) :
    iluInner A q i j m k v = some (v - ∑ l ∈ Ico k (min i j), val f i l * val f l j) := by
  induction m generalizing k v with
  | zero => omega
  | succ m ih =>
    rcases Nat.lt_or_ge k (min i j) with hlt | hge
    · have hkn : k < n := by omega
      unfold iluInner
      rw [hA.has i hi, hA.has k hkn]
      simp only [Option.bind_eq_bind, Option.bind_some]
      rw [Finset.sum_eq_sum_Ico_succ_bot hlt]
      by_cases h1 : (a i k).isSome
      · rw [if_pos h1]
        by_cases h2 : (a k j).isSome
        · rw [if_pos h2, if_pos (by omega), LIL.holds_get hq i k hi, LIL.holds_get hq k j hkn]
          simp only [Option.bind_some]
          rw [ih (k + 1) (by omega) (by omega), sub_sub]
        · rw [if_neg h2, ih (k + 1) (by omega) (by omega)]
          have : f k j = none := by
            rw [← Option.not_isSome_iff_eq_none, hp k hkn]; exact h2
          simp [val, this]
      · rw [if_neg h1, ih (k + 1) (by omega) (by omega)]
        have : f i k = none := by
          rw [← Option.not_isSome_iff_eq_none, hp i hi]; exact h1
        simp [val, this]
    · rw [iluInner_tail hA q hi _ _ hm hge, Finset.Ico_eq_empty (by omega)]
      simp

/-- The equation of incomplete factorisation at one position. -/
def IluEq (a f : ℕ → ℕ → Option ℝ) (i j : ℕ) : Prop :=
  (∑ l ∈ range (min i j), val f i l * val f l j)
    + (if j < i then val f i j * val f j j else val f i j) = val a i j

omit hA in
/-- Writing at a position later in the order of computation keeps an equation. -/
theorem IluEq.of_later {f : ℕ → ℕ → Option ℝ} {i j i' j' : ℕ} (h : IluEq a f i' j') (x : ℝ)
    (hlt : i' < i ∨ (i' = i ∧ j' < j)) :
    IluEq a (fun u v => if i = u ∧ j = v then some x else f u v) i' j' := by
  unfold IluEq at *
  rw [← h]
  have e : ∀ u v, (u < i ∨ (u = i ∧ v < j)) →
      val (fun u v => if i = u ∧ j = v then some x else f u v) u v = val f u v := by
    intro u v huv
    simp only [val]
    rw [if_neg (by omega)]
  congr 1
  · apply Finset.sum_congr rfl
    intro l hl
    have := Finset.mem_range.1 hl
    rw [e i' l (by omega), e l j' (by omega)]
  · rw [e i' j' hlt]
    by_cases hj : j' < i'
    · rw [if_pos hj, if_pos hj, e j' j' (by omega)]
    · rw [if_neg hj, if_neg hj]

/-- One entry is computed. -/
theorem iluEntry_spec {q : LIL ℝ} {f : ℕ → ℕ → Option ℝ} (hq : LIL.Holds n q f)
    (hp : ∀ i < n, ∀ j, (f i j).isSome = (a i j).isSome) {i j : ℕ} (hi : i < n) {x : ℝ}
    (hx : a i j = some x) {q' : LIL ℝ} (h : iluEntry A i q (j, x) = some q') :
    ∃ y, LIL.Holds n q' (fun u v => if i = u ∧ j = v then some y else f u v) ∧
      IluEq a (fun u v => if i = u ∧ j = v then some y else f u v) i j := by
  unfold iluEntry at h
  simp only [hA.rows] at h
  rw [iluInner_eq hA hq hp hi n 0 (by omega) (by omega)] at h
  simp only [Option.bind_eq_bind, Option.bind_some, Option.bind_eq_some_iff] at h
  obtain ⟨y, hy, ⟨q'', fl⟩, hset, hres⟩ := h
  obtain ⟨m', hm', hH⟩ := LIL.holds_set n q f i j y hq hi
  rw [hm'] at hset
  obtain ⟨rfl, rfl⟩ := Prod.mk.inj (Option.some.inj hset)
  obtain rfl := Option.some.inj hres
  refine ⟨y, hH, ?_⟩
  have e : ∀ u v, (u < i ∨ (u = i ∧ v < j)) →
      val (fun u v => if i = u ∧ j = v then some y else f u v) u v = val f u v := by
    intro u v huv
    simp only [val]
    rw [if_neg (by omega)]
  have es : val (fun u v => if i = u ∧ j = v then some y else f u v) i j = y := by simp [val]
  unfold IluEq
  rw [Finset.sum_congr rfl (g := fun l => val f i l * val f l j)]
  · rw [es]
    rw [show val a i j = x by simp [val, hx]]
    rw [Nat.Ico_zero_eq_range] at hy
    unfold iluDiv at hy
    by_cases hj : j < i
    · rw [if_pos hj] at hy ⊢
      rw [e j j (by omega)]
      rw [LIL.holds_get hq j j (by omega)] at hy
      simp only [Option.bind_eq_bind, Option.bind_some, sdivide] at hy
      split at hy
      · cases hy
      · rename_i hne
        rw [← Option.some.inj hy]
        field_simp
        ring
    · rw [if_neg hj] at hy ⊢
      rw [← Option.some.inj hy]
      ring
  · intro l hl
    have := Finset.mem_range.1 hl
    rw [e i l (by omega), e l j (by omega)]

/-- Invariant of the loops: the pattern is that of `A` and the equations hold at the stored
positions already computed. -/
def IluInv (n : ℕ) (a : ℕ → ℕ → Option ℝ) (done : ℕ → ℕ → Prop) (q : LIL ℝ) : Prop :=
  ∃ f, LIL.Holds n q f ∧ (∀ i < n, ∀ j, (f i j).isSome = (a i j).isSome) ∧
    ∀ i < n, ∀ j, (a i j).isSome → done i j → IluEq a f i j

theorem iluRow_inv {i : ℕ} (hi : i < n) (row : List (ℕ × ℝ)) (hs : RowSorted row)
    (hrow : ∀ p ∈ row, a i p.1 = some p.2) (done : ℕ → Prop)
    (hdone : ∀ p ∈ row, ∀ j, done j → j < p.1) {q q' : LIL ℝ}
    (hinv : IluInv n a (fun i' j' => i' < i ∨ (i' = i ∧ done j')) q)
    (h : row.foldlM (iluEntry A i) q = some q') :
    IluInv n a (fun i' j' => i' < i ∨ (i' = i ∧ (done j' ∨ ∃ p ∈ row, p.1 = j'))) q' := by
  induction row generalizing q done with
  | nil =>
    obtain rfl := Option.some.inj h
    simpa using hinv
  | cons p l ih =>
    obtain ⟨j, x⟩ := p
    obtain ⟨h1, h2⟩ := List.pairwise_cons.1 hs
    rw [List.foldlM_cons] at h
    obtain ⟨q1, hq1, h⟩ := Option.bind_eq_some_iff.1 h
    obtain ⟨f, hf, hp, he⟩ := hinv
    have hx := hrow (j, x) (by simp)
    obtain ⟨y, hy, hey⟩ := iluEntry_spec hA hf hp hi hx hq1
    have := ih h2 (fun p hp => hrow p (by simp [hp])) (fun j' => done j' ∨ j' = j)
      (by
        intro p hp j' hj'
        rcases hj' with hj' | rfl
        · exact hdone p (by simp [hp]) j' hj'
        · exact h1 p hp)
      (q := q1) ⟨_, hy, by
        intro u hu v
        by_cases huv : i = u ∧ j = v
        · obtain ⟨rfl, rfl⟩ := huv
          simp [hx]
        · rw [if_neg huv]; exact hp u hu v, by
        intro u hu v hst hd
        rcases hd with hd | ⟨rfl, hd | rfl⟩
        · exact (he u hu v hst (Or.inl hd)).of_later y (Or.inl hd)
        · exact (he u hu v hst (Or.inr ⟨rfl, hd⟩)).of_later y
            (Or.inr ⟨rfl, hdone (j, x) (by simp) v hd⟩)
        · exact hey⟩ h
    obtain ⟨f', hf', hp', he'⟩ := this
    refine ⟨f', hf', hp', ?_⟩
    intro u hu v hst hd
    refine he' u hu v hst ?_
    rcases hd with hd | ⟨rfl, hd | ⟨p, hpm, rfl⟩⟩
    · exact Or.inl hd
    · exact Or.inr ⟨rfl, Or.inl (Or.inl hd)⟩
    · rcases List.mem_cons.1 hpm with rfl | hpm
      · exact Or.inr ⟨rfl, Or.inl (Or.inr rfl)⟩
      · exact Or.inr ⟨rfl, Or.inr ⟨p, hpm, rfl⟩⟩

theorem iluRows_inv (m : ℕ) (hm : m ≤ n) {q q' : LIL ℝ} (hq : LIL.Holds n q a)
    (h : (List.range m).foldlM
      (fun q i => do (← A.rowEntries i).foldlM (iluEntry A i) q) q = some q') :
    IluInv n a (fun i _ => i < m) q' := by
  induction m generalizing q' with
  | zero =>
    obtain rfl := Option.some.inj h
    exact ⟨a, hq, fun _ _ _ => rfl, fun _ _ _ _ h => absurd h (Nat.not_lt_zero _)⟩
  | succ m ih =>
    rw [List.range_succ, List.foldlM_append] at h
    obtain ⟨q1, hq1, h⟩ := Option.bind_eq_some_iff.1 h
    obtain ⟨row, hr, hs, hl⟩ := hA.row m (by omega)
    simp only [List.foldlM_cons, List.foldlM_nil, hr, Option.bind_eq_bind, Option.bind_some] at h
    obtain ⟨q2, hq2, h⟩ := Option.bind_eq_some_iff.1 h
    obtain rfl := Option.some.inj h
    have hmem : ∀ p ∈ row, a m p.1 = some p.2 := by
      intro p hp
      rw [← hl, lookup_eq_some_iff hs.nodup]; exact hp
    have := iluRow_inv hA (show m < n by omega) row hs hmem (fun _ => False)
      (fun _ _ _ h => h.elim) (q := q1) (by
        obtain ⟨f, hf, hp, he⟩ := ih (by omega) hq1
        exact ⟨f, hf, hp, fun u hu v hst hd => he u hu v hst (by
          rcases hd with hd | ⟨-, hd⟩
          · exact hd
          · exact hd.elim)⟩) hq2
    obtain ⟨f, hf, hp, he⟩ := this
    refine ⟨f, hf, hp, fun u hu v hst hd => he u hu v hst ?_⟩
    rcases Nat.lt_succ_iff_lt_or_eq.1 hd with hd | rfl
    · exact Or.inl hd
    · refine Or.inr ⟨rfl, Or.inr ?_⟩
      rw [← hl, lookup_isSome_iff] at hst
      simpa using hst

/-! ### Completeness -/

/-- `Q` is an incomplete factorisation of the stored entries `a`: it lives on the pattern, has no
zero pivot and satisfies the equations on the pattern. -/
structure IsILU (n : ℕ) (a : ℕ → ℕ → Option ℝ) (Q : ℕ → ℕ → ℝ) : Prop where
  pat : ∀ i < n, ∀ j, a i j = none → Q i j = 0
  piv : ∀ i < n, Q i i ≠ 0
  eq : ∀ i < n, ∀ j, (a i j).isSome →
    (∑ l ∈ range (min i j), Q i l * Q l j) + (if j < i then Q i j * Q j j else Q i j) = val a i j

/-- The positions `done` already hold the factorisation `Q`. -/
def IluHas (n : ℕ) (a : ℕ → ℕ → Option ℝ) (Q : ℕ → ℕ → ℝ) (done : ℕ → ℕ → Prop) (q : LIL ℝ) :
    Prop :=
  ∃ f, LIL.Holds n q f ∧ (∀ i < n, ∀ j, (f i j).isSome = (a i j).isSome) ∧
    ∀ i < n, ∀ j, (a i j).isSome → done i j → f i j = some (Q i j)

theorem iluEntry_total {Q : ℕ → ℕ → ℝ} (hQ : IsILU n a Q) {q : LIL ℝ} {f : ℕ → ℕ → Option ℝ}
    (hq : LIL.Holds n q f) (hp : ∀ i < n, ∀ j, (f i j).isSome = (a i j).isSome) {i j : ℕ}
    (hi : i < n) {x : ℝ} (hx : a i j = some x)
    (hd : ∀ u < n, ∀ v, (a u v).isSome → (u < i ∨ (u = i ∧ v < j)) → f u v = some (Q u v)) :
    ∃ q', iluEntry A i q (j, x) = some q' ∧
      LIL.Holds n q' (fun u v => if i = u ∧ j = v then some (Q i j) else f u v) := by
  have e : ∀ u < n, ∀ v, (u < i ∨ (u = i ∧ v < j)) → val f u v = Q u v := by
    intro u hu v huv
    by_cases hs : (a u v).isSome
    · simp [val, hd u hu v hs huv]
    · have : f u v = none := by
        rw [← Option.not_isSome_iff_eq_none, hp u hu]; exact hs
      simp only [val, this, Option.getD_none]
      exact (hQ.pat u hu v (Option.not_isSome_iff_eq_none.1 hs)).symm
  have hsum : (∑ l ∈ Ico 0 (min i j), val f i l * val f l j)
      = ∑ l ∈ range (min i j), Q i l * Q l j := by
    rw [Nat.Ico_zero_eq_range]
    apply Finset.sum_congr rfl
    intro l hl
    have := Finset.mem_range.1 hl
    rw [e i hi l (by omega), e l (by omega) j (by omega)]
  have heq := hQ.eq i hi j (by simp [hx])
  rw [show val a i j = x by simp [val, hx]] at heq
  obtain ⟨m', hm', hH⟩ := LIL.holds_set n q f i j (Q i j) hq hi
  refine ⟨m', ?_, hH⟩
  unfold iluEntry
  simp only [hA.rows]
  rw [iluInner_eq hA hq hp hi n 0 (by omega) (by omega), hsum]
  simp only [Option.bind_eq_bind, Option.bind_some]
  have : iluDiv q i j (x - ∑ l ∈ range (min i j), Q i l * Q l j) = some (Q i j) := by
    unfold iluDiv
    by_cases hj : j < i
    · rw [if_pos hj] at heq ⊢
      have hjj := hQ.piv j (by omega)
      rw [LIL.holds_get hq j j (by omega)]
      have e1 := e j (by omega) j (by omega)
      simp only [val] at e1
      simp only [Option.bind_eq_bind, Option.bind_some, e1, sdivide, if_neg hjj]
      congr 1
      rw [← heq]; field_simp; ring
    · rw [if_neg hj] at heq ⊢
      congr 1
      rw [← heq]; ring
  rw [this]
  simp only [Option.bind_some, hm']
  rfl

theorem iluRow_total {Q : ℕ → ℕ → ℝ} (hQ : IsILU n a Q) {i : ℕ} (hi : i < n)
    (row : List (ℕ × ℝ)) (hs : RowSorted row)
    (hrow : ∀ p ∈ row, a i p.1 = some p.2) (done : ℕ → Prop)
    (hall : ∀ j, (a i j).isSome → done j ∨ ∃ p ∈ row, p.1 = j)
    (hdone : ∀ p ∈ row, ∀ j, done j → j < p.1) {q : LIL ℝ}
    (hinv : IluHas n a Q (fun i' j' => i' < i ∨ (i' = i ∧ done j')) q) :
    ∃ q', row.foldlM (iluEntry A i) q = some q' ∧ IluHas n a Q (fun i' _ => i' < i + 1) q' := by
  induction row generalizing q done with
  | nil =>
    refine ⟨q, rfl, ?_⟩
    obtain ⟨f, hf, hp, he⟩ := hinv
    refine ⟨f, hf, hp, fun u hu v hst hd => he u hu v hst ?_⟩
    rcases Nat.lt_succ_iff_lt_or_eq.1 hd with hd | rfl
    · exact Or.inl hd
    · rcases hall v hst with h | ⟨p, hp, -⟩
      · exact Or.inr ⟨rfl, h⟩
      · simp at hp
  | cons p l ih =>
    obtain ⟨j, x⟩ := p
    obtain ⟨h1, h2⟩ := List.pairwise_cons.1 hs
    obtain ⟨f, hf, hp, he⟩ := hinv
    have hx := hrow (j, x) (by simp)
    obtain ⟨q1, hq1, hH⟩ := iluEntry_total hA hQ hf hp hi hx (by
      intro u hu v hst huv
      refine he u hu v hst ?_
      rcases huv with h | ⟨rfl, h⟩
      · exact Or.inl h
      · refine Or.inr ⟨rfl, ?_⟩
        rcases hall v hst with h' | ⟨p, hpm, rfl⟩
        · exact h'
        · rcases List.mem_cons.1 hpm with rfl | hpm
          · exact absurd h (lt_irrefl _)
          · have := h1 p hpm; simp only at this; omega)
    obtain ⟨q', hq', hres⟩ := ih h2 (fun p hp => hrow p (by simp [hp])) (fun j' => done j' ∨ j' = j)
      (by
        intro v hv
        rcases hall v hv with h | ⟨p, hpm, rfl⟩
        · exact Or.inl (Or.inl h)
        · rcases List.mem_cons.1 hpm with rfl | hpm
          · exact Or.inl (Or.inr rfl)
          · exact Or.inr ⟨p, hpm, rfl⟩)
      (by
        intro p hp j' hj'
        rcases hj' with hj' | rfl
        · exact hdone p (by simp [hp]) j' hj'
        · exact h1 p hp)
      (q := q1) ⟨_, hH, by
        intro u hu v
        by_cases huv : i = u ∧ j = v
        · obtain ⟨rfl, rfl⟩ := huv
          simp [hx]
        · rw [if_neg huv]; exact hp u hu v, by
        intro u hu v hst hd
        by_cases huv : i = u ∧ j = v
        · obtain ⟨rfl, rfl⟩ := huv
          simp
        · rw [if_neg huv]
          refine he u hu v hst ?_
          rcases hd with hd | ⟨rfl, hd | rfl⟩
          · exact Or.inl hd
          · exact Or.inr ⟨rfl, hd⟩
          · exact absurd ⟨rfl, rfl⟩ huv⟩
    refine ⟨q', ?_, hres⟩
    rw [List.foldlM_cons, hq1]
    exact hq'

theorem iluRows_total {Q : ℕ → ℕ → ℝ} (hQ : IsILU n a Q) (m : ℕ) (hm : m ≤ n) {q : LIL ℝ}
    (hq : LIL.Holds n q a) :
    ∃ q', (List.range m).foldlM
      (fun q i => do (← A.rowEntries i).foldlM (iluEntry A i) q) q = some q' ∧
      IluHas n a Q (fun i _ => i < m) q' := by
  induction m with
  | zero =>
    exact ⟨q, rfl, a, hq, fun _ _ _ => rfl, fun _ _ _ _ h => absurd h (Nat.not_lt_zero _)⟩
  | succ m ih =>
    obtain ⟨q1, hq1, f, hf, hp, he⟩ := ih (by omega)
    obtain ⟨row, hr, hs, hl⟩ := hA.row m (by omega)
    have hmem : ∀ p ∈ row, a m p.1 = some p.2 := by
      intro p hp
      rw [← hl, lookup_eq_some_iff hs.nodup]; exact hp
    obtain ⟨q2, hq2, hres⟩ := iluRow_total hA hQ (show m < n by omega) row hs hmem
      (fun _ => False) (by
        intro j hj
        right
        rw [← hl, lookup_isSome_iff] at hj
        simpa using hj) (fun _ _ _ h => h.elim) (q := q1)
      ⟨f, hf, hp, fun u hu v hst hd => he u hu v hst (by
          rcases hd with hd | ⟨-, hd⟩
          · exact hd
          · exact hd.elim)⟩
    refine ⟨q2, ?_, hres⟩
    rw [List.range_succ, List.foldlM_append, hq1]
    simp only [List.foldlM_cons, List.foldlM_nil, hr, Option.bind_eq_bind, Option.bind_some, hq2]
    rfl

end

/-- The object built from the rows of a `LILCSR` holds the same entries. -/
theorem ofLIL_holds {n : ℕ} {q : LIL ℝ} {f : ℕ → ℕ → Option ℝ} (h : LIL.Holds n q f) :
    ∃ F l, CSR.ofLIL q = some (F, l) ∧ CSR.Holds n q.cols F f := by
  obtain ⟨⟨hl, hn⟩, hr, hf⟩ := h
  refine ⟨_, _, ofLIL_eq q hl, q.data.map sortRow, rfl, by simp [hl, hr], ?_, ?_⟩
  · intro row hrow
    obtain ⟨r0, hr0, rfl⟩ := List.mem_map.1 hrow
    exact sortRow_sorted (hn r0 hr0)
  · intro i hi j
    simp only [List.length_map] at hi
    obtain ⟨row, hrow, hlk⟩ := hf i (by omega)
    rw [List.getElem?_eq_getElem hi] at hrow
    rw [List.getElem_map, Option.some.inj hrow]
    have hmem : row ∈ q.data := Option.some.inj hrow ▸ List.getElem_mem hi
    rw [lookup_perm (sortRow_perm row) (((sortRow_perm row).map Prod.fst).nodup_iff.2 (hn row hmem)),
      hlk]

end Pansfem
