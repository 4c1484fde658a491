/-
C15: `PreILU0` solves with the two triangular factors stored in one matrix.
C16: `ILU0` factorises on the pattern.
C17: fixed points of the `SOR` sweep.
-/
import Verif.Lemmas.ILU
import Verif.Lemmas.KrylovExamples
import Mathlib.LinearAlgebra.Matrix.Notation
import Mathlib.Tactic.NormNum

namespace Pansfem

variable {n : ℕ}

/-- The unit lower triangular factor stored below the diagonal of `Q`. -/
def lowOf (Q : Matrix (Fin n) (Fin n) ℝ) : Matrix (Fin n) (Fin n) ℝ :=
  Matrix.of fun i j => if j < i then Q i j else if i = j then 1 else 0

/-- The upper triangular factor stored on and above the diagonal of `Q`. -/
def upOf (Q : Matrix (Fin n) (Fin n) ℝ) : Matrix (Fin n) (Fin n) ℝ :=
  Matrix.of fun i j => if i ≤ j then Q i j else 0

theorem lowOf_mulVec (Q : Matrix (Fin n) (Fin n) ℝ) (v : Fin n → ℝ) (i : Fin n) :
    (lowOf Q).mulVec v i = v i + ∑ j, if j < i then Q i j * v j else 0 := by
  unfold Matrix.mulVec dotProduct lowOf
  simp only [Matrix.of_apply]
  have : ∀ j, (if j < i then Q i j else if i = j then (1 : ℝ) else 0) * v j
      = (if i = j then v j else 0) + (if j < i then Q i j * v j else 0) := by
    intro j
    by_cases h : j < i
    · simp [h, h.ne']
    · by_cases h' : i = j <;> simp [h, h']
  simp only [this, Finset.sum_add_distrib, Finset.sum_ite_eq, Finset.mem_univ, if_true]

theorem upOf_mulVec (Q : Matrix (Fin n) (Fin n) ℝ) (v : Fin n → ℝ) (i : Fin n) :
    (upOf Q).mulVec v i = Q i i * v i + ∑ j, if i < j then Q i j * v j else 0 := by
  unfold Matrix.mulVec dotProduct upOf
  simp only [Matrix.of_apply]
  have : ∀ j, (if i ≤ j then Q i j else 0) * v j
      = (if i = j then Q i j * v j else 0) + (if i < j then Q i j * v j else 0) := by
    intro j
    by_cases h : i < j
    · simp [h, h.le, h.ne]
    · by_cases h' : i = j
      · simp [h']
      · have : ¬ i ≤ j := fun e => h (lt_of_le_of_ne e h')
        simp [h, h', this]
  simp only [this, Finset.sum_add_distrib, Finset.sum_ite_eq, Finset.mem_univ, if_true]

/-! ### C15 -/

/-- **C15**: for any sparse matrix with no zero on the diagonal, `PreILU0(M, b)` succeeds and the
result `x` satisfies `L (U x) = b`. -/
theorem C15_solve (M : CSR ℝ) (Q : Matrix (Fin n) (Fin n) ℝ) (hM : IsCSR n M Q)
    (hd : ∀ i, Q i i ≠ 0) (b : Fin n → ℝ) :
    ∃ x, preILU0 M b = some x ∧ (lowOf Q * upOf Q).mulVec x = b := by
  obtain ⟨y, hy, hP⟩ := finRange_total
    (fun (v : Fin n → ℝ) (i : Fin n) => do ilFwd i (← M.rowEntries i) v)
    (fun k v => (∀ i : Fin n, (i : ℕ) < k → (lowOf Q).mulVec v i = b i) ∧
      ∀ i : Fin n, k ≤ (i : ℕ) → v i = b i) b
    ⟨fun i h => absurd h (Nat.not_lt_zero _), fun _ _ => rfl⟩
    (by
      intro i v ⟨h1, h2⟩
      refine ⟨_, fwd_row hM i v, ?_, ?_⟩
      · intro l hl
        rw [lowOf_mulVec]
        rcases Nat.lt_succ_iff_lt_or_eq.1 hl with hl | hl
        · have hli : l ≠ i := fun e => by rw [e] at hl; exact lt_irrefl _ hl
          rw [Function.update_of_ne hli, ← h1 l hl, lowOf_mulVec]
          congr 1
          apply Finset.sum_congr rfl
          intro j _
          by_cases hj : j < l
          · rw [if_pos hj, if_pos hj, Function.update_of_ne]
            rintro rfl
            exact absurd (Fin.lt_def.1 hj) (by omega)
          · rw [if_neg hj, if_neg hj]
        · obtain rfl := Fin.ext hl
          rw [Function.update_self, ← h2 l le_rfl]
          have : (∑ j, if j < l then Q l j * Function.update v l
              (v l - ∑ j, if j < l then Q l j * v j else 0) j else 0)
              = ∑ j, if j < l then Q l j * v j else 0 := by
            apply Finset.sum_congr rfl
            intro j _
            by_cases hj : j < l
            · rw [if_pos hj, if_pos hj, Function.update_of_ne hj.ne]
            · rw [if_neg hj, if_neg hj]
          rw [this]; ring
      · intro l hl
        rw [Function.update_of_ne, h2 l (by omega)]
        rintro rfl; omega)
  obtain ⟨x, hx, hR⟩ := finRange_down
    (fun (v : Fin n → ℝ) (i : Fin n) => do
      let v ← ilBwd i (← M.rowEntries i).reverse v
      let d ← sdivide (v i) (← M.get i i)
      return Function.update v i d)
    (fun k v => (∀ i : Fin n, k ≤ (i : ℕ) → (upOf Q).mulVec v i = y i) ∧
      ∀ i : Fin n, (i : ℕ) < k → v i = y i) y
    ⟨fun i h => absurd i.2 (by omega), fun _ _ => rfl⟩
    (by
      intro i v ⟨h1, h2⟩
      refine ⟨_, bwd_row hM i v (hd i), ?_, ?_⟩
      · intro l hl
        rw [upOf_mulVec]
        rcases Nat.eq_or_lt_of_le hl with hl | hl
        · obtain rfl := Fin.ext hl
          rw [Function.update_self, ← h2 i (by omega)]
          have : (∑ j, if i < j then Q i j * Function.update v i
              ((v i - ∑ j, if i < j then Q i j * v j else 0) / Q i i) j else 0)
              = ∑ j, if i < j then Q i j * v j else 0 := by
            apply Finset.sum_congr rfl
            intro j _
            by_cases hj : i < j
            · rw [if_pos hj, if_pos hj, Function.update_of_ne hj.ne']
            · rw [if_neg hj, if_neg hj]
          rw [this]
          have := hd i
          field_simp; ring
        · have hli : l ≠ i := fun e => by rw [e] at hl; exact lt_irrefl _ hl
          rw [Function.update_of_ne hli, ← h1 l (by omega), upOf_mulVec]
          congr 1
          apply Finset.sum_congr rfl
          intro j _
          by_cases hj : l < j
          · rw [if_pos hj, if_pos hj, Function.update_of_ne]
            rintro rfl
            exact absurd (Fin.lt_def.1 hj) (by omega)
          · rw [if_neg hj, if_neg hj]
      · intro l hl
        rw [Function.update_of_ne, h2 l (by omega)]
        rintro rfl; omega)
  refine ⟨x, ?_, ?_⟩
  · unfold preILU0
    rw [hy]
    exact hx
  · rw [← Matrix.mulVec_mulVec]
    have : (upOf Q).mulVec x = y := funext fun i => hR.1 i (Nat.zero_le _)
    rw [this]
    exact funext fun i => hP.1 i i.2

example : ∃ x, preILU0 (fullCSR !![2, 1; 3, 4]) ![1, 5] = some x ∧
    (lowOf !![2, 1; 3, 4] * upOf !![2, 1; 3, 4]).mulVec x = ![1, 5] :=
  C15_solve _ _ (fullCSR_isCSR _) (by intro i; fin_cases i <;> simp) _

/-! ### C16 -/

/-- Position `(i, j)` is stored in `A`. -/
def Stored (A : CSR ℝ) (i j : ℕ) : Prop :=
  ∃ row, A.rowEntries i = some row ∧ j ∈ row.map Prod.fst

theorem lowOf_mul_upOf (Q : ℕ → ℕ → ℝ) (i j : Fin n) :
    (lowOf (Matrix.of fun i j : Fin n => Q i j) * upOf (Matrix.of fun i j : Fin n => Q i j)) i j
      = (∑ l ∈ Finset.range (min i j), Q i l * Q l j)
        + (if (j : ℕ) < i then Q i j * Q j j else Q i j) := by
  rw [Matrix.mul_apply]
  set t : ℕ → ℝ := fun k => (if k < (i : ℕ) then Q i k else if (i : ℕ) = k then 1 else 0)
    * (if k ≤ (j : ℕ) then Q k j else 0) with ht
  have e1 : ∀ k : Fin n, lowOf (Matrix.of fun i j : Fin n => Q i j) i k
      * upOf (Matrix.of fun i j : Fin n => Q i j) k j = t k := by
    intro k
    simp only [lowOf, upOf, Matrix.of_apply, ht, Fin.lt_def, Fin.le_def, Fin.ext_iff]
  simp only [e1]
  rw [Fin.sum_univ_eq_sum_range t n]
  have e2 : ∑ k ∈ Finset.range n, t k = ∑ k ∈ Finset.range (min (i : ℕ) j + 1), t k := by
    symm
    apply Finset.sum_subset
    · intro k hk
      have := Finset.mem_range.1 hk
      have := i.2
      exact Finset.mem_range.2 (by omega)
    · intro k hk hk'
      have h1 : min (i : ℕ) j < k := by
        by_contra h; exact hk' (Finset.mem_range.2 (by omega))
      simp only [ht]
      by_cases h2 : (j : ℕ) < k
      · rw [if_neg (by omega : ¬ k ≤ (j : ℕ)), mul_zero]
      · rw [if_neg (by omega), if_neg (by omega), zero_mul]
  rw [e2, Finset.sum_range_succ]
  congr 1
  · apply Finset.sum_congr rfl
    intro k hk
    have := Finset.mem_range.1 hk
    simp only [ht]
    rw [if_pos (by omega), if_pos (by omega)]
  · simp only [ht]
    by_cases h : (j : ℕ) < i
    · rw [if_pos h, min_eq_right h.le, if_pos h, if_pos le_rfl]
    · rw [if_neg h, min_eq_left (by omega), if_neg (lt_irrefl _), if_pos rfl,
        if_pos (by omega), one_mul]

theorem Stored_iff {A : CSR ℝ} {a : ℕ → ℕ → Option ℝ} (hA : RowsOf n A a) {i j : ℕ} (hi : i < n) :
    Stored A i j ↔ (a i j).isSome := by
  obtain ⟨row, hr, hs, hl⟩ := hA.row i hi
  rw [← hl, lookup_isSome_iff]
  constructor
  · rintro ⟨row', hr', h⟩
    rw [hr] at hr'
    rwa [Option.some.inj hr']
  · intro h; exact ⟨row, hr, h⟩

/-- Reading `IsCSR` off the stored entries. -/
theorem isCSR_of_holds {F : CSR ℝ} {f : ℕ → ℕ → Option ℝ} (h : CSR.Holds n n F f)
    (hb : ∀ i < n, ∀ j, (f i j).isSome → j < n) :
    IsCSR n F (Matrix.of fun i j : Fin n => val f i j) := by
  obtain ⟨hw, hr, hc⟩ := h.wf
  refine ⟨hw, ?_, hr, hc, ?_⟩
  · intro j hj
    rw [hc]
    obtain ⟨R, rfl, hl, hs, hf⟩ := h
    simp only [csrOf, List.mem_map, List.mem_flatten] at hj
    obtain ⟨p, ⟨row, hrow, hp⟩, rfl⟩ := hj
    obtain ⟨i, hi, rfl⟩ := List.getElem_of_mem hrow
    apply hb i (by omega)
    rw [← hf i hi, lookup_isSome_iff]
    exact List.mem_map_of_mem hp
  · intro i j
    exact CSR.holds_get h i j i.2

theorem isCSR_holds {A : CSR ℝ} {K : Matrix (Fin n) (Fin n) ℝ} (hA : IsCSR n A K) :
    ∃ a, CSR.Holds n n A a ∧ (∀ i < n, ∀ j, (a i j).isSome → j < n) ∧
      ∀ i j : Fin n, val a i j = K i j := by
  obtain ⟨a, ha⟩ := CSR.holds_of_wf hA.wf
  rw [hA.rows, hA.cols] at ha
  refine ⟨a, ha, ?_, ?_⟩
  · intro i hi j hj
    have h1 := rowsOf_of_holds ha
    obtain ⟨row, hr, hs, hb, -⟩ := hA.row ⟨i, hi⟩
    obtain ⟨row', hr', hl⟩ := (Stored_iff h1 hi).2 hj
    rw [hr] at hr'
    rw [← Option.some.inj hr'] at hl
    obtain ⟨p, hp, rfl⟩ := List.mem_map.1 hl
    exact hb p hp
  · intro i j
    have := hA.entries i j
    rw [CSR.holds_get ha i j i.2] at this
    exact Option.some.inj this

/-- **C16**: whenever `ILU0(A)` finishes without dividing by zero, the result `F` stores exactly the
positions stored in `A`, and the product of its unit lower and upper factors agrees with `A` at
every stored position. -/
theorem C16_factorisation (A F : CSR ℝ) (K : Matrix (Fin n) (Fin n) ℝ) (hA : IsCSR n A K)
    (h : ilu0 A = some F) :
    ∃ Q, IsCSR n F Q ∧ (∀ i j : Fin n, Stored F i j ↔ Stored A i j) ∧
      ∀ i j : Fin n, Stored A i j → (lowOf Q * upOf Q) i j = K i j := by
  obtain ⟨a, ha, hb, hK⟩ := isCSR_holds hA
  have hR := rowsOf_of_holds ha
  obtain ⟨q0, hq0, hH⟩ := hR.lil
  unfold ilu0 at h
  simp only [hq0, hR.rows, Option.bind_eq_bind, Option.bind_some, Option.bind_eq_some_iff] at h
  obtain ⟨q, hq, ⟨F', l⟩, hF, h⟩ := h
  obtain rfl := Option.some.inj h
  obtain ⟨f, hf, hp, he⟩ := iluRows_inv hR n le_rfl hH hq
  obtain ⟨F2, l2, h2, hF2⟩ := ofLIL_holds hf
  rw [hF] at h2
  obtain ⟨rfl, rfl⟩ := Prod.mk.inj (Option.some.inj h2)
  have hcols : q.cols = n := by
    have hset : ∀ (q q' : LIL ℝ) i p, iluEntry A i q p = some q' → q'.cols = q.cols := by
      intro q q' i p hh
      unfold iluEntry at hh
      simp only [Option.bind_eq_bind, Option.bind_eq_some_iff] at hh
      obtain ⟨-, -, y, -, ⟨q2, fl⟩, hs, hh⟩ := hh
      obtain rfl := Option.some.inj hh
      unfold LIL.set at hs
      simp only [Option.bind_eq_bind, Option.bind_eq_some_iff] at hs
      obtain ⟨row, -, hs⟩ := hs
      have := Option.some.inj hs
      rw [← (Prod.mk.inj this).1]
    have hrow : ∀ (row : List (ℕ × ℝ)) i (q q' : LIL ℝ),
        row.foldlM (iluEntry A i) q = some q' → q'.cols = q.cols := by
      intro row i
      induction row with
      | nil => intro q q' hh; rw [← Option.some.inj hh]
      | cons p l ih =>
        intro q q' hh
        rw [List.foldlM_cons] at hh
        obtain ⟨q1, h1, hh⟩ := Option.bind_eq_some_iff.1 hh
        rw [ih q1 q' hh, hset _ _ _ _ h1]
    have hrows : ∀ (L : List ℕ) (q q' : LIL ℝ), L.foldlM
        (fun q i => do (← A.rowEntries i).foldlM (iluEntry A i) q) q = some q' →
        q'.cols = q.cols := by
      intro L
      induction L with
      | nil => intro q q' hh; rw [← Option.some.inj hh]
      | cons i L ih =>
        intro q q' hh
        rw [List.foldlM_cons] at hh
        obtain ⟨q1, h1, hh⟩ := Option.bind_eq_some_iff.1 hh
        obtain ⟨row, -, h1⟩ := Option.bind_eq_some_iff.1 h1
        rw [ih q1 q' hh, hrow _ _ _ _ h1]
    rw [hrows _ _ _ hq]
    unfold LIL.ofCSR at hq0
    obtain ⟨R, -, hq0⟩ := Option.bind_eq_some_iff.1 hq0
    rw [← Option.some.inj hq0]
    exact hA.cols
  rw [hcols] at hF2
  have hRF := rowsOf_of_holds hF2
  refine ⟨_, isCSR_of_holds hF2 fun i hi j hj => hb i hi j (by rwa [← hp i hi j]), ?_, ?_⟩
  · intro i j
    rw [Stored_iff hRF i.2, Stored_iff hR i.2, hp i i.2]
  · intro i j hst
    rw [Stored_iff hR i.2] at hst
    rw [lowOf_mul_upOf (val f), he i i.2 j hst i.2, hK]

/-- **C16**, completeness: if some matrix `Q` on the pattern of `A`, without zero pivots, factorises
`A` on that pattern, then `ILU0(A)` succeeds and returns exactly `Q`; in particular such a `Q` is
unique. -/
theorem C16_complete (A : CSR ℝ) (K Q : Matrix (Fin n) (Fin n) ℝ) (hA : IsCSR n A K)
    (hpat : ∀ i j : Fin n, ¬ Stored A i j → Q i j = 0) (hpiv : ∀ i, Q i i ≠ 0)
    (hlu : ∀ i j : Fin n, Stored A i j → (lowOf Q * upOf Q) i j = K i j) :
    ∃ F, ilu0 A = some F ∧ ∀ i j : Fin n, F.get i j = some (Q i j) := by
  obtain ⟨a, ha, hb, hK⟩ := isCSR_holds hA
  have hR := rowsOf_of_holds ha
  obtain ⟨q0, hq0, hH⟩ := hR.lil
  set Qn : ℕ → ℕ → ℝ := fun i j =>
    if hi : i < n then if hj : j < n then Q ⟨i, hi⟩ ⟨j, hj⟩ else 0 else 0 with hQn
  have hQe : (Matrix.of fun i j : Fin n => Qn i j) = Q := by
    ext i j; simp [hQn]
  have hI : IsILU n a Qn := by
    refine ⟨?_, ?_, ?_⟩
    · intro i hi j hn
      simp only [hQn, hi, dif_pos]
      by_cases hj : j < n
      · rw [dif_pos hj]
        apply hpat ⟨i, hi⟩ ⟨j, hj⟩
        rw [Stored_iff hR hi, hn]; simp
      · rw [dif_neg hj]
    · intro i hi
      simp only [hQn, hi, dif_pos]
      exact hpiv ⟨i, hi⟩
    · intro i hi j hs
      have hj := hb i hi j hs
      have h1 := hlu ⟨i, hi⟩ ⟨j, hj⟩ ((Stored_iff hR hi).2 hs)
      rw [← hQe, lowOf_mul_upOf Qn] at h1
      rw [← hK ⟨i, hi⟩ ⟨j, hj⟩] at h1
      exact h1
  obtain ⟨q, hq, f, hf, hp, he⟩ := iluRows_total hR hI n le_rfl hH
  obtain ⟨F, l, h2, hF⟩ := ofLIL_holds hf
  refine ⟨F, ?_, ?_⟩
  · unfold ilu0
    rw [hq0, hR.rows]
    change Option.bind ((List.range n).foldlM _ q0) _ = _
    rw [hq]
    simp only [Option.bind_some, h2, Option.bind_eq_bind]
    rfl
  · intro i j
    rw [CSR.holds_get hF i j i.2]
    congr 1
    have : Q i j = Qn i j := by simp [hQn]
    rw [this]
    by_cases hs : (a i j).isSome
    · rw [he i i.2 j hs i.2]; rfl
    · have h1 : f i j = none := by
        rw [← Option.not_isSome_iff_eq_none, hp i i.2]; exact hs
      rw [h1, hI.pat i i.2 j (Option.not_isSome_iff_eq_none.1 hs)]
      rfl

/-- A full two by two matrix: `ILU0` computes its LU factors. -/
example : ∃ F, ilu0 (fullCSR !![2, 1; 4, 5]) = some F ∧
    ∀ i j : Fin 2, F.get i j = some ((!![2, 1; 2, 3] : Matrix (Fin 2) (Fin 2) ℝ) i j) := by
  refine C16_complete _ _ _ (fullCSR_isCSR _) ?_ ?_ ?_
  · intro i j h
    exfalso
    apply h
    obtain ⟨row, hr, -, -, -⟩ := (fullCSR_isCSR !![(2 : ℝ), 1; 4, 5]).row i
    refine ⟨row, hr, ?_⟩
    unfold fullCSR at hr
    rw [csr_rowEntries _ _ _ (by simpa using Nat.lt_succ_iff.1 i.2)] at hr
    rw [← Option.some.inj hr]
    simp only [List.getElem_ofFn, List.map_ofFn, List.mem_ofFn]
    exact ⟨j, rfl⟩
  · intro i; fin_cases i <;> simp
  · intro i j _
    fin_cases i <;> fin_cases j <;>
      simp [Matrix.mul_apply, Fin.sum_univ_two, lowOf, upOf] <;> norm_num

/-! ### C17 -/

/-- **C17**: for a matrix with no zero on the diagonal and a relaxation factor other than zero, a
sweep of `SOR` is defined, and it returns the vector it started from if and only if that vector
solves the system. -/
theorem C17_fixed_point (A : CSR ℝ) (K : Matrix (Fin n) (Fin n) ℝ) (hA : IsCSR n A K)
    (hd : ∀ i, K i i ≠ 0) (b : Fin n → ℝ) (w : ℝ) (hw : w ≠ 0) (x : Fin n → ℝ) :
    ∃ x' e, sorSweep A b w x = some (x', e) ∧ (x' = x ↔ K.mulVec x = b) := by
  have key : ∀ (i : Fin n) (z : Fin n → ℝ),
      (z i + w * ((b i - ∑ j, if j ≠ i then K i j * z j else 0) / K i i - z i) = z i)
        ↔ K.mulVec z i = b i := by
    intro i z
    have e : K.mulVec z i = K i i * z i + ∑ j, if j ≠ i then K i j * z j else 0 := by
      unfold Matrix.mulVec dotProduct
      rw [← Finset.add_sum_erase _ _ (Finset.mem_univ i)]
      congr 1
      rw [← Finset.sum_filter]
      apply Finset.sum_congr _ fun _ _ => rfl
      ext j; simp
    rw [e]
    have := hd i
    constructor
    · intro h
      have h1 : w * ((b i - ∑ j, if j ≠ i then K i j * z j else 0) / K i i - z i) = 0 := by
        linarith
      rcases mul_eq_zero.1 h1 with h2 | h2
      · exact absurd h2 hw
      · have h3 : (b i - ∑ j, if j ≠ i then K i j * z j else 0) / K i i = z i := by linarith
        rw [div_eq_iff this] at h3
        linarith
    · intro h
      have : (b i - ∑ j, if j ≠ i then K i j * z j else 0) / K i i = z i := by
        rw [div_eq_iff this]; linarith
      rw [this]; ring
  obtain ⟨⟨x', e⟩, hx, h1, h2⟩ := finRange_total (sorComp A b w)
    (fun k s => (∀ i : Fin n, k ≤ (i : ℕ) → s.1 i = x i) ∧
      ((∀ i : Fin n, (i : ℕ) < k → s.1 i = x i) ↔ ∀ i : Fin n, (i : ℕ) < k → K.mulVec x i = b i))
    (x, some 0) ⟨fun _ _ => rfl, by simp⟩
    (by
      rintro i ⟨z, e⟩ ⟨h1, h2⟩
      obtain ⟨e', he'⟩ := sorComp_eq hA b w z e i (hd i)
      refine ⟨_, he', ?_, ?_⟩
      · intro l hl
        have : l ≠ i := fun e => by rw [e] at hl; omega
        simp only
        rw [Function.update_of_ne this]
        exact h1 l (by omega)
      · simp only at h1 h2 ⊢
        have split : ∀ P : Fin n → Prop, (∀ l : Fin n, (l : ℕ) < i + 1 → P l)
            ↔ (∀ l : Fin n, (l : ℕ) < i → P l) ∧ P i := by
          intro P
          constructor
          · intro h; exact ⟨fun l hl => h l (by omega), h i (by omega)⟩
          · rintro ⟨h, hi⟩ l hl
            rcases Nat.lt_succ_iff_lt_or_eq.1 hl with hl | hl
            · exact h l hl
            · rw [Fin.ext hl]; exact hi
        rw [split, split]
        have e1 : (∀ l : Fin n, (l : ℕ) < i → Function.update z i (z i + w *
            ((b i - ∑ j, if j ≠ i then K i j * z j else 0) / K i i - z i)) l = x l)
            ↔ ∀ l : Fin n, (l : ℕ) < i → z l = x l := by
          constructor <;> intro h l hl
          · have := h l hl
            rwa [Function.update_of_ne] at this
            rintro rfl; omega
          · rw [Function.update_of_ne]
            · exact h l hl
            · rintro rfl; omega
        rw [e1, Function.update_self]
        constructor
        · rintro ⟨ha, hb⟩
          have hz : z = x := by
            funext l
            rcases Nat.lt_or_ge (l : ℕ) i with hl | hl
            · exact ha l hl
            · exact h1 l hl
          refine ⟨h2.1 ha, ?_⟩
          rw [hz] at hb
          exact (key i x).1 hb
        · rintro ⟨ha, hb⟩
          have ha' := h2.2 ha
          have hz : z = x := by
            funext l
            rcases Nat.lt_or_ge (l : ℕ) i with hl | hl
            · exact ha' l hl
            · exact h1 l hl
          refine ⟨ha', ?_⟩
          rw [hz]
          exact (key i x).2 hb)
  refine ⟨x', e, hx, ?_⟩
  constructor
  · rintro rfl
    funext i
    exact h2.1 (fun _ _ => rfl) i i.2
  · intro h
    funext i
    exact h2.2 (fun i _ => congrFun h i) i i.2

/-- **C17**, boundary: a zero on the diagonal makes the sweep divide by zero. -/
theorem C17_zero_diagonal (A : CSR ℝ) (K : Matrix (Fin n) (Fin n) ℝ) (hA : IsCSR n A K)
    (i : Fin n) (hd : K i i = 0) (b : Fin n → ℝ) (w : ℝ) (x : Fin n → ℝ) :
    sorSweep A b w x = none := by
  by_contra h
  obtain ⟨t, ht⟩ := Option.ne_none_iff_exists'.1 h
  refine (finRange_inv (sorComp A b w) (fun k _ => k ≤ (i : ℕ)) _ _ (Nat.zero_le _) ?_ ht).not_gt
    i.2
  intro l s t hl hst
  rcases Nat.eq_or_lt_of_le hl with hl | hl
  · rw [Fin.ext hl, sorComp_zero hA b w s i hd] at hst
    cases hst
  · exact hl

/-- **C17**: what a `SOR` run that starts at a solution returns, and that a run which repeats an
iterate has reached a solution: sweeping from the solution stays there for ever. -/
theorem C17_stays (A : CSR ℝ) (K : Matrix (Fin n) (Fin n) ℝ) (hA : IsCSR n A K)
    (hd : ∀ i, K i i ≠ 0) (b : Fin n → ℝ) (w : ℝ) (hw : w ≠ 0) (eps : ℝ) (m : ℕ)
    (x : Fin n → ℝ) (hx : K.mulVec x = b) :
    ∃ f, sorLoop A b w eps m x = some (x, f) := by
  induction m with
  | zero => exact ⟨false, rfl⟩
  | succ m ih =>
    obtain ⟨x', e, h1, h2⟩ := C17_fixed_point A K hA hd b w hw x
    obtain rfl := h2.2 hx
    unfold sorLoop
    rw [h1]
    simp only [Option.bind_eq_bind, Option.bind_some]
    split
    · exact ⟨true, rfl⟩
    · exact ih

example : ∃ x' e, sorSweep (fullCSR !![2, 1; 1, 2]) ![3, 3] 1.5 ![1, 1] = some (x', e) ∧
    x' = ![1, 1] := by
  obtain ⟨x', e, h, hx⟩ := C17_fixed_point _ _ (fullCSR_isCSR !![2, 1; 1, 2])
    (by intro i; fin_cases i <;> simp) ![3, 3] 1.5 (by norm_num) ![1, 1]
  refine ⟨x', e, h, hx.2 ?_⟩
  funext i
  fin_cases i <;> simp [Matrix.mulVec, dotProduct, Fin.sum_univ_two] <;> norm_num

end Pansfem
