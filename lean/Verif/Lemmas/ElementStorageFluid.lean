/-
Pieces of the storage-level routines of Stokes.h and NavierStokes.h: tables, filled matrices, points.
-/
import Verif.Model.ElementStorageFluid
import Verif.Lemmas.ElementStorageScalar

noncomputable section

namespace Pansfem

open Matrix

/-! ### Tables -/

/-- A loop that sets one row after the other. -/
theorem rows_table {α : Type} {n : ℕ} {z : α} (row : ℕ → α) (step : List α → ℕ → Option (List α))
    (h : ∀ t i, i < n → t.length = n → (∀ j, i ≤ j → j < n → t[j]? = some z) →
      step t i = some (t.set i (row i))) :
    (List.range n).foldlM step (List.replicate n z) = some ((List.range n).map row) := by
  have key : ∀ m, m ≤ n → (List.range m).foldlM step (List.replicate n z) =
      some ((List.range n).map fun i => if i < m then row i else z) := by
    intro m
    induction m with
    | zero =>
      intro _
      simp only [List.range_zero, List.foldlM_nil, Nat.not_lt_zero, if_false, List.map_const', List.length_range]
      rfl
    | succ m ih =>
      intro hm
      rw [List.range_succ, List.foldlM_append, ih (by omega)]
      simp only [List.foldlM_cons, List.foldlM_nil, Option.bind_eq_bind, Option.bind_some]
      rw [h _ m (by omega) (by simp) (fun j h1 h2 => by simp [h2, show ¬ j < m by omega])]
      show some _ = some _
      congr 1
      apply List.ext_getElem
      · simp
      · intro i h1 h2
        simp only [List.getElem_set, List.getElem_map, List.getElem_range]
        by_cases h' : m = i
        · rw [if_pos h', if_pos (by omega), h']
        · rw [if_neg h']
          by_cases h'' : i < m
          · rw [if_pos h'', if_pos (by omega)]
          · rw [if_neg h'', if_neg (by omega)]
  rw [key n le_rfl]
  congr 1
  exact List.map_congr_left fun i hi => if_pos (List.mem_range.1 hi)

theorem velocityTableS_eq (m du dv : ℕ) (l : List ℕ) :
    velocityTableS m (du :: dv :: l) = some ((List.range m).map fun i => [(du, i), (dv, m + i)]) := by
  unfold velocityTableS
  refine rows_table _ _ fun t i hi ht hz => ?_
  have h0 : t[i]? = some (List.replicate 2 (0, 0)) := hz i le_rfl hi
  have hit : i < t.length := by omega
  simp only [tablePut, List.getElem?_cons_zero, List.getElem?_cons_succ, Option.bind_eq_bind, Option.bind_some, h0,
    List.length_replicate, Nat.zero_lt_two, if_true, List.getElem?_set_self hit, List.length_set, Nat.one_lt_two,
    List.set_set]
  rfl

theorem pressureTableS_eq (m n du dv dp : ℕ) (l : List ℕ) :
    pressureTableS m n (du :: dv :: dp :: l) = some ((List.range n).map fun i => [(dp, 2 * m + i)]) := by
  unfold pressureTableS
  refine rows_table _ _ fun t i hi ht hz => ?_
  have h0 : t[i]? = some (List.replicate 1 (0, 0)) := hz i le_rfl hi
  simp only [tablePut, List.getElem?_cons_zero, List.getElem?_cons_succ, Option.bind_eq_bind, Option.bind_some, h0,
    List.length_replicate, Nat.zero_lt_one, if_true]
  rfl

theorem mixTablesS_eq (m n : ℕ) (doulist : List ℕ) : mixTablesS m n doulist = blocked m n doulist := by
  unfold mixTablesS blocked
  match doulist with
  | [] => rfl
  | [_] => rfl
  | [_, _] => rfl
  | [du, dv, dp] => rw [if_pos (show [du, dv, dp].length = 3 from rfl), velocityTableS_eq, pressureTableS_eq]; rfl
  | _ :: _ :: _ :: _ :: _ => rw [if_neg (by simp)]

theorem decoupledTableS_eq (m : ℕ) (doulist : List ℕ) : decoupledTableS m doulist = blocked2 m doulist := by
  unfold decoupledTableS blocked2
  match doulist with
  | [] => rfl
  | [_] => rfl
  | [du, dv] => rw [if_pos (show [du, dv].length = 2 from rfl), velocityTableS_eq]
  | _ :: _ :: _ :: _ => rw [if_neg (by simp)]

/-! ### Runs of assignments -/

variable {K : Type}

theorem putsS_append (A : Mat K) (l l' : List (ℕ × ℕ × K)) :
    putsS A (l ++ l') = putsS A l >>= fun A => putsS A l' := by
  unfold putsS; rw [List.foldlM_append]

theorem putsVS_append (v : Vec K) (l l' : List (ℕ × K)) :
    putsVS v (l ++ l') = putsVS v l >>= fun v => putsVS v l' := by
  unfold putsVS; rw [List.foldlM_append]

theorem putsS_assigns (A : Mat K) (l : List (ℕ × ℕ × K)) :
    putsS A l = assigns A (l.map fun p => (p.1, p.2.1, some p.2.2)) := by
  unfold putsS assigns
  rw [List.foldlM_map]
  rfl

/-- A loop of runs is one run. -/
theorem loop_flat {α S : Type} {n : ℕ} (run : S → List α → Option S) (hn : ∀ s, run s [] = some s)
    (ha : ∀ s l l', run s (l ++ l') = run s l >>= fun s => run s l') (L : Fin n → List α)
    (step : S → ℕ → Option S) (h : ∀ s (i : Fin n), step s i = run s (L i)) (s : S) :
    (List.range n).foldlM step s = run s ((List.finRange n).flatMap L) := by
  rw [← List.map_coe_finRange_eq_range, List.foldlM_map]
  generalize List.finRange n = l
  induction l generalizing s with
  | nil => exact (hn s).symm
  | cons i l ih =>
    rw [List.foldlM_cons, List.flatMap_cons, ha, h]
    cases run s (L i) with
    | none => rfl
    | some s' => exact ih s'

/-- Assignments of entries of `A` that leave out zeros only. -/
theorem puts_target [Zero K] {ι κ : Type} {R C : ℕ} (e : ι ≃ Fin R) (e' : κ ≃ Fin C) (A : Matrix ι κ K)
    (L : List (ι × κ)) (hc : ∀ r c, A r c ≠ 0 → (r, c) ∈ L) :
    putsS (Mat.zeros R C) (L.map fun p => ((e p.1 : ℕ), (e' p.2 : ℕ), A p.1 p.2)) =
      some (dense (A.submatrix e.symm e'.symm)) := by
  rw [putsS_assigns, C01_mat_zeros, assigns_dense]
  · congr 2
    ext i j
    by_cases h : (e.symm i, e'.symm j) ∈ L
    · refine written_mem ?_ ?_
      · intro p hp h1 h2
        obtain ⟨q, _, rfl⟩ := List.mem_map.1 hp
        have h1' : e q.1 = i := Fin.ext h1
        have h2' : e' q.2 = j := Fin.ext h2
        simp [← h1', ← h2']
      · exact ⟨_, List.mem_map.2 ⟨_, h, rfl⟩, by simp, by simp⟩
    · rw [written_not]
      · by_contra h0
        exact h (hc _ _ (Ne.symm h0))
      · rintro p hp ⟨h1, h2⟩
        obtain ⟨q, hq, rfl⟩ := List.mem_map.1 hp
        have h1' : e q.1 = i := Fin.ext h1
        have h2' : e' q.2 = j := Fin.ext h2
        exact h (by simpa [← h1', ← h2'] using hq)
  · intro p hp
    obtain ⟨q, _, rfl⟩ := List.mem_map.1 hp
    exact ⟨(e q.1).2, (e' q.2).2⟩

theorem putsVS_target [Zero K] {ι : Type} {R : ℕ} (e : ι ≃ Fin R) (v : ι → K) (L : List ι)
    (hc : ∀ r, v r ≠ 0 → r ∈ L) :
    putsVS (Vec.zeros R) (L.map fun p => ((e p : ℕ), v p)) = some (densev (v ∘ e.symm)) := by
  classical
  rw [C01_vec_zeros]
  have key : ∀ (L : List ι) (w : Fin R → K), putsVS (densev w) (L.map fun p => ((e p : ℕ), v p)) =
      some (densev fun i => if e.symm i ∈ L then v (e.symm i) else w i) := by
    intro L
    induction L with
    | nil => intro w; simp [putsVS]
    | cons p L ih =>
      intro w
      unfold putsVS at ih ⊢
      rw [List.map_cons, List.foldlM_cons]
      refine bind_value (C01_vec_write w (e p) (v p)) ?_
      rw [ih]
      congr 2
      funext i
      by_cases h : e.symm i ∈ L
      · simp [h]
      · by_cases h' : i = e p
        · subst h'; simp [Function.update_self]
        · have h2 : e.symm i ≠ p := fun h3 => h' (by rw [← h3]; simp)
          simp [h, h', h2]
  rw [key]
  congr 2
  funext i
  by_cases h : e.symm i ∈ L
  · simp [h]
  · rw [if_neg h]
    by_contra h0
    exact h (hc _ (Ne.symm h0))

variable [Field K]

theorem fillS_eq {ι κ : Type} {R C p q r : ℕ} (e : ι ≃ Fin R) (e' : κ ≃ Fin C) (A : Matrix ι κ K)
    {a b : ℕ → ℕ → Option (List (ℕ × ℕ × K))} (La : Fin p → Fin q → List (ι × κ))
    (Lb : Fin p → Fin r → List (ι × κ))
    (ha : ∀ (i : Fin p) (j : Fin q), a i j = some ((La i j).map fun s => ((e s.1 : ℕ), (e' s.2 : ℕ), A s.1 s.2)))
    (hb : ∀ (i : Fin p) (j : Fin r), b i j = some ((Lb i j).map fun s => ((e s.1 : ℕ), (e' s.2 : ℕ), A s.1 s.2)))
    (hc : ∀ s t, A s t ≠ 0 → (∃ i j, (s, t) ∈ La i j) ∨ ∃ i j, (s, t) ∈ Lb i j) :
    fillS R C p q r a b = some (dense (A.submatrix e.symm e'.symm)) := by
  unfold fillS
  set f : ι × κ → ℕ × ℕ × K := fun s => ((e s.1 : ℕ), (e' s.2 : ℕ), A s.1 s.2) with hf
  rw [loop_flat putsS (fun _ => rfl) putsS_append (fun i => (List.finRange q).flatMap (fun j => (La i j).map f) ++
    (List.finRange r).flatMap fun j => (Lb i j).map f) _ (fun s i => ?_)]
  · rw [show ((List.finRange p).flatMap fun i => (List.finRange q).flatMap (fun j => (La i j).map f) ++
      (List.finRange r).flatMap fun j => (Lb i j).map f) = ((List.finRange p).flatMap fun i =>
        (List.finRange q).flatMap (La i) ++ (List.finRange r).flatMap (Lb i)).map f by
      simp only [List.map_flatMap, List.map_append]]
    refine puts_target e e' A _ fun s t h => ?_
    rcases hc s t h with ⟨i, j, h⟩ | ⟨i, j, h⟩
    · exact List.mem_flatMap.2 ⟨i, List.mem_finRange i, List.mem_append_left _
        (List.mem_flatMap.2 ⟨j, List.mem_finRange j, h⟩)⟩
    · exact List.mem_flatMap.2 ⟨i, List.mem_finRange i, List.mem_append_right _
        (List.mem_flatMap.2 ⟨j, List.mem_finRange j, h⟩)⟩
  · rw [putsS_append]
    have h1 := loop_flat putsS (fun _ => rfl) putsS_append (fun j => (La i j).map f)
      (fun A j => do putsS A (← a i j)) (fun s j => by simp only [ha]; rfl) s
    simp only [h1]
    congr 1
    funext s
    exact loop_flat putsS (fun _ => rfl) putsS_append (fun j => (Lb i j).map f)
      (fun A j => do putsS A (← b i j)) (fun s j => by simp only [hb]; rfl) s

theorem fillVS_eq {ι : Type} {R p q : ℕ} (e : ι ≃ Fin R) (v : ι → K)
    {a b : ℕ → Option (List (ℕ × K))} (La : Fin p → List ι) (Lb : Fin q → List ι)
    (ha : ∀ i : Fin p, a i = some ((La i).map fun s => ((e s : ℕ), v s)))
    (hb : ∀ i : Fin q, b i = some ((Lb i).map fun s => ((e s : ℕ), v s)))
    (hc : ∀ s, v s ≠ 0 → (∃ i, s ∈ La i) ∨ ∃ i, s ∈ Lb i) :
    fillVS R p q a b = some (densev (v ∘ e.symm)) := by
  unfold fillVS
  set f : ι → ℕ × K := fun s => ((e s : ℕ), v s) with hf
  have h1 := loop_flat putsVS (fun _ => rfl) putsVS_append (fun i => (La i).map f)
    (fun v i => do putsVS v (← a i)) (fun s i => by simp only [ha]; rfl) (Vec.zeros R)
  have h2 := fun s => loop_flat putsVS (fun _ => rfl) putsVS_append (fun i => (Lb i).map f)
    (fun v i => do putsVS v (← b i)) (fun s i => by simp only [hb]; rfl) s
  simp only [h1, h2]
  rw [← putsVS_append, ← List.map_flatMap, ← List.map_flatMap, ← List.map_append]
  refine putsVS_target e v _ fun s h => ?_
  rcases hc s h with ⟨i, h⟩ | ⟨i, h⟩
  · exact List.mem_append_left _ (List.mem_flatMap.2 ⟨i, List.mem_finRange i, h⟩)
  · exact List.mem_append_right _ (List.mem_flatMap.2 ⟨i, List.mem_finRange i, h⟩)

/-- A matrix that cannot be filled: some run of assignments of the first inner loop fails. -/
theorem fillS_none {R C p q r : ℕ} {a b : ℕ → ℕ → Option (List (ℕ × ℕ × K))} (i j : ℕ) (hi : i < p)
    (hj : j < q) (h : a i j = none) : fillS R C p q r a b = none := by
  unfold fillS
  refine foldlM_fails (List.mem_range.2 hi) (fun s => ?_) _
  rw [foldlM_fails (List.mem_range.2 hj) (fun s => by rw [h]; rfl) s]
  rfl

theorem fillS_none' {R C p q r : ℕ} {a b : ℕ → ℕ → Option (List (ℕ × ℕ × K))} (i j : ℕ) (hi : i < p)
    (hj : j < r) (h : b i j = none) : fillS R C p q r a b = none := by
  unfold fillS
  refine foldlM_fails (List.mem_range.2 hi) (fun s => ?_) _
  cases (List.range q).foldlM (fun A j => do putsS A (← a i j)) s with
  | none => rfl
  | some s => exact foldlM_fails (List.mem_range.2 hj) (fun s => by rw [h]; rfl) s

theorem fillVS_none {R p q : ℕ} {a b : ℕ → Option (List (ℕ × K))} (i : ℕ) (hi : i < p) (h : a i = none) :
    fillVS R p q a b = none := by
  unfold fillVS
  rw [foldlM_fails (List.mem_range.2 hi) (fun s => by rw [h]; rfl) _]
  rfl

/-! ### Layout -/

/-- `2*m + n` unknowns in the order of the code. -/
def fluE (m n : ℕ) : Flu m n ≃ Fin (2 * m + n) := (fluEquiv m n).trans (finCongr (by omega))

variable {m n : ℕ}

theorem fluE_u (i : Fin m) : ((fluE m n (.inl (.inl i))) : ℕ) = i := by
  simp [fluE, fluEquiv]

theorem fluE_v (i : Fin m) : ((fluE m n (.inl (.inr i))) : ℕ) = i + m := by
  simp [fluE, fluEquiv, Nat.add_comm]

theorem fluE_p (j : Fin n) : ((fluE m n (.inr j)) : ℕ) = j + 2 * m := by
  simp [fluE, fluEquiv]; omega

omit [Field K] in
theorem mixM_laid (A : Matrix (Flu m n) (Flu m n) K) : mixM A = dense (A.submatrix (fluE m n).symm (fluE m n).symm) := by
  have h : ∀ {r s : ℕ} (h : r = s) (B : Matrix (Fin r) (Fin r) K),
      dense B = dense (B.submatrix (Fin.cast h.symm) (Fin.cast h.symm)) := by
    intro r s h B; subst h; rfl
  refine (h (show m + m + n = 2 * m + n by omega) (A.submatrix (fluEquiv m n).symm (fluEquiv m n).symm)).trans ?_
  rfl

omit [Field K] in
theorem mixV_laid (v : Flu m n → K) : mixV v = densev (v ∘ (fluE m n).symm) := by
  have h : ∀ {r s : ℕ} (h : r = s) (w : Fin r → K), densev w = densev (w ∘ Fin.cast h.symm) := by
    intro r s h B; subst h; rfl
  exact (h (show m + m + n = 2 * m + n by omega) (v ∘ (fluEquiv m n).symm)).trans rfl

theorem zeros_mixM : Mat.zeros (2 * m + n) (2 * m + n) = mixM (0 : Matrix (Flu m n) (Flu m n) K) := by
  rw [mixM_laid, C01_mat_zeros]; rfl

theorem zeros_mixV : Vec.zeros (2 * m + n) = mixV (0 : Flu m n → K) := by
  rw [mixV_laid, C01_vec_zeros]; rfl

/-- A term is added. -/
theorem mixM_step (S A : Matrix (Flu m n) (Flu m n) K) (l : List K) :
    (scaled (mixM A) l >>= fun B => (mixM S).add B) = some (mixM (S + l.prod • A)) := by
  rw [mixM_laid A]
  refine bind_value (scaled_dense _ _) ?_
  rw [mixM_laid, C01_mat_add, mixM_laid]
  rfl

theorem mixV_step (S v : Flu m n → K) (l : List K) :
    (scaledV (mixV v) l >>= fun B => (mixV S).add B) = some (mixV (S + l.prod • v)) := by
  rw [mixV_laid v]
  refine bind_value (scaledV_dense _ _) ?_
  rw [mixV_laid, C01_vec_add, mixV_laid]
  rfl

theorem mixV_stepSub (S v : Flu m n → K) (l : List K) :
    (scaledV (mixV v) l >>= fun B => (mixV S).sub B) = some (mixV (S + l.prod • -v)) := by
  rw [mixV_laid v]
  refine bind_value (scaledV_dense _ _) ?_
  rw [mixV_laid, C01_vec_sub, mixV_laid]
  congr 2
  funext i
  simp [sub_eq_add_neg]

/-- `2*m` unknowns in the order of the code. -/
def pairE (m : ℕ) : Fin m ⊕ Fin m ≃ Fin (2 * m) := finSumFinEquiv.trans (finCongr (by omega))

theorem pairE_u (i : Fin m) : ((pairE m (.inl i)) : ℕ) = i := by simp [pairE]

theorem pairE_v (i : Fin m) : ((pairE m (.inr i)) : ℕ) = i + m := by simp [pairE, Nat.add_comm]

omit [Field K] in
theorem joinM_laid (A : Matrix (Fin m ⊕ Fin m) (Fin m ⊕ Fin m) K) :
    joinM A = dense (A.submatrix (pairE m).symm (pairE m).symm) := by
  have h : ∀ {r s : ℕ} (h : r = s) (B : Matrix (Fin r) (Fin r) K),
      dense B = dense (B.submatrix (Fin.cast h.symm) (Fin.cast h.symm)) := by
    intro r s h B; subst h; rfl
  exact (h (show m + m = 2 * m by omega) (A.submatrix finSumFinEquiv.symm finSumFinEquiv.symm)).trans rfl

omit [Field K] in
theorem joinV_laid (v : Fin m ⊕ Fin m → K) : joinV v = densev (v ∘ (pairE m).symm) := by
  have h : ∀ {r s : ℕ} (h : r = s) (w : Fin r → K), densev w = densev (w ∘ Fin.cast h.symm) := by
    intro r s h B; subst h; rfl
  exact (h (show m + m = 2 * m by omega) (v ∘ finSumFinEquiv.symm)).trans rfl

/-! ### Shape functions of the first nodes -/

/-- The first `k` shape functions. -/
def SF.first {d m : ℕ} (sf : SF K d m) (k : ℕ) (h : k ≤ m) : SF K d k where
  points := sf.points
  N r i := sf.N r (Fin.castLE h i)
  dNdr r := Matrix.of fun a i => sf.dNdr r a (Fin.castLE h i)

omit [Field K] in
theorem first_self {d m : ℕ} (sf : SF K d m) : sf.first m le_rfl = sf := rfl

omit [Field K] in
theorem read_N {d k m : ℕ} (sf : SF K d m) (h : k ≤ m) (r : Fin d → K) (i : Fin k) :
    (densev (sf.N r)).at? ((i : ℕ) : ℤ) = some ((sf.first k h).N r i) :=
  C01_vec_read (sf.N r) (Fin.castLE h i)

theorem read_dM {k m : ℕ} (sf : SF K 2 m) (h : k ≤ m) (I : Matrix (Fin 2) (Fin 2) K) (r : Fin 2 → K)
    (a : Fin 2) (i : Fin k) :
    (dense (I * sf.dNdr r)).at? ((a : ℕ) : ℤ) ((i : ℕ) : ℤ) = some ((I * (sf.first k h).dNdr r) a i) :=
  C01_mat_read (I * sf.dNdr r) a (Fin.castLE h i)

theorem read_dM0 {k m : ℕ} (sf : SF K 2 m) (h : k ≤ m) (I : Matrix (Fin 2) (Fin 2) K) (r : Fin 2 → K)
    (i : Fin k) :
    (dense (I * sf.dNdr r)).at? 0 ((i : ℕ) : ℤ) = some ((I * (sf.first k h).dNdr r) 0 i) := read_dM sf h I r 0 i

theorem read_dM1 {k m : ℕ} (sf : SF K 2 m) (h : k ≤ m) (I : Matrix (Fin 2) (Fin 2) K) (r : Fin 2 → K)
    (i : Fin k) :
    (dense (I * sf.dNdr r)).at? 1 ((i : ℕ) : ℤ) = some ((I * (sf.first k h).dNdr r) 1 i) := read_dM sf h I r 1 i

omit [Field K] in
theorem read_past (v : Fin m → K) : (densev v).at? ((m : ℕ) : ℤ) = none :=
  (C01_vec_read_fails _ _).2 (by simp [densev, Vec.size])

omit [Field K] in
theorem read_past_col (A : Matrix (Fin 2) (Fin m) K) (a : ℤ) : (dense A).at? a ((m : ℕ) : ℤ) = none := by
  unfold Mat.at?
  rw [if_neg (by simp [dense])]

theorem fluPointS_eq [DecidableEq K] (sfu : SF K 2 m) (sfp : SF K 2 n) (X : Matrix (Fin n) (Fin 2) K)
    (r : Fin 2 → K) : fluPointS sfu sfp (dense X) r = (inv? (jac sfp X r)).map fun I =>
      ((jac sfp X r).det, dense (I * sfp.dNdr r), dense (I * sfu.dNdr r)) := by
  unfold fluPointS
  refine bind_value (C01_mat_mul _ _) (bind_value (C02_determinant _) ?_)
  have hi := C03_inverse (sfp.dNdr r * X)
  unfold inv? jac
  by_cases h : (sfp.dNdr r * X).det = 0
  · rw [if_pos h] at hi ⊢
    rw [hi]; rfl
  · rw [if_neg h] at hi ⊢
    exact bind_value hi (bind_value (C01_mat_mul _ _) (bind_value hi (bind_value (C01_mat_mul _ _) rfl)))

theorem componentS_eq (u : List (Vec K)) (element : List ℕ) (c : ℕ) :
    componentS u element c = (column u element element.length c).map densev := by
  unfold componentS column
  rw [if_pos rfl]
  set n := element.length with hn
  cases hg : allSome fun i : Fin n => (do nodal u (← element[(i : ℕ)]?) c : Option K) with
  | none =>
    obtain ⟨i, hi⟩ := allSome_none hg
    refine foldlM_fails (List.mem_range.2 i.2) (fun s => ?_) _
    simp only [Option.bind_eq_bind] at hi ⊢
    cases he : element[(i : ℕ)]? with
    | none => rfl
    | some e =>
      rw [he] at hi
      simp only [Option.bind_some] at hi ⊢
      rw [hi]; rfl
  | some v =>
    have hv := allSome_eq_some.1 hg
    have h := loop_flat putsVS (fun _ => rfl) putsVS_append (fun i : Fin n => [((i : ℕ), v i)])
      (fun p (i : ℕ) => do p.put? (i : ℕ) (← nodal u (← element[(i : ℕ)]?) c)) (fun s i => by
        have h := hv i
        simp only [Option.bind_eq_bind] at h ⊢
        cases he : element[(i : ℕ)]? with
        | none => rw [he] at h; cases h
        | some e =>
          rw [he] at h
          simp only [Option.bind_some] at h ⊢
          rw [h]
          simp [putsVS]) (Vec.zeros n)
    refine h.trans ?_
    have := putsVS_target (Equiv.refl (Fin n)) v (List.finRange n) (fun r _ => List.mem_finRange r)
    rw [show ((List.finRange n).flatMap fun i : Fin n => [((i : ℕ), v i)]) =
      (List.finRange n).map fun p => (((Equiv.refl (Fin n)) p : ℕ), v p) from List.flatMap_pure_eq_map _ _]
    exact this

/-! ### Heads and loops of the routines -/

theorem opt_comm {α β γ : Type} (a : Option α) (b : Option β) (f : α → β → Option γ) :
    (a >>= fun p => b >>= fun q => f p q) = (b >>= fun q => a >>= fun p => f p q) := by
  cases a <;> cases b <;> rfl

theorem opt_third {α β γ δ : Type} (a : Option α) (b : Option β) (c : Option γ) (f : α → β → γ → Option δ) :
    (a >>= fun p => b >>= fun q => c >>= fun r => f p q r) =
      (c >>= fun r => a >>= fun p => b >>= fun q => f p q r) := by
  cases a <;> cases b <;> cases c <;> rfl

theorem opt_four {α β γ δ ε : Type} (a : Option α) (b : Option β) (c : Option γ) (d : Option δ)
    (f : α → β → γ → δ → Option ε) :
    (a >>= fun p => b >>= fun q => c >>= fun r => d >>= fun s => f p q r s) =
      (c >>= fun r => d >>= fun s => a >>= fun p => b >>= fun q => f p q r s) := by
  cases a <;> cases b <;> cases c <;> cases d <;> rfl

theorem opt_five {α β γ δ ε ζ : Type} (a : Option α) (b : Option β) (c : Option γ) (d : Option δ) (e : Option ε)
    (f : α → γ → δ → ε → Option ζ) :
    (a >>= fun p => b >>= fun _ => c >>= fun r => d >>= fun s => e >>= fun t => f p r s t) =
      (b >>= fun _ => d >>= fun s => e >>= fun t => a >>= fun p => c >>= fun r => f p r s t) := by
  cases a <;> cases b <;> cases c <;> cases d <;> cases e <;> rfl

theorem map_two {α β γ : Type} (e : α → β) (a : Option α) (r : γ) :
    (a.map e >>= fun A => pure (A, r)) = (a >>= fun A => pure (e A, r)) := by
  cases a <;> rfl

/-- Tables, coordinates of the pressure nodes and a loop make a routine of a mixed element. -/
theorem mix_head {eu ep doulist : List ℕ} {x : List (Vec K)} (hk : eu.length = m) {L : Mat K → Option (Mat K)}
    {core : Matrix (Fin n) (Fin 2) K → Option (Matrix (Flu m n) (Flu m n) K)}
    (h1 : ep.length = n → ∀ X : Matrix (Fin n) (Fin 2) K, L (dense X) = (core X).map mixM)
    (h2 : ep.length ≠ n → ∀ X : Matrix (Fin ep.length) (Fin 2) K, L (dense X) = none) :
    (mixTablesS eu.length ep.length doulist >>= fun t => coordsS x ep 2 >>= fun Xp =>
      L Xp >>= fun Ke => pure (Ke, t.1, t.2)) = mixElemM core (eu, ep) doulist x := by
  unfold mixElemM
  rw [if_pos hk, mixTablesS_eq, coordsS_eq]
  show (blocked eu.length ep.length doulist >>= _) = (blocked eu.length ep.length doulist >>= _)
  congr 1
  funext t
  obtain ⟨a, b⟩ := t
  by_cases hn : ep.length = n
  · subst hn
    show _ = (gather x ep ep.length 2 >>= fun X => core X >>= fun A => pure (mixM A, a, b))
    cases gather x ep ep.length 2 with
    | none => rfl
    | some X =>
      show (L (dense X) >>= fun Ke => pure (Ke, a, b)) = _
      rw [h1 rfl X]
      exact map_two _ _ _
  · have hg : gather x ep n 2 = none := if_neg hn
    show _ = (gather x ep n 2 >>= fun X => core X >>= fun A => pure (mixM A, a, b))
    rw [hg]
    cases gather x ep ep.length 2 with
    | none => rfl
    | some X =>
      show (L (dense X) >>= fun Ke => pure (Ke, a, b)) = _
      rw [h2 hn X]
      rfl

theorem mix_headG {C T : Type} {eu ep doulist : List ℕ} {x : List (Vec K)} {L : Mat K → Option T} (out : C → T)
    {core : Matrix (Fin n) (Fin 2) K → Option C}
    (h1 : ep.length = n → ∀ X : Matrix (Fin n) (Fin 2) K, L (dense X) = (core X).map out)
    (h2 : ep.length ≠ n → ∀ X : Matrix (Fin ep.length) (Fin 2) K, L (dense X) = none) :
    (mixTablesS eu.length ep.length doulist >>= fun t => coordsS x ep 2 >>= fun Xp =>
      L Xp >>= fun Fe => pure (Fe, t.1, t.2)) =
      (blocked eu.length ep.length doulist >>= fun t => gather x ep n 2 >>= fun X =>
        core X >>= fun F => pure (out F, t.1, t.2)) := by
  rw [mixTablesS_eq, coordsS_eq]
  congr 1
  funext t
  by_cases hn : ep.length = n
  · subst hn
    cases gather x ep ep.length 2 with
    | none => rfl
    | some X =>
      show (L (dense X) >>= fun Ke => pure (Ke, t.1, t.2)) = _
      rw [h1 rfl X]
      exact map_two _ _ _
  · have hg : gather x ep n 2 = none := if_neg hn
    rw [hg]
    cases gather x ep ep.length 2 with
    | none => rfl
    | some X =>
      show (L (dense X) >>= fun Ke => pure (Ke, t.1, t.2)) = _
      rw [h2 hn X]
      rfl

/-- A routine whose loop always fails. -/
theorem mix_none {α : Type} {eu ep doulist : List ℕ} {x : List (Vec K)} {L : Mat K → Option α}
    (h : ∀ X : Matrix (Fin ep.length) (Fin 2) K, L (dense X) = none) :
    (mixTablesS eu.length ep.length doulist >>= fun t => coordsS x ep 2 >>= fun Xp =>
      L Xp >>= fun Ke => pure (Ke, t.1, t.2)) = none := by
  cases mixTablesS eu.length ep.length doulist with
  | none => rfl
  | some t =>
    rw [coordsS_eq]
    cases gather x ep ep.length 2 with
    | none => rfl
    | some X =>
      show (L (dense X) >>= fun Ke => pure (Ke, t.1, t.2)) = none
      rw [h]; rfl

theorem loopS_zero {M T : Type} [AddCommMonoid M] {N : ℕ} (e : M → T) (term : Fin N → Option M)
    (step : T → Fin N → Option T) (h : ∀ S g, step (e S) g = (term g).map fun v => e (S + v)) :
    (List.finRange N).foldlM step (e 0) = (gauss N term).map e := by
  refine (loopS_eq e term step h 0).trans ?_
  simp only [zero_add]

theorem fluLoopS_eq [DecidableEq K] {k : ℕ} (sfu : SF K 2 m) (sfp : SF K 2 n) (ic : IC K 2) (hk : k ≤ m)
    (X : Matrix (Fin n) (Fin 2) K) {build : Vec K → Mat K → Vec K → Mat K → Option (Mat K)}
    {f : (Fin k → K) → Matrix (Fin 2) (Fin k) K → (Fin n → K) → Matrix (Fin 2) (Fin n) K →
      Option (Matrix (Flu k n) (Flu k n) K)}
    (h : ∀ r I, build (densev (sfu.N r)) (dense (I * sfu.dNdr r)) (densev (sfp.N r)) (dense (I * sfp.dNdr r)) =
      (f ((sfu.first k hk).N r) (I * (sfu.first k hk).dNdr r) (sfp.N r) (I * sfp.dNdr r)).map mixM) :
    fluLoopS sfu sfp ic build (dense X) (Mat.zeros (2 * k + n) (2 * k + n)) =
      (loopF (sfu.first k hk) sfp ic X f).map mixM := by
  unfold fluLoopS loopF
  rw [zeros_mixM]
  refine loopS_zero mixM _ _ fun S g => ?_
  simp only []
  rw [fluPointS_eq]
  cases inv? (jac sfp X (ic.points g)) with
  | none => rfl
  | some I =>
    simp only [Option.map_some, Option.bind_eq_bind, Option.bind_some]
    rw [h]
    cases f ((sfu.first k hk).N (ic.points g)) (I * (sfu.first k hk).dNdr (ic.points g)) (sfp.N (ic.points g))
      (I * sfp.dNdr (ic.points g)) with
    | none => rfl
    | some A =>
      refine (bind_value rfl (mixM_step S A _)).trans ?_
      refine congrArg (fun c : K => some (mixM (S + c • A))) ?_
      simp only [List.prod_cons, List.prod_nil]
      ring

theorem fluLoopS_mismatch [DecidableEq K] {k : ℕ} (sfu : SF K 2 m) (sfp : SF K 2 n) (ic : IC K 2) (hN : 0 < ic.N)
    (hk : k ≠ n) (X : Matrix (Fin k) (Fin 2) K) (build : Vec K → Mat K → Vec K → Mat K → Option (Mat K))
    (Ke : Mat K) : fluLoopS sfu sfp ic build (dense X) Ke = none := by
  refine foldlM_fails (List.mem_finRange ⟨0, hN⟩) (fun s => ?_) _
  unfold fluPointS
  simp only []
  rw [mul_mismatch _ _ hk.symm]
  rfl

theorem fluLoopS_none [DecidableEq K] {k : ℕ} (sfu : SF K 2 m) (sfp : SF K 2 n) (ic : IC K 2) (hN : 0 < ic.N)
    (X : Matrix (Fin k) (Fin 2) K) (build : Vec K → Mat K → Vec K → Mat K → Option (Mat K)) (Ke : Mat K)
    (h : ∀ r (I : Matrix (Fin 2) (Fin 2) K), build (densev (sfu.N r)) (dense (I * sfu.dNdr r)) (densev (sfp.N r))
      (dense (I * sfp.dNdr r)) = none) :
    fluLoopS sfu sfp ic build (dense X) Ke = none := by
  by_cases hk : k = n
  · subst hk
    refine foldlM_fails (List.mem_finRange ⟨0, hN⟩) (fun s => ?_) _
    rw [fluPointS_eq]
    cases inv? (jac sfp X (ic.points ⟨0, hN⟩)) with
    | none => rfl
    | some I =>
      refine bind_value rfl ?_
      show (build _ _ _ _ >>= _) = _
      rw [h]; rfl
  · exact fluLoopS_mismatch sfu sfp ic hN hk X build Ke

theorem fluLoopJS_eq {k : ℕ} (sfu : SF K 2 m) (sfp : SF K 2 n) (ic : IC K 2)
    (X : Matrix (Fin n) (Fin 2) K) {build : Vec K → Option (Mat K)}
    {f : (Fin 2 → K) → Matrix (Flu k n) (Flu k n) K}
    (h : ∀ r, build (densev (sfu.N r)) = some (mixM (f r))) :
    fluLoopJS sfu sfp ic build (dense X) (Mat.zeros (2 * k + n) (2 * k + n)) =
      (loop2J sfp ic X f).map mixM := by
  unfold fluLoopJS loop2J
  rw [zeros_mixM]
  refine loopS_zero mixM _ _ fun S g => ?_
  refine bind_value (C01_mat_mul _ _) (bind_value (C02_determinant _) (bind_value (h _) ?_))
  refine (mixM_step S _ _).trans ?_
  refine congrArg (fun c : K => some (mixM (S + c • f (ic.points g)))) ?_
  simp only [List.prod_cons, List.prod_nil, jac]
  ring

theorem fluLoopJS_mismatch {k : ℕ} (sfu : SF K 2 m) (sfp : SF K 2 n) (ic : IC K 2) (hN : 0 < ic.N)
    (hk : k ≠ n) (X : Matrix (Fin k) (Fin 2) K) (build : Vec K → Option (Mat K)) (Ke : Mat K) :
    fluLoopJS sfu sfp ic build (dense X) Ke = none := by
  refine foldlM_fails (List.mem_finRange ⟨0, hN⟩) (fun s => ?_) _
  rw [mul_mismatch _ _ hk.symm]
  rfl

theorem fluLoopJS_none {k : ℕ} (sfu : SF K 2 m) (sfp : SF K 2 n) (ic : IC K 2) (hN : 0 < ic.N)
    (X : Matrix (Fin k) (Fin 2) K) (build : Vec K → Option (Mat K)) (Ke : Mat K)
    (h : ∀ r, build (densev (sfu.N r)) = none) : fluLoopJS sfu sfp ic build (dense X) Ke = none := by
  by_cases hk : k = n
  · subst hk
    refine foldlM_fails (List.mem_finRange ⟨0, hN⟩) (fun s => ?_) _
    refine bind_value (C01_mat_mul _ _) (bind_value (C02_determinant _) ?_)
    rw [h]; rfl
  · exact fluLoopJS_mismatch sfu sfp ic hN hk X build Ke

/-- Table, coordinates and a loop make a routine of the decoupled method. -/
theorem dec_head {C T : Type} {element doulist : List ℕ} {x : List (Vec K)} {L : Mat K → Option T} (out : C → T)
    {core : Matrix (Fin m) (Fin 2) K → Option C}
    (h1 : element.length = m → ∀ X : Matrix (Fin m) (Fin 2) K, L (dense X) = (core X).map out)
    (h2 : element.length ≠ m → ∀ X : Matrix (Fin element.length) (Fin 2) K, L (dense X) = none) :
    (decoupledTableS element.length doulist >>= fun nte => coordsS x element 2 >>= fun X =>
      L X >>= fun A => pure (A, nte)) =
      (blocked2 element.length doulist >>= fun nte => gather x element m 2 >>= fun X =>
        core X >>= fun A => pure (out A, nte)) := by
  rw [decoupledTableS_eq, coordsS_eq]
  congr 1
  funext t
  by_cases hn : element.length = m
  · subst hn
    cases gather x element element.length 2 with
    | none => rfl
    | some X =>
      show (L (dense X) >>= fun A => pure (A, t)) = _
      rw [h1 rfl X]
      exact map_two _ _ _
  · have hg : gather x element m 2 = none := if_neg hn
    rw [hg]
    cases gather x element element.length 2 with
    | none => rfl
    | some X =>
      show (L (dense X) >>= fun A => pure (A, t)) = _
      rw [h2 hn X]
      rfl

theorem dec_none {α : Type} {element doulist : List ℕ} {x : List (Vec K)} {L : Mat K → Option α}
    (h : ∀ X : Matrix (Fin element.length) (Fin 2) K, L (dense X) = none) :
    (decoupledTableS element.length doulist >>= fun nte => coordsS x element 2 >>= fun X =>
      L X >>= fun A => pure (A, nte)) = none := by
  cases decoupledTableS element.length doulist with
  | none => rfl
  | some t =>
    rw [coordsS_eq]
    cases gather x element element.length 2 with
    | none => rfl
    | some X =>
      show (L (dense X) >>= fun A => pure (A, t)) = none
      rw [h]; rfl

theorem joinM_step (S A : Matrix (Fin m ⊕ Fin m) (Fin m ⊕ Fin m) K) (l : List K) :
    (scaled (joinM A) l >>= fun B => (joinM S).add B) = some (joinM (S + l.prod • A)) := by
  rw [joinM_laid A]
  refine bind_value (scaled_dense _ _) ?_
  rw [joinM_laid, C01_mat_add, joinM_laid]
  rfl

theorem joinV_stepSub (S v : Fin m ⊕ Fin m → K) (l : List K) :
    (scaledV (joinV v) l >>= fun B => (joinV S).sub B) = some (joinV (S + l.prod • -v)) := by
  rw [joinV_laid v]
  refine bind_value (scaledV_dense _ _) ?_
  rw [joinV_laid, C01_vec_sub, joinV_laid]
  congr 2
  funext i
  simp [sub_eq_add_neg]

theorem zeros_joinM : Mat.zeros (2 * m) (2 * m) = joinM (0 : Matrix (Fin m ⊕ Fin m) (Fin m ⊕ Fin m) K) := by
  rw [joinM_laid, C01_mat_zeros]; rfl

theorem zeros_joinV : Vec.zeros (2 * m) = joinV (0 : Fin m ⊕ Fin m → K) := by
  rw [joinV_laid, C01_vec_zeros]; rfl

theorem mixM_smul (A : Matrix (Flu m n) (Flu m n) K) (c : K) : (mixM A).smul c = some (mixM (c • A)) := by
  rw [mixM_laid, C01_mat_smul, mixM_laid]; rfl

/-- The area of an element by a loop. -/
theorem areaLoop_eq (sf : SF K 2 m) (ic : IC K 2) (X : Matrix (Fin m) (Fin 2) K) :
    (List.finRange ic.N).foldlM (fun (Area : K) g => do
      let dXdr ← (dense (sf.dNdr (ic.points g))).mul (dense X)
      let J ← dXdr.determinant
      return Area + J * ic.weights g 0 * ic.weights g 1) 0 = some (area sf ic X) := by
  have h := loopS_zero (id : K → K) (fun g => some ((jac sf X (ic.points g)).det * ic.weights g 0 * ic.weights g 1))
    (fun Area g => do
      let dXdr ← (dense (sf.dNdr (ic.points g))).mul (dense X)
      let J ← dXdr.determinant
      return Area + J * ic.weights g 0 * ic.weights g 1) (fun S g =>
      bind_value (C01_mat_mul _ _) (bind_value (C02_determinant _) rfl))
  refine h.trans ?_
  rw [gauss_eq_some.2 ⟨fun g => (jac sf X (ic.points g)).det * ic.weights g 0 * ic.weights g 1,
    fun g => rfl, rfl⟩]
  rfl

theorem supgTauS_eq {eu : List ℕ} (he : eu.length = m) (U : Fin 2 → ℝ) (dM : Matrix (Fin 2) (Fin m) ℝ)
    (area rho mu dt : ℝ) :
    supgTauS eu (densev U) (dense dM) area rho mu dt = supgTau U dM area rho mu dt := by
  unfold supgTauS supgTau supgLength
  refine bind_value (normS_eq U) ?_
  have h := range_sum m fun i => do return |(← (densev (dMᵀ *ᵥ U)).at? (i : ℕ))|
  have h2 : (allSome fun i : Fin m => (do return |(← (densev (dMᵀ *ᵥ U)).at? ((i : ℕ) : ℤ))| : Option ℝ)) =
      some fun i => |(dMᵀ *ᵥ U) i| :=
    allSome_eq_some.2 fun i => bind_value (C01_vec_read _ i) rfl
  rw [h2] at h
  by_cases hU : (1.0e-10 : ℝ) < Real.sqrt (U ⬝ᵥ U)
  · simp only [if_pos hU]
    refine bind_value (C01_mat_transpose _) (bind_value (C01_mat_vec _ _)
      (bind_value (t := ∑ i, |(dMᵀ *ᵥ U) i|) ?_ rfl))
    rw [he]
    refine Eq.trans ?_ h
    congr 1
    funext s i
    cases (densev (dMᵀ *ᵥ U)).at? (i : ℕ) <;> rfl
  · simp only [if_neg hU]

end Pansfem
