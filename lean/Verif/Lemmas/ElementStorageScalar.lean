/-
Pieces of the storage-level routines of ReactionDiffusion.h, Advection.h and Homogenization.h.
-/
import Verif.Model.ElementStorageScalar
import Verif.Model.ProgramCell
import Verif.Lemmas.ElementStorageLoop

noncomputable section

namespace Pansfem

open Matrix

variable {K : Type} [Field K] {n : ℕ}

/-! ### Sums -/

theorem gauss_allSome {M : Type} [AddCommMonoid M] {N : ℕ} (f : Fin N → Option M) :
    gauss N f = (allSome f).map fun v => ∑ i, v i := by
  cases h : allSome f with
  | none =>
    obtain ⟨i, hi⟩ := allSome_none h
    exact foldlM_fails (List.mem_finRange i) (fun s => by rw [hi]; rfl) _
  | some v => exact gauss_eq_some.2 ⟨v, allSome_eq_some.1 h, rfl⟩

theorem range_sum {M : Type} [AddCommMonoid M] (N : ℕ) (f : ℕ → Option M) :
    (List.range N).foldlM (fun s i => do return s + (← f i)) 0 =
      (allSome fun i : Fin N => f i).map fun v => ∑ i, v i := by
  rw [← gauss_allSome, ← List.map_coe_finRange_eq_range, List.foldlM_map]
  rfl

/-! ### Nodal values -/

theorem nodalS_eq (u : List (Vec K)) (element : List ℕ) :
    nodalS u element = (gather u element element.length 1).map fun U => densev fun i => U i 0 := by
  have hg : gather u element element.length 1 = allSome fun i : Fin element.length =>
      allSome fun k : Fin 1 => (do nodal u (← element[(i : ℕ)]?) k) := if_pos rfl
  rw [hg]
  clear hg
  set n := element.length with hn
  have hr : nodalS u element = (List.range n).foldlM (fun U (i : ℕ) => do
    U.put? (i : ℕ) (← nodal u (← element[(i : ℕ)]?) 0)) (Vec.zeros n) := rfl
  rw [hr]
  cases hg : allSome fun i : Fin n => allSome fun k : Fin 1 => do nodal u (← element[(i : ℕ)]?) k with
  | none =>
    obtain ⟨i, hi⟩ := allSome_none hg
    obtain ⟨k, hk⟩ := allSome_none hi
    have hk0 : k = 0 := Subsingleton.elim _ _
    subst hk0
    refine foldlM_fails (List.mem_range.2 i.2) (fun s => ?_) _
    have hk' : (do nodal u (← element[(i : ℕ)]?) 0) = none := hk
    simp only [Option.bind_eq_bind] at hk' ⊢
    cases he : element[(i : ℕ)]? with
    | none => rfl
    | some e =>
      rw [he] at hk'
      simp only [Option.bind_some] at hk' ⊢
      rw [hk']; rfl
  | some U =>
    have hU : ∀ i : Fin n, (do nodal u (← element[(i : ℕ)]?) 0) = some (U i 0) :=
      fun i => allSome_eq_some.1 (allSome_eq_some.1 hg i) 0
    rw [C01_vec_zeros]
    have key : ∀ m, m ≤ n → (List.range m).foldlM (fun U (i : ℕ) => do
        U.put? (i : ℕ) (← nodal u (← element[(i : ℕ)]?) 0)) (densev (0 : Fin n → K)) =
        some (densev fun i : Fin n => if (i : ℕ) < m then U i 0 else 0) := by
      intro m
      induction m with
      | zero => intro _; simp; rfl
      | succ m ih =>
        intro hm
        rw [List.range_succ, List.foldlM_append, ih (by omega)]
        have h := hU ⟨m, hm⟩
        simp only [Option.bind_eq_bind] at h
        simp only [List.foldlM_cons, List.foldlM_nil, Option.bind_eq_bind, Option.bind_some]
        cases he : element[m]? with
        | none => rw [he] at h; cases h
        | some e =>
          rw [he] at h
          simp only [Option.bind_some] at h ⊢
          rw [h]
          simp only [Option.bind_some]
          have hw := C01_vec_write (fun i : Fin n => if (i : ℕ) < m then U i 0 else 0) ⟨m, hm⟩ (U ⟨m, hm⟩ 0)
          refine (congrArg (fun o => Option.bind o fun s => pure s) hw).trans ?_
          show some _ = some _
          congr 2
          funext i
          by_cases h1 : i = ⟨m, hm⟩
          · subst h1; simp
          · have h2 : (i : ℕ) ≠ m := fun h => h1 (Fin.ext h)
            by_cases h3 : (i : ℕ) < m
            · simp [h1, h3, Nat.lt_succ_of_lt h3]
            · simp [h1, h3, show ¬ (i : ℕ) < m + 1 by omega]
    rw [key n le_rfl]
    refine congrArg (fun v : Fin n → K => some (densev v)) ?_
    funext i
    exact if_pos i.2

/-! ### Stabilisation -/

theorem normS_eq (a : Fin n → ℝ) : normS (densev a) = some (Real.sqrt (a ⬝ᵥ a)) := by
  unfold normS
  rw [C01_normSq]
  show some _ = some _
  simp only [dotProduct, pow_two]

theorem advScaleS_eq {element : List ℕ} (he : element.length = n) (a : Fin 2 → ℝ) (k : ℝ)
    (dN : Matrix (Fin 2) (Fin n) ℝ) : advScaleS element (densev a) k (dense dN) = advScale dN a k := by
  unfold advScaleS advScale
  refine bind_value (C01_mat_transpose _) (bind_value (C01_mat_vec _ _) ?_)
  rw [he, normS_eq]
  have h := range_sum n fun i => do
    return ← div? |(← (densev (dNᵀ *ᵥ a)).at? (i : ℕ))| (← some (Real.sqrt (a ⬝ᵥ a)))
  simp only [Option.bind_eq_bind, Option.bind_some, bind_pure] at h ⊢
  have hs : (List.range n).foldlM (fun s (i : ℕ) => ((densev (dNᵀ *ᵥ a)).at? (i : ℕ)).bind fun y =>
      (div? |y| (Real.sqrt (a ⬝ᵥ a))).bind fun z => pure (s + z)) 0 =
      (allSome fun i : Fin n => div? |(dNᵀ *ᵥ a) i| (Real.sqrt (a ⬝ᵥ a))).map fun v => ∑ i, v i := by
    refine Eq.trans ?_ (h.trans ?_)
    · congr 1
      funext s i
      cases (densev (dNᵀ *ᵥ a)).at? (i : ℕ) with
      | none => rfl
      | some y => rfl
    · congr 2
      funext i
      rw [densev_read]
      rfl
  rw [hs]
  cases allSome fun i : Fin n => div? |(dNᵀ *ᵥ a) i| (Real.sqrt (a ⬝ᵥ a)) with
  | none => rfl
  | some v => rfl

theorem advTauS_eq {element : List ℕ} (he : element.length = n) (a : Fin 2 → ℝ) (k : ℝ)
    (dN : Matrix (Fin 2) (Fin n) ℝ) : advTauS element (densev a) k (dense dN) = advTau dN a k := by
  unfold advTauS advTau
  rw [advScaleS_eq he, normS_eq]
  rfl

theorem shockTauS_eq {element : List ℕ} (he : element.length = n) (a : Fin 2 → ℝ) (k : ℝ)
    (dN : Matrix (Fin 2) (Fin n) ℝ) : shockTauS element (densev a) k (dense dN) = shockTau dN a k := by
  unfold shockTauS shockTau
  rw [advScaleS_eq he, normS_eq]
  rfl

theorem ofList_pair (a b : K) : Vec.ofList [a, b] = densev ![a, b] := by
  simp [Vec.ofList, densev, List.ofFn_succ]

theorem outer_vecMulVec {r c : ℕ} (v : Fin r → K) (w : Fin c → K) :
    (Matrix.of fun i j => v i * w j) = vecMulVec v w := rfl

/-! ### Characteristic displacements -/

omit [Field K] in
theorem flatC_stored {k m : ℕ} (A : Matrix (Fin n × Fin k) (Fin m) K) :
    flatC A = dense (A.submatrix finProdFinEquiv.symm id) := by
  have hv : ∀ (A B : Mat K), A.row = B.row → A.col = B.col → A.values = B.values → A = B := by
    intro A B h1 h2 h3; cases A; cases B; simp_all
  refine hv _ _ rfl rfl ?_
  rw [dense_values_eq]
  rfl

theorem chiS_eq (chi : Fin 3 → List (Vec ℝ)) (element : List ℕ) :
    chiS (chi 0) (chi 1) (chi 2) element = (cellCHI chi element element.length).map flatC := by
  have hg0 : ∀ k, gather (chi k) element element.length 2 = allSome fun i : Fin element.length =>
      allSome fun c : Fin 2 => (do nodal (chi k) (← element[(i : ℕ)]?) c) := fun k => if_pos rfl
  unfold cellCHI
  set n := element.length with hn
  have hr : chiS (chi 0) (chi 1) (chi 2) element = (List.range n).foldlM (fun CHI i => assigns CHI
    [(2 * i, 0, do nodal (chi 0) (← element[i]?) 0), (2 * i, 1, do nodal (chi 1) (← element[i]?) 0),
     (2 * i, 2, do nodal (chi 2) (← element[i]?) 0),
     (2 * i + 1, 0, do nodal (chi 0) (← element[i]?) 1), (2 * i + 1, 1, do nodal (chi 1) (← element[i]?) 1),
     (2 * i + 1, 2, do nodal (chi 2) (← element[i]?) 1)]) (Mat.zeros (2 * n) 3) := rfl
  rw [hr]
  cases hg : allSome fun k : Fin 3 => gather (chi k) element n 2 with
  | none =>
    obtain ⟨k, hk⟩ := allSome_none hg
    rw [hg0] at hk
    obtain ⟨i, hi⟩ := allSome_none hk
    obtain ⟨c, hc⟩ := allSome_none hi
    refine foldlM_fails (List.mem_range.2 i.2) (fun s => ?_) _
    refine assigns_fails (p := (2 * (i : ℕ) + c, (k : ℕ), none)) ?_ rfl s
    have e : (2 * (i : ℕ) + c, (k : ℕ), (none : Option ℝ)) =
        (2 * (i : ℕ) + c, (k : ℕ), do nodal (chi k) (← element[(i : ℕ)]?) (c : ℕ)) :=
      congrArg (fun v => (2 * (i : ℕ) + (c : ℕ), (k : ℕ), v)) hc.symm
    rw [e]
    fin_cases c <;> fin_cases k <;> simp
  | some U =>
    have hU : ∀ k i c, (do nodal (chi k) (← element[((i : Fin n) : ℕ)]?) ((c : Fin 2) : ℕ)) =
        some (U k i c) :=
      fun k i c => allSome_eq_some.1 (allSome_eq_some.1 ((hg0 k).symm.trans (allSome_eq_some.1 hg k)) i) c
    show _ = some (flatC _)
    rw [flatC_stored, Nat.mul_comm 2 n, C01_mat_zeros]
    set A : Matrix (Fin n × Fin 2) (Fin 3) ℝ := Matrix.of fun p k => U k p.1 p.2 with hA
    have key : ∀ m, m ≤ n → (List.range m).foldlM (fun CHI i => assigns CHI
        [(2 * i, 0, do nodal (chi 0) (← element[i]?) 0), (2 * i, 1, do nodal (chi 1) (← element[i]?) 0),
         (2 * i, 2, do nodal (chi 2) (← element[i]?) 0),
         (2 * i + 1, 0, do nodal (chi 0) (← element[i]?) 1), (2 * i + 1, 1, do nodal (chi 1) (← element[i]?) 1),
         (2 * i + 1, 2, do nodal (chi 2) (← element[i]?) 1)]) (dense (0 : Matrix (Fin (n * 2)) (Fin 3) ℝ)) =
        some (dense (Matrix.of fun (r : Fin (n * 2)) k =>
          if ((finProdFinEquiv.symm r).1 : ℕ) < m then A (finProdFinEquiv.symm r) k else 0)) := by
      intro m
      induction m with
      | zero => intro _; simp; rfl
      | succ m ih =>
        intro hm
        rw [List.range_succ, List.foldlM_append, ih (by omega)]
        simp only [List.foldlM_cons, List.foldlM_nil, Option.bind_eq_bind, Option.bind_some]
        have h := fun k c => hU k ⟨m, hm⟩ c
        simp only [Option.bind_eq_bind] at h
        have h00 := h 0 0
        have h10 := h 1 0
        have h20 := h 2 0
        have h01 := h 0 1
        have h11 := h 1 1
        have h21 := h 2 1
        simp only [Fin.val_zero, Fin.val_one] at h00 h10 h20 h01 h11 h21
        rw [h00, h10, h20, h01, h11, h21]
        have ha := assigns_dense [(2 * m, 0, U 0 ⟨m, hm⟩ 0), (2 * m, 1, U 1 ⟨m, hm⟩ 0), (2 * m, 2, U 2 ⟨m, hm⟩ 0),
          (2 * m + 1, 0, U 0 ⟨m, hm⟩ 1), (2 * m + 1, 1, U 1 ⟨m, hm⟩ 1), (2 * m + 1, 2, U 2 ⟨m, hm⟩ 1)]
          (Matrix.of fun (r : Fin (n * 2)) (k : Fin 3) =>
            if ((finProdFinEquiv.symm r).1 : ℕ) < m then A (finProdFinEquiv.symm r) k else 0) (by simp; omega)
        refine (congrArg (fun o => Option.bind o fun s => pure s) ha).trans ?_
        show some _ = some _
        congr 2
        ext r k
        have c0 := column_eq r ⟨m, hm⟩ 0 (by norm_num)
        have c1 := column_eq r ⟨m, hm⟩ 1 (by norm_num)
        simp only [add_zero] at c0
        simp only [written, List.foldl_cons, List.foldl_nil, Matrix.of_apply, c0, c1, hA]
        generalize finProdFinEquiv.symm r = p
        obtain ⟨a, b⟩ := p
        by_cases h : a = ⟨m, hm⟩
        · subst h
          fin_cases k <;> fin_cases b <;> simp
        · have h' : (a : ℕ) ≠ m := fun e => h (Fin.ext e)
          by_cases h2 : (a : ℕ) < m
          · simp [h, h2, show (a : ℕ) < m + 1 by omega]
          · simp [h, h2, show ¬ (a : ℕ) < m + 1 by omega]
    rw [key n le_rfl]
    refine congrArg (fun M : Matrix (Fin (n * 2)) (Fin 3) ℝ => some (dense M)) ?_
    ext r k
    exact if_pos (finProdFinEquiv.symm r).1.2

end Pansfem
