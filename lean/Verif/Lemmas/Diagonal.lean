/-
Systems whose matrix is diagonal, tables marked by `SetDirichlet`, and element routines with a block for each velocity.
-/
import Verif.Model.ProgramDecoupled
import Verif.Props.C112_TimeStepping
import Verif.Lemmas.LoadedAnalysis

noncomputable section

open Matrix

namespace Pansfem

/-! ### The solver -/

/-- The assembled matrix is diagonal with entries that are not zero: dividing by the diagonal solves the system. -/
theorem solveStep_diagonal {t : List (List ℤ)} {u : List (Vec ℝ)} {N : ℕ} {calls : List (AsmCall ℝ)} (hN : Numbered t N)
    (h : ∀ c ∈ calls, c.Fits t u) (hsurj : ∀ I < N, ∃ n d, dofNum t n d = some (I : ℤ))
    (hu : ∀ n d, numOf t n d ≠ -1 → (nodal u n d).isSome)
    (hd : ∀ w v : ℕ → ℕ → ℝ, (∀ n d, w n d * v n d = 0) → energy calls w v = 0)
    (hpos : ∀ v : ℕ → ℕ → ℝ, (∀ n d, numOf t n d = -1 → v n d = 0) → (∃ n d, v n d ≠ 0) → 0 < energy calls v v) :
    ∃ u', solveStep useDiagonal u t N calls = some (u', true) ∧
      (∀ n d, numOf t n d = -1 → nodal u' n d = nodal u n d) ∧ ∀ I < N, eqResidual t calls (valOf u') I = 0 := by
  obtain ⟨A, F, h1, h2, h3, h4, h5⟩ := asmCalls_system hN h
  subst h3
  obtain ⟨m, s', h6, h7⟩ := csr_of_ok h2
  have key : ∀ I < F.length, ∀ J < F.length, obsK A I J =
      energy calls (spread t (fun _ _ => 0) (Pi.single I 1)) (spread t (fun _ _ => 0) (Pi.single J 1)) := by
    intro I hI J hJ
    rw [← system_energy hN h, Finset.sum_eq_single I, Finset.sum_eq_single J]
    · simp [h4]
    · intro K _ hK; simp [Pi.single_eq_of_ne hK]
    · intro hn; exact absurd (Finset.mem_range.2 hJ) hn
    · intro K _ hK; simp [Pi.single_eq_of_ne hK]
    · intro hn; exact absurd (Finset.mem_range.2 hI) hn
  have off : ∀ I < F.length, ∀ J < F.length, I ≠ J → obsK A I J = 0 := by
    intro I hI J hJ hne
    rw [key I hI J hJ]
    refine hd _ _ fun n d => ?_
    unfold spread
    split_ifs with hm
    · simp
    · by_cases hk : (numOf t n d).toNat = I
      · rw [hk, Pi.single_eq_of_ne hne, mul_zero]
      · rw [Pi.single_eq_of_ne hk, zero_mul]
  have dia : ∀ I < F.length, 0 < obsK A I I := by
    intro I hI
    rw [key I hI I hI]
    refine hpos _ (fun n d hnd => by rw [spread, if_pos hnd]) ?_
    obtain ⟨n, d, hnd⟩ := hsurj I hI
    refine ⟨n, d, ?_⟩
    rw [spread, numOf_some hnd, if_neg (by omega), Int.toNat_natCast, Pi.single_eq_same]
    exact one_ne_zero
  set x : Fin F.length → ℝ := fun i => F[(i : ℕ)] / obsK A i i with hxdef
  have hx : useDiagonal F.length m (fun i => F[(i : ℕ)]) = some (x, true) := by
    unfold useDiagonal
    rw [getDiagonal_eq m _ h7]
    simp only [Option.bind_eq_bind, Option.bind_some]
    unfold scaling
    rw [if_neg]
    · rfl
    · rintro ⟨i, hi⟩
      exact (dia i i.2).ne' hi
  obtain ⟨v, hv⟩ := C25_defined u (List.ofFn x) t (by
    intro n d g hg hne
    rcases hN n d g hg with h8 | h8
    · exact absurd h8 hne
    · exact ⟨h8.1, by simpa using h8.2, hu n d (by rw [numOf_some hg]; exact hne)⟩)
  refine ⟨v, ?_, fun n d hn => ?_, fun I hI => ?_⟩
  · unfold solveStep
    simp only [h1, h6, Option.bind_eq_bind, Option.bind_some, hx, hv]
    rfl
  · obtain ⟨-, hd⟩ := C25_disassembling u v _ t hv
    rw [hd]
    unfold numOf at hn
    cases hq : dofNum t n d with
    | none => rfl
    | some g => rw [hq] at hn; simp only [Option.getD_some] at hn; simp [hn]
  · have hval : valOf v = spread t (valOf u) (obsF (List.ofFn x)) := by
      funext n d; exact valOf_disassembling hv n d
    have := system_residual hN h (obsF (List.ofFn x)) (valOf u) (fun _ _ _ => rfl) I
    rw [hval, ← this, ← h5]
    simp only [← h4]
    rw [Finset.sum_eq_single I]
    · have hF : obsF F I = F[I] := by simp [obsF, hI]
      have hX := obsF_ofFn x ⟨I, hI⟩
      simp only at hX
      rw [hX, hF, hxdef]
      simp only
      rw [mul_div_cancel₀ _ (dia I hI).ne', sub_self]
    · intro J hJ hne
      rw [off I hI J (Finset.mem_range.1 hJ) (Ne.symm hne), zero_mul]
    · intro hn; exact absurd (Finset.mem_range.2 hI) hn

/-- The same with a table before `Renumbering`. -/
theorem diagonal_solves {u : List (Vec ℝ)} {t : List (List ℤ)} {calls : List (AsmCall ℝ)}
    (hc : ∀ c ∈ calls, c.Fits t u) (hu : ∀ n d, IsFree t ([] : List ((ℕ × ℕ) × ℝ)) (n, d) → (nodal u n d).isSome)
    (hd : ∀ w v : ℕ → ℕ → ℝ, (∀ n d, w n d * v n d = 0) → energy calls w v = 0)
    (hpos : ∀ v : ℕ → ℕ → ℝ, (∀ n d, ¬ IsFree t ([] : List ((ℕ × ℕ) × ℝ)) (n, d) → v n d = 0) → (∃ n d, v n d ≠ 0) →
      0 < energy calls v v) :
    ∃ u', solveStep useDiagonal u (renumbering t).1 (renumbering t).2 calls = some (u', true) ∧
      (∀ n d, ¬ IsFree t ([] : List ((ℕ × ℕ) × ℝ)) (n, d) → nodal u' n d = nodal u n d) ∧
      ∀ n d, IsFree t ([] : List ((ℕ × ℕ) × ℝ)) (n, d) → residual calls (valOf u') n d = 0 := by
  have h1 : setDirichlet u t ([] : List ((ℕ × ℕ) × ℝ)) = some (u, t) := rfl
  have hf := fun c hc' => fits_renumbered h1 (hc c hc')
  obtain ⟨u', a, b, c⟩ := solveStep_diagonal (u := u) (renumbering_numbered t) hf
    (fun I hI => (C20_range t I (by omega)).2 ⟨by omega, by omega⟩)
    (fun n d hnd => hu n d ((numOf_renumbered h1 n d).1 hnd)) hd
    (fun v hv => hpos v fun n d hn => hv n d (by
      by_contra hc'
      exact hn ((numOf_renumbered h1 n d).1 hc')))
  refine ⟨u', a, fun n d hn => b n d (by
    by_contra hc'
    exact hn ((numOf_renumbered h1 n d).1 hc')), fun n d hn => ?_⟩
  have hnum := (numOf_renumbered h1 n d).2 hn
  have := eqResidual_dof hf (valOf u') hnum
  rw [← this]
  refine c _ ?_
  rcases renumbering_numbered t _ _ _ (dofNum_of_numOf hnum) with h3 | h3
  · exact absurd h3 hnum
  · omega

/-! ### Marked tables -/

/-- A table in which the listed dofs are marked. -/
structure Marks (t₀ : List (List ℤ)) (bc : List ((ℕ × ℕ) × ℝ)) (t : List (List ℤ)) : Prop where
  lengths : t.map List.length = t₀.map List.length
  nums : ∀ n d, dofNum t n d = if (n, d) ∈ bc.map Prod.fst then some (-1) else dofNum t₀ n d

theorem marks_dirichlet {u v : List (Vec ℝ)} {t₀ t : List (List ℤ)} {bc : List ((ℕ × ℕ) × ℝ)}
    (h : setDirichlet u t₀ bc = some (v, t)) : Marks t₀ bc t := by
  obtain ⟨h1, -, h2⟩ := C21_setDirichlet _ _ _ _ _ h
  exact ⟨h1, fun n d => (h2 n d).1⟩

theorem Marks.again {t₀ t t' : List (List ℤ)} {bc : List ((ℕ × ℕ) × ℝ)} (h : Marks t₀ bc t) (h' : Marks t bc t') :
    Marks t₀ bc t' := by
  refine ⟨h'.lengths.trans h.lengths, fun n d => ?_⟩
  rw [h'.nums, h.nums]
  split_ifs <;> rfl

theorem Marks.isFree {t₀ t : List (List ℤ)} {bc : List ((ℕ × ℕ) × ℝ)} (h : Marks t₀ bc t) (n d : ℕ) :
    IsFree t ([] : List ((ℕ × ℕ) × ℝ)) (n, d) ↔ IsFree t₀ bc (n, d) := by
  unfold IsFree numOf
  rw [h.nums]
  by_cases hm : (n, d) ∈ bc.map Prod.fst
  · simp [hm]
  · simp [hm]

theorem Marks.freeDofs {t₀ t : List (List ℤ)} {bc : List ((ℕ × ℕ) × ℝ)} (h : Marks t₀ bc t) :
    Pansfem.freeDofs t ([] : List ((ℕ × ℕ) × ℝ)) = Pansfem.freeDofs t₀ bc := by
  unfold Pansfem.freeDofs
  rw [allDofs_lengths h.lengths]
  refine List.filter_congr fun p _ => ?_
  rw [decide_eq_decide]
  exact h.isFree p.1 p.2

theorem Marks.fits {t₀ t : List (List ℤ)} {bc : List ((ℕ × ℕ) × ℝ)} (h : Marks t₀ bc t) {c : AsmCall ℝ} {u : List (Vec ℝ)}
    (hc : c.Fits t₀ u) : c.Fits t u :=
  ⟨fun p hp => ⟨by rw [isSome_of_lengths h.lengths]; exact (hc.1 p hp).1, (hc.1 p hp).2⟩, hc.2⟩

/-! ### Blocks -/

section
variable {K : Type} {m : ℕ}

theorem joinM_dense (A : Matrix (Fin m ⊕ Fin m) (Fin m ⊕ Fin m) K) :
    joinM A = dense (A.submatrix finSumFinEquiv.symm finSumFinEquiv.symm) := rfl

theorem joinV_dense (f : Fin m ⊕ Fin m → K) : joinV f = densev (f ∘ finSumFinEquiv.symm) := rfl

/-- The local number of component `j` at node `i`. -/
def blockPos (i : Fin m) (j : Fin 2) : Fin m ⊕ Fin m := if j = 0 then .inl i else .inr i

theorem blockPos_val (i : Fin m) (j : Fin 2) : ((finSumFinEquiv (blockPos i j) : Fin (m + m)) : ℕ) = m * j + i := by
  fin_cases j
  · simp [blockPos]
  · simp [blockPos, add_comm]

theorem joinM_entry (A : Matrix (Fin m ⊕ Fin m) (Fin m ⊕ Fin m) K) (i i' : Fin m) (j j' : Fin 2) :
    (joinM A).at? ((m * (j : ℕ) + i : ℕ) : ℤ) ((m * (j' : ℕ) + i' : ℕ) : ℤ) = some (A (blockPos i j) (blockPos i' j')) := by
  rw [← blockPos_val, ← blockPos_val, joinM_dense, dense_at _ (finSumFinEquiv _).2 (finSumFinEquiv _).2]
  simp

theorem joinV_entry (f : Fin m ⊕ Fin m → K) (i : Fin m) (j : Fin 2) :
    (joinV f).at? ((m * (j : ℕ) + i : ℕ) : ℤ) = some (f (blockPos i j)) := by
  rw [← blockPos_val, joinV_dense, densev_at _ (finSumFinEquiv _).2]
  simp

/-- The table of the routines with a block for each velocity. -/
def blockTable (m : ℕ) : List (List (ℕ × ℕ)) := (List.range m).map fun i => [(0, i), (1, m + i)]

theorem blocked2_eq (n : ℕ) : blocked2 n [0, 1] = some (blockTable n) := rfl

theorem localDofs_block {e : List ℕ} (he : e.length = m) :
    localDofs (blockTable m) e = (List.finRange m).flatMap fun i : Fin m => (List.finRange 2).map fun j : Fin 2 =>
      (e[(i : ℕ)]'(by rw [he]; exact i.2), (j : ℕ), m * (j : ℕ) + i) := by
  unfold localDofs blockTable
  rw [zip_map_range _ he, List.flatMap_map]
  refine List.flatMap_congr fun i _ => ?_
  simp [List.finRange_succ]

theorem mem_localDofs_block {e : List ℕ} (he : e.length = m) {p : ℕ × ℕ × ℕ} :
    p ∈ localDofs (blockTable m) e ↔ ∃ (i : Fin m) (j : Fin 2),
      p = (e[(i : ℕ)]'(by rw [he]; exact i.2), (j : ℕ), m * (j : ℕ) + i) := by
  rw [localDofs_block he]
  simp only [List.mem_flatMap, List.mem_finRange, true_and, List.mem_map, eq_comm]

/-- The values of two velocities at the nodes of an element. -/
def blockField (m : ℕ) (e : List ℕ) (v : ℕ → ℕ → K) : Fin m ⊕ Fin m → K :=
  Sum.elim (fun i => v (e[(i : ℕ)]?.getD 0) 0) fun i => v (e[(i : ℕ)]?.getD 0) 1

theorem blockField_at {e : List ℕ} (he : e.length = m) (v : ℕ → ℕ → K) (i : Fin m) (j : Fin 2) :
    v (e[(i : ℕ)]'(by rw [he]; exact i.2)) j = blockField m e v (blockPos i j) := by
  have h1 : (i : ℕ) < e.length := by rw [he]; exact i.2
  fin_cases j <;> simp [blockPos, blockField, h1]

theorem sum_block [AddCommMonoid K] (f : Fin m ⊕ Fin m → K) : ∑ i, ∑ j, f (blockPos i j) = ∑ p, f p := by
  rw [Fintype.sum_sum_type, ← Finset.sum_add_distrib]
  refine Finset.sum_congr rfl fun i _ => ?_
  simp [blockPos]

theorem block_energy [CommRing K] (A : Matrix (Fin m ⊕ Fin m) (Fin m ⊕ Fin m) K) {e : List ℕ} (he : e.length = m)
    (v w : ℕ → ℕ → K) : callEnergy (.matrix (joinM A) (blockTable m) e) v w =
      blockField m e v ⬝ᵥ (A *ᵥ blockField m e w) := by
  unfold callEnergy
  simp only [AsmCall.dofs]
  rw [localDofs_block he, sum_flatMap_map, dotProduct, ← sum_block]
  refine Finset.sum_congr rfl fun i _ => Finset.sum_congr rfl fun j _ => ?_
  simp only [blockField_at he]
  congr 1
  rw [sum_flatMap_map, mulVec, dotProduct, ← sum_block]
  refine Finset.sum_congr rfl fun i' _ => Finset.sum_congr rfl fun j' _ => ?_
  simp only [blockField_at he, AsmCall.mat]
  rw [joinM_entry]
  rfl

theorem block_work [CommRing K] (f : Fin m ⊕ Fin m → K) {e : List ℕ} (he : e.length = m) (w : ℕ → ℕ → K) :
    callLoad (.load (joinV f) (blockTable m) e) w = blockField m e w ⬝ᵥ f := by
  unfold callLoad
  simp only [AsmCall.dofs]
  rw [localDofs_block he, sum_flatMap_map, dotProduct, ← sum_block]
  refine Finset.sum_congr rfl fun i _ => Finset.sum_congr rfl fun j _ => ?_
  simp only [blockField_at he, AsmCall.rhs]
  rw [joinV_entry]
  rfl

theorem block_fits (A : Matrix (Fin m ⊕ Fin m) (Fin m ⊕ Fin m) K) {e : List ℕ} (he : e.length = m) {t : List (List ℤ)}
    {u : List (Vec K)} (h : ∀ n ∈ e, ∀ j < 2, (dofNum t n j).isSome ∧ (nodal u n j).isSome) :
    (AsmCall.matrix (joinM A) (blockTable m) e).Fits t u := by
  refine ⟨fun p hp => ?_, by simp [blockTable, he], fun p hp q hq => ?_⟩
  · obtain ⟨i, j, rfl⟩ := (mem_localDofs_block he).1 hp
    exact h _ (List.getElem_mem _) j j.2
  · obtain ⟨i, j, rfl⟩ := (mem_localDofs_block he).1 hp
    obtain ⟨i', j', rfl⟩ := (mem_localDofs_block he).1 hq
    simp only
    rw [joinM_entry]
    rfl

theorem block_load_fits (f : Fin m ⊕ Fin m → K) {e : List ℕ} (he : e.length = m) {t : List (List ℤ)}
    {u : List (Vec K)} (h : ∀ n ∈ e, ∀ j < 2, (dofNum t n j).isSome ∧ (nodal u n j).isSome) :
    (AsmCall.load (joinV f) (blockTable m) e).Fits t u := by
  refine ⟨fun p hp => ?_, by simp [blockTable, he], fun p hp => ?_⟩
  · obtain ⟨i, j, rfl⟩ := (mem_localDofs_block he).1 hp
    exact h _ (List.getElem_mem _) j j.2
  · obtain ⟨i, j, rfl⟩ := (mem_localDofs_block he).1 hp
    simp only
    rw [joinV_entry]
    rfl

/-- `ElementVector` with the table of the blocks. -/
theorem block_elementVector {u : List (Vec ℝ)} {e : List ℕ} (he : e.length = m)
    (h : ∀ n ∈ e, ∀ j < 2, (nodal u n j).isSome) :
    elementVector u (blockTable m) e = some (joinV (blockField m e (valOf u))) := by
  have hl : (localDofs (blockTable m) e).length = m + m := by
    rw [localDofs_block he, List.length_flatMap]
    simp
    ring
  have hpos : (localDofs (blockTable m) e).map (fun p => p.2.2) =
      (List.finRange m).flatMap fun i : Fin m => (List.finRange 2).map fun j : Fin 2 =>
        ((finSumFinEquiv (blockPos i j) : Fin (m + m)) : ℕ) := by
    rw [localDofs_block he, List.map_flatMap]
    refine List.flatMap_congr fun i _ => ?_
    rw [List.map_map]
    exact List.map_congr_left fun j _ => (blockPos_val i j).symm
  obtain ⟨v, h1, h2, h3⟩ := C110_elementVector u (blockTable m) e (by simp [blockTable, he])
    (fun p hp => by
      obtain ⟨i, j, rfl⟩ := (mem_localDofs_block he).1 hp
      exact h _ (List.getElem_mem _) j j.2)
    (by
      rw [hpos, List.nodup_flatMap]
      refine ⟨fun i _ => ?_, ?_⟩
      · refine (List.nodup_finRange 2).map fun j j' hj => ?_
        have := finSumFinEquiv.injective (Fin.ext hj)
        fin_cases j <;> fin_cases j' <;> simp_all [blockPos]
      · refine (List.nodup_finRange m).pairwise_of_forall_ne fun i _ i' _ hne => ?_
        intro a ha ha'
        obtain ⟨j, -, rfl⟩ := List.mem_map.1 ha
        obtain ⟨j', -, hj⟩ := List.mem_map.1 ha'
        have := finSumFinEquiv.injective (Fin.ext hj)
        fin_cases j <;> fin_cases j' <;> simp_all [blockPos])
    (fun p hp => by
      obtain ⟨i, j, rfl⟩ := (mem_localDofs_block he).1 hp
      rw [hl]
      show m * (j : ℕ) + i < m + m
      rw [← blockPos_val]
      exact (finSumFinEquiv _).2)
  rw [h1]
  rw [hl] at h2
  obtain ⟨w, rfl⟩ := exists_densev_size h2
  rw [joinV_dense]
  congr 2
  funext q
  obtain ⟨p, rfl⟩ := finSumFinEquiv.surjective q
  obtain ⟨i, j, rfl⟩ : ∃ i j, p = blockPos i j := by
    rcases p with i | i
    · exact ⟨i, 0, rfl⟩
    · exact ⟨i, 1, rfl⟩
  have h4 := h3 _ ((mem_localDofs_block he).2 ⟨i, j, rfl⟩)
  have h5 := h e[(i : ℕ)] (List.getElem_mem (by rw [he]; exact i.2)) j j.2
  simp only at h4
  rw [← blockPos_val, densev_at _ (finSumFinEquiv _).2] at h4
  simp only [Function.comp_apply, Equiv.symm_apply_apply]
  rw [← blockField_at he]
  show _ = (nodal u e[(i : ℕ)] j).getD 0
  rw [← h4]
  rfl

end

end Pansfem
