/-
The matrices `B`, `D`, `C` and `G` that the storage-level element routines fill.
-/
import Verif.Lemmas.ElementStorage

noncomputable section

namespace Pansfem

open Matrix

variable {K : Type} [Field K] {n : ℕ}

/-! ### Strain-displacement matrices -/

theorem planeBS_eq (dNdX : Matrix (Fin 2) (Fin n) K) :
    planeBS n (dense dNdX) = some (dense ((planeB dNdX).submatrix id finProdFinEquiv.symm)) := by
  unfold planeBS
  rw [show 2 * n = n * 2 from Nat.mul_comm _ _]
  refine blocks_dense _ _ fun M i => ?_
  have h0 : (dense dNdX).at? 0 (i : ℕ) = some (dNdX 0 i) := C01_mat_read dNdX 0 i
  have h1 : (dense dNdX).at? 1 (i : ℕ) = some (dNdX 1 i) := C01_mat_read dNdX 1 i
  have hi := i.2
  rw [h0, h1]
  refine (assigns_dense [(0, 2 * (i : ℕ), dNdX 0 i), (0, 2 * i + 1, 0), (1, 2 * i, 0),
    (1, 2 * i + 1, dNdX 1 i), (2, 2 * i, dNdX 1 i), (2, 2 * i + 1, dNdX 0 i)] M ?_).trans ?_
  · simp; omega
  congr 2
  ext r c
  have c0 := column_eq c i 0 (by norm_num)
  have c1 := column_eq c i 1 (by norm_num)
  rw [add_zero] at c0
  simp only [written, List.foldl_cons, List.foldl_nil, Matrix.of_apply, c0, c1, planeB]
  generalize finProdFinEquiv.symm c = p
  obtain ⟨a, b⟩ := p
  by_cases h : a = i
  · subst h
    fin_cases r <;> fin_cases b <;> simp
  · fin_cases r <;> simp [h]

theorem planeBvolS_eq (dNdX : Matrix (Fin 2) (Fin n) K) :
    planeBvolS n (dense dNdX) = some (dense ((planeBvol dNdX).submatrix id finProdFinEquiv.symm)) := by
  unfold planeBvolS
  rw [show 2 * n = n * 2 from Nat.mul_comm _ _]
  refine blocks_dense _ _ fun M i => ?_
  have h0 : (dense dNdX).at? 0 (i : ℕ) = some (dNdX 0 i) := C01_mat_read dNdX 0 i
  have h1 : (dense dNdX).at? 1 (i : ℕ) = some (dNdX 1 i) := C01_mat_read dNdX 1 i
  have hi := i.2
  rw [h0, h1]
  refine (assigns_dense [(0, 2 * (i : ℕ), 1 / 2 * dNdX 0 i), (0, 2 * i + 1, 1 / 2 * dNdX 1 i),
    (1, 2 * i, 1 / 2 * dNdX 0 i), (1, 2 * i + 1, 1 / 2 * dNdX 1 i), (2, 2 * i, 0), (2, 2 * i + 1, 0)]
    M ?_).trans ?_
  · simp; omega
  congr 2
  ext r c
  have c0 := column_eq c i 0 (by norm_num)
  have c1 := column_eq c i 1 (by norm_num)
  rw [add_zero] at c0
  simp only [written, List.foldl_cons, List.foldl_nil, Matrix.of_apply, c0, c1, planeBvol]
  generalize finProdFinEquiv.symm c = p
  obtain ⟨a, b⟩ := p
  by_cases h : a = i
  · subst h
    fin_cases r <;> fin_cases b <;> simp
  · fin_cases r <;> simp [h]

theorem planeBdevS_eq (dNdX : Matrix (Fin 2) (Fin n) K) :
    planeBdevS n (dense dNdX) = some (dense ((planeBdev dNdX).submatrix id finProdFinEquiv.symm)) := by
  unfold planeBdevS
  rw [show 2 * n = n * 2 from Nat.mul_comm _ _]
  refine blocks_dense _ _ fun M i => ?_
  have h0 : (dense dNdX).at? 0 (i : ℕ) = some (dNdX 0 i) := C01_mat_read dNdX 0 i
  have h1 : (dense dNdX).at? 1 (i : ℕ) = some (dNdX 1 i) := C01_mat_read dNdX 1 i
  have hi := i.2
  rw [h0, h1]
  refine (assigns_dense [(0, 2 * (i : ℕ), 1 / 2 * dNdX 0 i), (0, 2 * i + 1, -(1 / 2) * dNdX 1 i),
    (1, 2 * i, -(1 / 2) * dNdX 0 i), (1, 2 * i + 1, 1 / 2 * dNdX 1 i), (2, 2 * i, dNdX 1 i),
    (2, 2 * i + 1, dNdX 0 i)] M ?_).trans ?_
  · simp; omega
  congr 2
  ext r c
  have c0 := column_eq c i 0 (by norm_num)
  have c1 := column_eq c i 1 (by norm_num)
  rw [add_zero] at c0
  simp only [written, List.foldl_cons, List.foldl_nil, Matrix.of_apply, c0, c1, planeBdev]
  generalize finProdFinEquiv.symm c = p
  obtain ⟨a, b⟩ := p
  by_cases h : a = i
  · subst h
    fin_cases r <;> fin_cases b <;> simp
  · fin_cases r <;> simp [h]

theorem densev_read {n : ℕ} (v : Fin n → K) (i : Fin n) : (densev v).at? (i : ℕ) = some (v i) := by
  simp [Vec.at?, densev, Vec.size]

theorem planeNS_eq (N : Fin n → K) :
    planeNS n (densev N) = some (dense ((planeN N).submatrix id finProdFinEquiv.symm)) := by
  unfold planeNS
  rw [show 2 * n = n * 2 from Nat.mul_comm _ _]
  refine blocks_dense _ _ fun M i => ?_
  have hi := i.2
  rw [densev_read]
  refine (assigns_dense [(0, 2 * (i : ℕ), N i), (0, 2 * i + 1, 0), (1, 2 * i, 0), (1, 2 * i + 1, N i)]
    M ?_).trans ?_
  · simp; omega
  congr 2
  ext r c
  have c0 := column_eq c i 0 (by norm_num)
  have c1 := column_eq c i 1 (by norm_num)
  rw [add_zero] at c0
  simp only [written, List.foldl_cons, List.foldl_nil, Matrix.of_apply, c0, c1, planeN]
  generalize finProdFinEquiv.symm c = p
  obtain ⟨a, b⟩ := p
  by_cases h : a = i
  · subst h
    fin_cases r <;> fin_cases b <;> simp
  · fin_cases r <;> simp [h]

theorem solidBS_eq (dNdX : Matrix (Fin 3) (Fin n) K) :
    solidBS n (dense dNdX) = some (dense ((solidB dNdX).submatrix id finProdFinEquiv.symm)) := by
  unfold solidBS
  rw [show 3 * n = n * 3 from Nat.mul_comm _ _]
  refine blocks_dense _ _ fun M i => ?_
  have h0 : (dense dNdX).at? 0 (i : ℕ) = some (dNdX 0 i) := C01_mat_read dNdX 0 i
  have h1 : (dense dNdX).at? 1 (i : ℕ) = some (dNdX 1 i) := C01_mat_read dNdX 1 i
  have h2 : (dense dNdX).at? 2 (i : ℕ) = some (dNdX 2 i) := C01_mat_read dNdX 2 i
  have hi := i.2
  rw [h0, h1, h2]
  refine (assigns_dense [(0, 3 * (i : ℕ), dNdX 0 i), (0, 3 * i + 1, 0), (0, 3 * i + 2, 0),
     (1, 3 * i, 0), (1, 3 * i + 1, dNdX 1 i), (1, 3 * i + 2, 0),
     (2, 3 * i, 0), (2, 3 * i + 1, 0), (2, 3 * i + 2, dNdX 2 i),
     (3, 3 * i, dNdX 1 i), (3, 3 * i + 1, dNdX 0 i), (3, 3 * i + 2, 0),
     (4, 3 * i, 0), (4, 3 * i + 1, dNdX 2 i), (4, 3 * i + 2, dNdX 1 i),
     (5, 3 * i, dNdX 2 i), (5, 3 * i + 1, 0), (5, 3 * i + 2, dNdX 0 i)] M ?_).trans ?_
  · simp; omega
  congr 2
  ext r c
  have c0 := column_eq c i 0 (by norm_num)
  have c1 := column_eq c i 1 (by norm_num)
  have c2 := column_eq c i 2 (by norm_num)
  rw [add_zero] at c0
  simp only [written, List.foldl_cons, List.foldl_nil, Matrix.of_apply, c0, c1, c2, solidB]
  generalize finProdFinEquiv.symm c = p
  obtain ⟨a, b⟩ := p
  by_cases h : a = i
  · subst h
    fin_cases r <;> fin_cases b <;> simp
  · fin_cases r <;> simp [h]

/-! ### Constitutive matrices -/

theorem planeStrainDS_eq [DecidableEq K] (E V : K) : planeStrainDS E V = (planeStrainD E V).map dense := by
  have h1 : assigns (Mat.zeros 3 3) [(0, 0, some (1 - V)), (0, 1, some V), (0, 2, some 0)] =
      some ⟨3, 3, [1 - V, V, 0, 0, 0, 0, 0, 0, 0]⟩ := rfl
  have h2 : assigns (⟨3, 3, [1 - V, V, 0, 0, 0, 0, 0, 0, 0]⟩ : Mat K)
      [(1, 0, (⟨3, 3, [1 - V, V, 0, 0, 0, 0, 0, 0, 0]⟩ : Mat K).at? 0 1), (1, 1, some (1 - V)), (1, 2, some 0)] =
      some ⟨3, 3, [1 - V, V, 0, V, 1 - V, 0, 0, 0, 0]⟩ := rfl
  have h3 : assigns (⟨3, 3, [1 - V, V, 0, V, 1 - V, 0, 0, 0, 0]⟩ : Mat K)
      [(2, 0, (⟨3, 3, [1 - V, V, 0, V, 1 - V, 0, 0, 0, 0]⟩ : Mat K).at? 0 2),
       (2, 1, (⟨3, 3, [1 - V, V, 0, V, 1 - V, 0, 0, 0, 0]⟩ : Mat K).at? 1 2),
       (2, 2, some (1 / 2 * (1 - 2 * V)))] =
      some (dense (planeStrainD0 V)) := rfl
  unfold planeStrainDS planeStrainD
  refine bind_value h1 (bind_value h2 (bind_value h3 ?_))
  cases div? E ((1 - 2 * V) * (1 + V)) with
  | none => rfl
  | some a => exact bind_value rfl (C01_mat_smul (K := K) _ a)

theorem planeStressDS_eq [DecidableEq K] (E V : K) : planeStressDS E V = (planeStressD E V).map dense := by
  have h1 : assigns (Mat.zeros 3 3) [(0, 0, some 1), (0, 1, some V), (0, 2, some 0)] =
      some ⟨3, 3, [1, V, 0, 0, 0, 0, 0, 0, 0]⟩ := rfl
  have h2 : assigns (⟨3, 3, [1, V, 0, 0, 0, 0, 0, 0, 0]⟩ : Mat K)
      [(1, 0, (⟨3, 3, [1, V, 0, 0, 0, 0, 0, 0, 0]⟩ : Mat K).at? 0 1), (1, 1, some 1), (1, 2, some 0)] =
      some ⟨3, 3, [1, V, 0, V, 1, 0, 0, 0, 0]⟩ := rfl
  have h3 : assigns (⟨3, 3, [1, V, 0, V, 1, 0, 0, 0, 0]⟩ : Mat K)
      [(2, 0, (⟨3, 3, [1, V, 0, V, 1, 0, 0, 0, 0]⟩ : Mat K).at? 0 2),
       (2, 1, (⟨3, 3, [1, V, 0, V, 1, 0, 0, 0, 0]⟩ : Mat K).at? 1 2),
       (2, 2, some (1 / 2 * (1 - V)))] =
      some (dense (planeStressD0 V)) := rfl
  unfold planeStressDS planeStressD
  refine bind_value h1 (bind_value h2 (bind_value h3 ?_))
  cases div? E ((1 - V) * (1 + V)) with
  | none => rfl
  | some a => exact bind_value rfl (C01_mat_smul (K := K) _ a)

theorem planeStrainDvolS_eq [DecidableEq K] (E V : K) :
    planeStrainDvolS E V = (planeStrainDvol E V).map dense := by
  unfold planeStrainDvolS planeStrainDvol
  rw [C01_mat_zeros]
  refine bind_value (assigns_all (Matrix.of ![![(1 : K), 1, 0], ![1, 1, 0], ![0, 0, 0]]) 0) ?_
  cases div? E (3 * (1 - 2 * V)) with
  | none => rfl
  | some a => exact bind_value rfl (C01_mat_smul (K := K) _ a)

theorem planeStrainDdevS_eq [DecidableEq K] (E V : K) :
    planeStrainDdevS E V = (planeStrainDdev E V).map dense := by
  unfold planeStrainDdevS planeStrainDdev
  rw [C01_mat_zeros]
  refine bind_value (assigns_all (Matrix.of ![![(4 : K), -2, 0], ![-2, 4, 0], ![0, 0, 3]]) 0) ?_
  cases div? E (6 * (1 + V)) with
  | none => rfl
  | some a => exact bind_value rfl (C01_mat_smul (K := K) _ a)

theorem solidCS_eq [DecidableEq K] (E V : K) : solidCS E V = (solidC E V).map dense := by
  unfold solidCS solidC
  rw [C01_mat_zeros]
  simp only []
  refine bind_value (assigns_all (solidC0 V) 0) ?_
  cases div? E ((1 + V) * (1 - 2 * V)) with
  | none => rfl
  | some a => exact bind_value rfl (C01_mat_smul (K := K) _ a)

/-! ### The incompatible modes -/

theorem dPdrS_eq (r : Fin 2 → K) :
    dPdrS (densev r) = some (dense (Matrix.of ![![-2 * r 0, 0], ![0, -2 * r 1]])) := by
  unfold dPdrS
  have h0 : (densev r).at? 0 = some (r 0) := densev_read r 0
  have h1 : (densev r).at? 1 = some (r 1) := densev_read r 1
  rw [C01_mat_zeros, h0, h1]
  exact assigns_all (Matrix.of ![![-2 * r 0, 0], ![0, -2 * r 1]]) 0

theorem planeGS_eq (A : Matrix (Fin 2) (Fin 2) K) :
    planeGS (dense A) = some (dense (Matrix.of ![![A 0 0, 0, A 0 1, 0],
      ![0, A 1 0, 0, A 1 1], ![A 1 0, A 0 0, A 1 1, A 0 1]])) := by
  unfold planeGS
  have h00 : (dense A).at? 0 0 = some (A 0 0) := C01_mat_read A 0 0
  have h01 : (dense A).at? 0 1 = some (A 0 1) := C01_mat_read A 0 1
  have h10 : (dense A).at? 1 0 = some (A 1 0) := C01_mat_read A 1 0
  have h11 : (dense A).at? 1 1 = some (A 1 1) := C01_mat_read A 1 1
  rw [C01_mat_zeros, h00, h01, h10, h11]
  exact assigns_all (Matrix.of ![![A 0 0, 0, A 0 1, 0],
      ![0, A 1 0, 0, A 1 1], ![A 1 0, A 0 0, A 1 1, A 0 1]]) 0

end Pansfem
