/-
C01  Dense vector/matrix arithmetic is the mathematical arithmetic, and fails exactly on a
shape or bounds mismatch.

`dense M` is the object holding the mathematical matrix `M` row after row and `densev v` the object
holding the vector `v` (Verif/Spec/Dense.lean).  Every well formed object is of this form
(`C01_every_object`), so the equations below determine each operation on all objects.
-/
import Verif.Lemmas.Dense
import Mathlib.LinearAlgebra.Matrix.Notation
import Mathlib.LinearAlgebra.CrossProduct
import Mathlib.Tactic.NormNum
import Mathlib.Algebra.Field.Rat

namespace Pansfem

variable {K : Type*}

/-- Objects and mathematical matrices/vectors correspond one to one. -/
theorem C01_every_object (A : Mat K) (h : A.WF) :
    ∃! M : Matrix (Fin A.row) (Fin A.col) K, A = dense M := by
  obtain ⟨M, hM⟩ := exists_dense A h
  exact ⟨M, hM, fun N hN => dense_injective (hN.symm.trans hM)⟩

theorem C01_every_vector (v : Vec K) : ∃! w : Fin v.size → K, v = densev w := by
  obtain ⟨w, hw⟩ := exists_densev v
  exact ⟨w, hw, fun x hx => densev_injective (hx.symm.trans hw)⟩

/-! ### Element access -/

/-- Reading an entry. -/
theorem C01_mat_read {r c : ℕ} (M : Matrix (Fin r) (Fin c) K) (i : Fin r) (j : Fin c) :
    (dense M).at? i j = some (M i j) := by
  unfold Mat.at?
  have h1 : (i : ℤ) < (dense M).row := by simp
  have h2 : (j : ℤ) < (dense M).col := by simp
  rw [if_pos ⟨by positivity, h1, by positivity, h2⟩]
  have : ((i : ℤ) * ((dense M).col : ℤ) + (j : ℤ)).toNat = (i : ℕ) * c + j := by
    simp only [dense_col]; omega
  rw [this, dense_get]

/-- Reading fails exactly outside the bounds. -/
theorem C01_mat_read_fails (A : Mat K) (h : A.WF) (i j : ℤ) :
    A.at? i j = none ↔ ¬ (0 ≤ i ∧ i < A.row ∧ 0 ≤ j ∧ j < A.col) := by
  constructor
  · intro hn hb
    obtain ⟨M, hM⟩ := exists_dense A h
    obtain ⟨hi, hi', hj, hj'⟩ := hb
    lift i to ℕ using hi
    lift j to ℕ using hj
    have := C01_mat_read M ⟨i, by exact_mod_cast hi'⟩ ⟨j, by exact_mod_cast hj'⟩
    rw [← hM] at this
    simp [this] at hn
  · intro hb
    unfold Mat.at?
    rw [if_neg hb]

/-- Writing an entry changes that entry and no other. -/
theorem C01_mat_write {r c : ℕ} (M : Matrix (Fin r) (Fin c) K) (i : Fin r) (j : Fin c) (x : K) :
    (dense M).put? i j x
      = some (dense (Matrix.of fun i' j' => if i' = i ∧ j' = j then x else M i' j')) := by
  unfold Mat.put?
  have h1 : (i : ℤ) < (dense M).row := by simp
  have h2 : (j : ℤ) < (dense M).col := by simp
  rw [if_pos ⟨by positivity, h1, by positivity, h2⟩]
  have : ((i : ℤ) * ((dense M).col : ℤ) + (j : ℤ)).toNat = (i : ℕ) * c + j := by
    simp only [dense_col]; omega
  rw [this]
  congr 1
  have hv : ∀ (A B : Mat K), A.row = B.row → A.col = B.col → A.values = B.values → A = B := by
    intro A B h1 h2 h3; cases A; cases B; simp_all
  apply hv
  · rfl
  · rfl
  apply List.ext_getElem?
  intro k
  by_cases hk : k < r * c
  · rw [dense_lin _ ⟨k, hk⟩]
    have hc : 0 < c := j.pos
    by_cases he : (i : ℕ) * c + j = k
    · subst he
      simp only
      rw [List.getElem?_set_self (by rw [dense_length]; exact hk)]
      simp only [Matrix.of_apply]
      rw [if_pos]
      constructor
      · ext
        simp [Fin.divNat, Nat.add_comm (_ * _), Nat.add_mul_div_right _ _ hc, Nat.div_eq_of_lt j.2]
      · ext
        simp [Fin.modNat, Nat.add_comm (_ * _), Nat.add_mul_mod_self_right, Nat.mod_eq_of_lt j.2]
    · simp only
      rw [List.getElem?_set_ne he, dense_lin M ⟨k, hk⟩]
      simp only [Matrix.of_apply]
      rw [if_neg]
      rintro ⟨h1, h2⟩
      apply he
      have h3 : k / c = i := by rw [← h1]; rfl
      have h4 : k % c = j := by rw [← h2]; rfl
      rw [← h3, ← h4, Nat.div_add_mod']
  · rw [List.getElem?_eq_none (by simp; omega), List.getElem?_eq_none (by rw [dense_length]; omega)]

theorem C01_mat_write_fails (A : Mat K) (i j : ℤ) (x : K) :
    A.put? i j x = none ↔ ¬ (0 ≤ i ∧ i < A.row ∧ 0 ≤ j ∧ j < A.col) := by
  unfold Mat.put?; split <;> simp_all

theorem C01_vec_read {n : ℕ} (v : Fin n → K) (i : Fin n) : (densev v).at? i = some (v i) := by
  unfold Vec.at?
  rw [if_pos ⟨by positivity, by simp⟩]
  simp only [Int.toNat_natCast]
  exact densev_get v i

theorem C01_vec_read_fails (v : Vec K) (i : ℤ) :
    v.at? i = none ↔ ¬ (0 ≤ i ∧ i < v.size) := by
  unfold Vec.at?
  split
  · rename_i h
    simp only [h, and_self, not_true_eq_false, iff_false]
    rw [List.getElem?_eq_getElem (by have := h.2; unfold Vec.size at this; omega)]
    simp
  · simp_all

theorem C01_vec_write {n : ℕ} (v : Fin n → K) (i : Fin n) (x : K) :
    (densev v).put? i x = some (densev (Function.update v i x)) := by
  unfold Vec.put?
  rw [if_pos ⟨by positivity, by simp⟩]
  congr 1
  unfold densev
  congr 1
  apply List.ext_getElem
  · simp
  · intro k h1 h2
    simp only [Int.toNat_natCast, List.getElem_set, List.getElem_ofFn, Function.update_apply,
      Fin.ext_iff]
    by_cases h : (i : ℕ) = k
    · simp [h]
    · simp [h, Ne.symm h]

theorem C01_vec_write_fails (v : Vec K) (i : ℤ) (x : K) :
    v.put? i x = none ↔ ¬ (0 ≤ i ∧ i < v.size) := by
  unfold Vec.put?; split <;> simp_all

/-! ### Constructors -/

theorem C01_mat_zeros [Zero K] (r c : ℕ) :
    Mat.zeros r c = dense (0 : Matrix (Fin r) (Fin c) K) := by
  have hv : ∀ (A B : Mat K), A.row = B.row → A.col = B.col → A.values = B.values → A = B := by
    intro A B h1 h2 h3; cases A; cases B; simp_all
  apply hv <;> try rfl
  rw [dense_values_eq]
  simp [Mat.zeros, List.ofFn_const]

theorem C01_vec_zeros [Zero K] (n : ℕ) : Vec.zeros n = densev (0 : Fin n → K) := by
  unfold Vec.zeros densev
  congr 1
  exact (List.ofFn_const n 0).symm

/-- One-column matrix from a vector and back. -/
theorem C01_mat_of_vec {n : ℕ} (v : Fin n → K) :
    Mat.ofVec (densev v) = some (dense (Matrix.of fun i (_ : Fin 1) => v i)) := by
  unfold Mat.ofVec
  simp only [densev_size]
  rw [lin_mapM (M := Matrix.of fun i (_ : Fin 1) => v i)]
  · rfl
  · intro k
    have hk : (k : ℕ) < n := by have := k.2; omega
    rw [densev_get v ⟨k, hk⟩]
    simp [Fin.divNat]

theorem C01_vec_of_mat {n : ℕ} (M : Matrix (Fin n) (Fin 1) K) :
    Vec.ofMat (dense M) = some (densev fun i => M i 0) := by
  unfold Vec.ofMat
  rw [if_pos (by simp)]
  simp only [dense_row]
  rw [range_mapM (n := n) (g := fun i => M i 0)]
  · rfl
  · intro i
    have := dense_get M i 0
    simpa using this

theorem C01_vec_of_mat_fails (A : Mat K) (h : A.WF) : Vec.ofMat A = none ↔ A.col ≠ 1 := by
  constructor
  · intro hn hc
    obtain ⟨M, hM⟩ := exists_dense A h
    obtain ⟨r, c, vs⟩ := A
    simp only at hc M
    subst hc
    rw [hM] at hn
    have := C01_vec_of_mat M
    rw [this] at hn
    cases hn
  · intro hc
    unfold Vec.ofMat; rw [if_neg hc]

/-! ### Entrywise arithmetic -/

theorem C01_mat_add [Add K] {r c : ℕ} (M N : Matrix (Fin r) (Fin c) K) :
    (dense M).add (dense N) = some (dense (M + N)) := by
  unfold Mat.add
  rw [if_pos (by simp)]
  simp only [dense_row, dense_col]
  rw [lin_mapM (r := r) (c := c) (M := M + N)]
  · rfl
  · intro k
    rw [dense_lin M k, dense_lin N k]; rfl

theorem C01_mat_add_fails [Add K] (A B : Mat K) (hA : A.WF) (hB : B.WF) :
    A.add B = none ↔ ¬ (A.row = B.row ∧ A.col = B.col) := by
  constructor
  · rintro hn ⟨h1, h2⟩
    obtain ⟨M, hM⟩ := exists_dense A hA
    obtain ⟨N, hN⟩ := exists_dense B hB
    generalize A.row = r at *
    generalize A.col = c at *
    generalize B.row = r' at *
    generalize B.col = c' at *
    subst h1 h2 hM hN
    rw [C01_mat_add] at hn
    cases hn
  · intro h
    unfold Mat.add; rw [if_neg h]

theorem C01_mat_sub [Sub K] {r c : ℕ} (M N : Matrix (Fin r) (Fin c) K) :
    (dense M).sub (dense N) = some (dense (M - N)) := by
  unfold Mat.sub
  rw [if_pos (by simp)]
  simp only [dense_row, dense_col]
  rw [lin_mapM (r := r) (c := c) (M := M - N)]
  · rfl
  · intro k
    rw [dense_lin M k, dense_lin N k]; rfl

theorem C01_mat_sub_fails [Sub K] (A B : Mat K) (hA : A.WF) (hB : B.WF) :
    A.sub B = none ↔ ¬ (A.row = B.row ∧ A.col = B.col) := by
  constructor
  · rintro hn ⟨h1, h2⟩
    obtain ⟨M, hM⟩ := exists_dense A hA
    obtain ⟨N, hN⟩ := exists_dense B hB
    generalize A.row = r at *
    generalize A.col = c at *
    generalize B.row = r' at *
    generalize B.col = c' at *
    subst h1 h2 hM hN
    rw [C01_mat_sub] at hn
    cases hn
  · intro h
    unfold Mat.sub; rw [if_neg h]

theorem C01_mat_neg [Ring K] {r c : ℕ} (M : Matrix (Fin r) (Fin c) K) :
    (dense M).neg = some (dense (-M)) := by
  unfold Mat.neg
  simp only [dense_row, dense_col]
  rw [lin_mapM (r := r) (c := c) (M := -M)]
  · rfl
  · intro k
    rw [dense_lin M k]; simp

theorem C01_mat_smul [CommMonoid K] {r c : ℕ} (M : Matrix (Fin r) (Fin c) K) (a : K) :
    (dense M).smul a = some (dense (a • M)) := by
  unfold Mat.smul
  simp only [dense_row, dense_col]
  rw [lin_mapM (r := r) (c := c) (M := a • M)]
  · rfl
  · intro k
    rw [dense_lin M k]; simp [mul_comm]

/-- Division by a non-zero scalar. -/
theorem C01_mat_sdiv [Field K] [DecidableEq K] {r c : ℕ} (M : Matrix (Fin r) (Fin c) K) (a : K)
    (ha : a ≠ 0) : (dense M).sdiv a = some (dense (a⁻¹ • M)) := by
  unfold Mat.sdiv
  rw [if_neg (by simp [ha])]
  simp only [dense_row, dense_col]
  rw [lin_mapM (r := r) (c := c) (M := a⁻¹ • M)]
  · rfl
  · intro k
    rw [dense_lin M k]; simp [div_eq_inv_mul]

theorem C01_vec_add [Add K] {n : ℕ} (v w : Fin n → K) :
    (densev v).add (densev w) = some (densev (v + w)) := by
  unfold Vec.add
  rw [if_pos (by simp)]
  simp only [densev_size]
  rw [range_mapM (n := n) (g := v + w)]
  · rfl
  · intro i; rw [densev_get, densev_get]; rfl

theorem C01_vec_sub [Sub K] {n : ℕ} (v w : Fin n → K) :
    (densev v).sub (densev w) = some (densev (v - w)) := by
  unfold Vec.sub
  rw [if_pos (by simp)]
  simp only [densev_size]
  rw [range_mapM (n := n) (g := v - w)]
  · rfl
  · intro i; rw [densev_get, densev_get]; rfl

theorem C01_vec_neg [Ring K] {n : ℕ} (v : Fin n → K) : (densev v).neg = some (densev (-v)) := by
  unfold Vec.neg
  simp only [densev_size]
  rw [range_mapM (n := n) (g := -v)]
  · rfl
  · intro i; rw [densev_get]; simp

theorem C01_vec_smul [CommMonoid K] {n : ℕ} (v : Fin n → K) (a : K) :
    (densev v).smul a = some (densev (a • v)) := by
  unfold Vec.smul
  simp only [densev_size]
  rw [range_mapM (n := n) (g := a • v)]
  · rfl
  · intro i; rw [densev_get]; simp [mul_comm]

theorem C01_vec_sdiv [Field K] [DecidableEq K] {n : ℕ} (v : Fin n → K) (a : K) (ha : a ≠ 0) :
    (densev v).sdiv a = some (densev (a⁻¹ • v)) := by
  unfold Vec.sdiv
  rw [if_neg (by simp [ha])]
  simp only [densev_size]
  rw [range_mapM (n := n) (g := a⁻¹ • v)]
  · rfl
  · intro i; rw [densev_get]; simp [div_eq_inv_mul]

/-! ### Products -/

theorem C01_vec_dot [NonUnitalNonAssocSemiring K] {n : ℕ} (v w : Fin n → K) :
    (densev v).dot (densev w) = some (∑ i, v i * w i) := by
  unfold Vec.dot
  rw [if_pos (by simp)]
  simp only [densev_size]
  rw [sumM_some (n := n) (g := fun i => v i * w i)]
  intro i; rw [densev_get, densev_get]; rfl

theorem C01_vec_binary_fails [CommRing K] (v w : Vec K) :
    (v.add w = none ↔ v.size ≠ w.size) ∧ (v.sub w = none ↔ v.size ≠ w.size) ∧
    (v.dot w = none ↔ v.size ≠ w.size) := by
  by_cases h : v.size = w.size
  · obtain ⟨v', hv⟩ := exists_densev v
    obtain ⟨w', hw⟩ := exists_densev w
    generalize v.size = n at *
    generalize w.size = m at *
    subst h hv hw
    rw [C01_vec_add, C01_vec_sub, C01_vec_dot]
    simp
  · simp [Vec.add, Vec.sub, Vec.dot, h]

theorem C01_mat_mul [NonUnitalNonAssocSemiring K] {r c d : ℕ} (M : Matrix (Fin r) (Fin c) K)
    (N : Matrix (Fin c) (Fin d) K) : (dense M).mul (dense N) = some (dense (M * N)) := by
  unfold Mat.mul
  rw [if_pos (by simp)]
  simp only [dense_row, dense_col]
  rw [fillM_some (M := M * N)]
  · rfl
  · intro i j
    rw [Matrix.mul_apply, sumM_some (n := c) (g := fun k => M i k * N k j)]
    intro k
    rw [dense_get, dense_get]; rfl

theorem C01_mat_mul_fails [NonUnitalNonAssocSemiring K] (A B : Mat K) (hA : A.WF) (hB : B.WF) :
    A.mul B = none ↔ A.col ≠ B.row := by
  constructor
  · rintro hn h1
    obtain ⟨M, hM⟩ := exists_dense A hA
    obtain ⟨N, hN⟩ := exists_dense B hB
    generalize A.row = r at *
    generalize A.col = c at *
    generalize B.row = r' at *
    generalize B.col = c' at *
    subst h1 hM hN
    rw [C01_mat_mul] at hn
    cases hn
  · intro h
    unfold Mat.mul; rw [if_neg h]

theorem C01_mat_vec [NonUnitalNonAssocSemiring K] {r c : ℕ} (M : Matrix (Fin r) (Fin c) K)
    (v : Fin c → K) : (dense M).mulVec (densev v) = some (densev (M.mulVec v)) := by
  unfold Mat.mulVec
  rw [if_pos (by simp)]
  simp only [dense_row, dense_col]
  rw [range_mapM (n := r) (g := M.mulVec v)]
  · rfl
  · intro i
    rw [Matrix.mulVec, dotProduct, sumM_some (n := c) (g := fun k => M i k * v k)]
    intro k
    rw [dense_get, densev_get]; rfl

theorem C01_mat_vec_fails [NonUnitalNonAssocSemiring K] (A : Mat K) (hA : A.WF) (v : Vec K) :
    A.mulVec v = none ↔ A.col ≠ v.size := by
  constructor
  · rintro hn h1
    obtain ⟨M, hM⟩ := exists_dense A hA
    obtain ⟨w, hw⟩ := exists_densev v
    generalize A.row = r at *
    generalize A.col = c at *
    generalize v.size = n at *
    subst h1 hM hw
    rw [C01_mat_vec] at hn
    cases hn
  · intro h
    unfold Mat.mulVec; rw [if_neg h]

/-- Column times row. -/
theorem C01_outer [Mul K] {n c : ℕ} (v : Fin n → K) (w : Fin c → K) :
    (densev v).outer (dense (Matrix.of fun (_ : Fin 1) j => w j))
      = some (dense (Matrix.of fun i j => v i * w j)) := by
  unfold Vec.outer
  rw [if_pos (by simp)]
  simp only [dense_col, densev_size]
  rw [fillM_some (M := Matrix.of fun i j => v i * w j)]
  · rfl
  · intro i j
    rw [densev_get]
    have := dense_get (Matrix.of fun (_ : Fin 1) j => w j) 0 j
    simp only [Fin.val_zero, zero_mul, zero_add] at this
    rw [this]; rfl

theorem C01_outer_fails [Mul K] (v : Vec K) (A : Mat K) (hA : A.WF) :
    v.outer A = none ↔ A.row ≠ 1 := by
  constructor
  · rintro hn h1
    obtain ⟨M, hM⟩ := exists_dense A hA
    obtain ⟨w, hw⟩ := exists_densev v
    generalize A.row = r at *
    generalize A.col = c at *
    generalize v.size = n at *
    subst h1 hM hw
    have : M = Matrix.of fun (_ : Fin 1) j => M 0 j := by
      ext i j; simp [Subsingleton.elim i 0]
    rw [this, C01_outer] at hn
    cases hn
  · intro h
    unfold Vec.outer; rw [if_neg h]

/-- Vector product in three dimensions, against Mathlib's cross product. -/
theorem C01_cross [CommRing K] (v w : Fin 3 → K) :
    (densev v).cross (densev w) = some (densev (crossProduct v w)) := by
  have h (u : Fin 3 → K) : (densev u).at? 0 = some (u 0) ∧ (densev u).at? 1 = some (u 1) ∧
      (densev u).at? 2 = some (u 2) := ⟨C01_vec_read u 0, C01_vec_read u 1, C01_vec_read u 2⟩
  unfold Vec.cross
  rw [if_pos (by simp)]
  simp only [h, cross_apply]
  rfl

theorem C01_cross_fails [CommRing K] (v w : Vec K) :
    v.cross w = none ↔ ¬ (v.size = 3 ∧ w.size = 3) := by
  by_cases h : v.size = 3 ∧ w.size = 3
  · obtain ⟨v', hv⟩ := exists_densev v
    obtain ⟨w', hw⟩ := exists_densev w
    obtain ⟨h1, h2⟩ := h
    simp only [h1, h2, and_self, not_true_eq_false, iff_false]
    generalize v.size = n at *
    generalize w.size = m at *
    subst h1 h2 hv hw
    rw [C01_cross]
    simp
  · simp [Vec.cross, h]

/-- The radicand of the Euclidean norm. -/
theorem C01_normSq [Semiring K] {n : ℕ} (v : Fin n → K) :
    (densev v).normSq = some (∑ i, v i ^ 2) := by
  unfold Vec.normSq
  simp only [densev_size]
  rw [sumM_some (n := n) (g := fun i => v i ^ 2)]
  intro i; rw [densev_get]; rfl

/-! ### Rearrangements -/

theorem C01_mat_transpose {r c : ℕ} (M : Matrix (Fin r) (Fin c) K) :
    (dense M).transpose = some (dense M.transpose) := by
  unfold Mat.transpose
  simp only [dense_row, dense_col]
  rw [fillM_some (M := M.transpose)]
  · rfl
  · intro i j; rw [dense_get]; rfl

theorem C01_vec_transpose {n : ℕ} (v : Fin n → K) :
    (densev v).transpose = some (dense (Matrix.of fun (_ : Fin 1) j => v j)) := by
  unfold Vec.transpose
  simp only [densev_size]
  rw [lin_mapM (r := 1) (c := n) (M := Matrix.of fun (_ : Fin 1) j => v j)]
  · rfl
  · intro k
    have hk : (k : ℕ) < n := by have := k.2; omega
    rw [densev_get v ⟨k, hk⟩]
    simp [Fin.modNat, Nat.mod_eq_of_lt hk]

theorem C01_vec_vstack {n m : ℕ} (v : Fin n → K) (w : Fin m → K) :
    (densev v).vstack (densev w) = some (densev (Fin.append v w)) := by
  unfold Vec.vstack
  simp only [densev_size]
  rw [range_mapM (n := n) (g := v) (fun i => densev_get v i),
    range_mapM (n := m) (g := w) (fun i => densev_get w i)]
  simp [densev, List.ofFn_fin_append]

theorem C01_mat_vstack {r s c : ℕ} (M : Matrix (Fin r) (Fin c) K) (N : Matrix (Fin s) (Fin c) K) :
    (dense M).vstack (dense N) = some (dense (Matrix.of (Fin.append (Matrix.of.symm M) (Matrix.of.symm N)))) := by
  unfold Mat.vstack
  rw [if_pos (by simp)]
  simp only [dense_row, dense_col]
  rw [fillM_some (fun i j => dense_get M i j), fillM_some (fun i j => dense_get N i j)]
  simp only [Option.bind_eq_bind, Option.bind_some]
  congr 1
  unfold dense
  congr 1
  simp only
  rw [← List.flatten_append, ← List.ofFn_fin_append]
  congr 1
  congr 1
  funext i
  refine Fin.addCases (fun i => ?_) (fun i => ?_) i <;> simp

theorem C01_mat_vstack_fails (A B : Mat K) (hA : A.WF) (hB : B.WF) :
    A.vstack B = none ↔ A.col ≠ B.col := by
  constructor
  · rintro hn h1
    obtain ⟨M, hM⟩ := exists_dense A hA
    obtain ⟨N, hN⟩ := exists_dense B hB
    generalize A.row = r at *
    generalize A.col = c at *
    generalize B.row = r' at *
    generalize B.col = c' at *
    subst h1 hM hN
    rw [C01_mat_vstack] at hn
    cases hn
  · intro h
    unfold Mat.vstack; rw [if_neg h]

theorem C01_mat_hstack {r c d : ℕ} (M : Matrix (Fin r) (Fin c) K) (N : Matrix (Fin r) (Fin d) K) :
    (dense M).hstack (dense N)
      = some (dense (Matrix.of fun i => Fin.append (Matrix.of.symm M i) (Matrix.of.symm N i))) := by
  unfold Mat.hstack
  rw [if_pos (by simp)]
  simp only [dense_row, dense_col]
  rw [fillM_some (M := Matrix.of fun i => Fin.append (Matrix.of.symm M i) (Matrix.of.symm N i))]
  · rfl
  · intro i j
    refine Fin.addCases (fun j => ?_) (fun j => ?_) j
    · simp only [Fin.val_castAdd, j.2, if_true, Matrix.of_apply, Fin.append_left]
      exact dense_get M i j
    · simp only [Fin.val_natAdd, Matrix.of_apply, Fin.append_right]
      have h : ¬ c + (j : ℕ) < c := by omega
      simp only [h, if_false, Nat.add_sub_cancel_left]
      exact dense_get N i j

theorem C01_mat_hstack_fails (A B : Mat K) (hA : A.WF) (hB : B.WF) :
    A.hstack B = none ↔ A.row ≠ B.row := by
  constructor
  · rintro hn h1
    obtain ⟨M, hM⟩ := exists_dense A hA
    obtain ⟨N, hN⟩ := exists_dense B hB
    generalize A.row = r at *
    generalize A.col = c at *
    generalize B.row = r' at *
    generalize B.col = c' at *
    subst h1 hM hN
    rw [C01_mat_hstack] at hn
    cases hn
  · intro h
    unfold Mat.hstack; rw [if_neg h]

/-- `Block(r₀, c₀, h, w)` is the sub-matrix starting at `(r₀, c₀)`. -/
theorem C01_mat_block {r c : ℕ} (M : Matrix (Fin r) (Fin c) K) (r₀ c₀ h w : ℕ) (hh : 0 < h)
    (hw : 0 < w) (hr : r₀ + h ≤ r) (hc : c₀ + w ≤ c) :
    (dense M).block r₀ c₀ h w
      = some (dense (Matrix.of fun (i : Fin h) (j : Fin w) =>
          M ⟨r₀ + i, by omega⟩ ⟨c₀ + j, by omega⟩)) := by
  unfold Mat.block
  rw [if_pos (by simp only [dense_row, dense_col]; omega)]
  simp only [Int.toNat_natCast, dense_col]
  rw [fillM_some (M := Matrix.of fun (i : Fin h) (j : Fin w) =>
          M ⟨r₀ + i, by omega⟩ ⟨c₀ + j, by omega⟩)]
  · rfl
  · intro i j
    exact dense_get' M _ _

theorem C01_mat_block_fails (A : Mat K) (hA : A.WF) (r₀ c₀ h w : ℤ) :
    A.block r₀ c₀ h w = none ↔
      ¬ (0 ≤ r₀ ∧ 0 ≤ c₀ ∧ 0 < h ∧ 0 < w ∧ r₀ + h ≤ A.row ∧ c₀ + w ≤ A.col) := by
  constructor
  · rintro hn ⟨h1, h2, h3, h4, h5, h6⟩
    obtain ⟨M, hM⟩ := exists_dense A hA
    lift r₀ to ℕ using h1
    lift c₀ to ℕ using h2
    lift h to ℕ using h3.le
    lift w to ℕ using h4.le
    have := C01_mat_block M r₀ c₀ h w (by omega) (by omega) (by omega) (by omega)
    rw [← hM, hn] at this
    cases this
  · intro h
    unfold Mat.block; rw [if_neg h]

theorem C01_vec_segment {n : ℕ} (v : Fin n → K) (head tail : ℕ) (h : head < tail) (ht : tail ≤ n) :
    (densev v).segment head tail
      = some (densev fun i : Fin (tail - head) => v ⟨head + i, by omega⟩) := by
  unfold Vec.segment
  rw [if_pos (by simp only [densev_size]; omega)]
  have : ((tail : ℤ) - head).toNat = tail - head := by omega
  rw [this]
  simp only [Int.toNat_natCast]
  rw [range_mapM (g := fun i : Fin (tail - head) => v ⟨head + i, by omega⟩)]
  · rfl
  · intro i
    exact densev_get v ⟨head + i, by omega⟩

theorem C01_vec_segment_fails (v : Vec K) (head tail : ℤ) :
    v.segment head tail = none ↔ ¬ (0 ≤ head ∧ tail ≤ v.size ∧ head < tail) := by
  constructor
  · rintro hn ⟨h1, h2, h3⟩
    obtain ⟨w, hw⟩ := exists_densev v
    lift head to ℕ using h1
    lift tail to ℕ using by omega
    have := C01_vec_segment w head tail (by omega) (by omega)
    rw [← hw, hn] at this
    cases this
  · intro h
    unfold Vec.segment; rw [if_neg h]

/-! ### Identity and diagonal matrices -/

theorem C01_diagonal [Zero K] {n : ℕ} (v : Fin n → K) :
    Mat.diagonal (densev v) = some (dense (Matrix.diagonal v)) := by
  have key : ∀ m, m ≤ n →
      (List.range m).foldlM
        (fun (A : Mat K) (i : ℕ) => do A.put? i i (← (densev v).values[i]?)) (Mat.zeros n n)
      = some (dense (Matrix.diagonal fun i : Fin n => if (i : ℕ) < m then v i else 0)) := by
    intro m
    induction m with
    | zero => intro _; simp [C01_mat_zeros]
    | succ m ih =>
      intro hm
      rw [List.range_succ, List.foldlM_append, ih (by omega)]
      have h1 := densev_get v ⟨m, hm⟩
      have h2 := C01_mat_write
        (Matrix.diagonal fun i : Fin n => if (i : ℕ) < m then v i else 0) ⟨m, hm⟩ ⟨m, hm⟩ (v ⟨m, hm⟩)
      simp only at h1 h2
      simp only [Option.bind_eq_bind, Option.bind_some, List.foldlM_cons, h1, h2,
        List.foldlM_nil, Option.pure_def]
      congr 2
      ext i j
      by_cases hij : i = j
      · subst hij
        simp only [Matrix.of_apply, Matrix.diagonal_apply_eq, and_self]
        by_cases hi : i = ⟨m, hm⟩
        · subst hi; simp
        · have : (i : ℕ) ≠ m := fun h => hi (Fin.ext h)
          simp only [hi, if_false]
          by_cases h' : (i : ℕ) < m
          · rw [if_pos h', if_pos (by omega)]
          · rw [if_neg h', if_neg (by omega)]
      · rw [Matrix.diagonal_apply_ne _ hij, Matrix.of_apply, if_neg, Matrix.diagonal_apply_ne _ hij]
        rintro ⟨h1, h2⟩; exact hij (h1.trans h2.symm)
  unfold Mat.diagonal
  simp only [densev_size]
  rw [key n le_rfl]
  simp

theorem C01_identity [Zero K] [One K] (n : ℕ) :
    Mat.identity n = some (dense (1 : Matrix (Fin n) (Fin n) K)) := by
  have h := C01_diagonal (K := K) (n := n) (fun _ => 1)
  rw [Matrix.diagonal_one] at h
  rw [← h]
  unfold Mat.identity Mat.diagonal
  simp only [densev_size]
  have : ∀ (l : List ℕ) (A : Mat K), (∀ i ∈ l, i < n) →
      l.foldlM (fun (m : Mat K) (i : ℕ) => m.put? i i 1) A
        = l.foldlM (fun (m : Mat K) (i : ℕ) => do
            m.put? i i (← (densev fun _ : Fin n => (1 : K)).values[i]?)) A := by
    intro l
    induction l with
    | nil => intro A _; rfl
    | cons i l ih =>
      intro A hl
      have hi : i < n := hl i (by simp)
      have hg := densev_get (fun _ : Fin n => (1 : K)) ⟨i, hi⟩
      simp only at hg
      simp only [List.foldlM_cons, hg, Option.bind_eq_bind, Option.bind_some]
      congr 1
      funext B
      exact ih B fun j hj => hl j (by simp [hj])
  exact this _ _ fun i hi => List.mem_range.1 hi

/-! ### Concrete instances -/

example : (dense !![(1 : ℚ), 2; 3, 4]).mul (dense !![(0 : ℚ), 1, 5; 1, 0, 5])
    = some (dense (!![(1 : ℚ), 2; 3, 4] * !![(0 : ℚ), 1, 5; 1, 0, 5])) := C01_mat_mul _ _
example : (⟨2, 2, [1, 2, 3, 4]⟩ : Mat ℚ).mul ⟨2, 3, [0, 1, 5, 1, 0, 5]⟩
    = some ⟨2, 3, [2, 1, 15, 4, 3, 35]⟩ := by decide +kernel
example : (⟨2, 2, [1, 2, 3, 4]⟩ : Mat ℚ).WF := rfl
example : (⟨2, 2, [1, 2, 3, 4]⟩ : Mat ℚ).mul ⟨3, 1, [0, 1, 5]⟩ = none := by
  exact (C01_mat_mul_fails _ _ (by rfl) (by rfl)).2 (by decide)
example : (dense !![1, 2; 3, 4] : Mat ℚ).block 0 1 2 1
    = some (dense (Matrix.of fun (i : Fin 2) (j : Fin 1) =>
        (!![1, 2; 3, 4] : Matrix (Fin 2) (Fin 2) ℚ) ⟨0 + i, by omega⟩ ⟨1 + j, by omega⟩)) :=
  C01_mat_block _ 0 1 2 1 (by decide) (by decide) (by decide) (by decide)
example : (densev ![1, 2, 3] : Vec ℚ).sdiv 2 = some (densev ((2 : ℚ)⁻¹ • ![1, 2, 3])) :=
  C01_vec_sdiv _ 2 (by norm_num)

end Pansfem
