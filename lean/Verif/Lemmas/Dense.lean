import Verif.Spec.Dense
import Mathlib.Algebra.BigOperators.Fin
import Mathlib.Data.Matrix.Mul

namespace Pansfem

variable {K : Type*}

theorem mapM_some {α β : Type*} {l : List α} {f : α → Option β} {g : α → β}
    (h : ∀ a ∈ l, f a = some (g a)) : l.mapM f = some (l.map g) := by
  induction l with
  | nil => rfl
  | cons a l ih =>
    rw [List.mapM_cons, h a (by simp), ih fun b hb => h b (by simp [hb])]
    rfl

theorem range_mapM {β : Type*} {n : ℕ} {f : ℕ → Option β} {g : Fin n → β}
    (h : ∀ i : Fin n, f i = some (g i)) : (List.range n).mapM f = some (List.ofFn g) := by
  induction n generalizing f with
  | zero => rfl
  | succ n ih =>
    rw [List.range_succ_eq_map, List.mapM_cons]
    have h0 := h 0
    simp only [Fin.val_zero] at h0
    have hm : (List.map Nat.succ (List.range n)).mapM f
        = (List.range n).mapM (fun i => f (i + 1)) := by
      rw [List.mapM_map]; rfl
    rw [h0, hm, ih (g := fun i => g i.succ) (fun i => by simpa using h i.succ), List.ofFn_succ]
    rfl

theorem fillM_some {r c : ℕ} {f : ℕ → ℕ → Option K} {M : Matrix (Fin r) (Fin c) K}
    (h : ∀ (i : Fin r) (j : Fin c), f i j = some (M i j)) :
    fillM r c f = some (dense M).values := by
  unfold fillM
  rw [range_mapM (g := fun i => List.ofFn fun j => M i j)]
  · rfl
  · intro i
    exact range_mapM (g := fun j => M i j) fun j => h i j

theorem foldlM_sum [AddCommMonoid K] {α : Type*} {l : List α} {f : α → Option K} {g : α → K}
    (h : ∀ a ∈ l, f a = some (g a)) (acc : K) :
    l.foldlM (fun acc i => do return acc + (← f i)) acc = some (acc + (l.map g).sum) := by
  induction l generalizing acc with
  | nil => simp
  | cons a l ih =>
    rw [List.foldlM_cons, h a (by simp)]
    show List.foldlM _ (acc + g a) l = _
    rw [ih (fun b hb => h b (by simp [hb]))]
    simp [add_assoc]

theorem sumM_some [AddCommMonoid K] {n : ℕ} {f : ℕ → Option K} {g : Fin n → K}
    (h : ∀ i : Fin n, f i = some (g i)) : sumM n f = some (∑ i, g i) := by
  classical
  unfold sumM
  rw [foldlM_sum (g := fun i => if h : i < n then g ⟨i, h⟩ else 0)]
  · rw [zero_add, ← List.sum_ofFn]
    congr 2
    apply List.ext_getElem
    · simp
    · intro i h1 h2
      simp at h1 h2
      simp [h1]
  · intro a ha
    have ha : a < n := by simpa using ha
    simp [ha, h ⟨a, ha⟩]

theorem dense_values_eq {r c : ℕ} (M : Matrix (Fin r) (Fin c) K) :
    (dense M).values = List.ofFn fun k : Fin (r * c) => M k.divNat k.modNat := by
  rw [List.ofFn_mul]
  change (List.ofFn fun i => List.ofFn fun j => M i j).flatten = _
  congr 1
  congr 1
  funext i
  congr 1
  funext j
  have hc : 0 < c := j.pos
  congr 1
  · ext
    simp [Fin.divNat, Nat.add_comm (_ * _), Nat.add_mul_div_right _ _ hc, Nat.div_eq_of_lt j.2]
  · ext
    simp [Fin.modNat, Nat.add_comm (_ * _), Nat.add_mul_mod_self_right, Nat.mod_eq_of_lt j.2]

@[simp] theorem dense_row {r c : ℕ} (M : Matrix (Fin r) (Fin c) K) : (dense M).row = r := rfl
@[simp] theorem dense_col {r c : ℕ} (M : Matrix (Fin r) (Fin c) K) : (dense M).col = c := rfl
@[simp] theorem densev_size {n : ℕ} (v : Fin n → K) : (densev v).size = n := by
  simp [densev, Vec.size]

@[simp] theorem dense_length {r c : ℕ} (M : Matrix (Fin r) (Fin c) K) :
    (dense M).values.length = r * c := by
  rw [dense_values_eq]; simp

theorem dense_wf {r c : ℕ} (M : Matrix (Fin r) (Fin c) K) : (dense M).WF := dense_length M

theorem dense_lin {r c : ℕ} (M : Matrix (Fin r) (Fin c) K) (k : Fin (r * c)) :
    (dense M).values[(k : ℕ)]? = some (M k.divNat k.modNat) := by
  rw [dense_values_eq]; simp

theorem index_lt {r c i j : ℕ} (hi : i < r) (hj : j < c) : i * c + j < r * c :=
  calc i * c + j < i * c + c := by omega
    _ = (i + 1) * c := by ring
    _ ≤ r * c := Nat.mul_le_mul_right _ hi

theorem dense_get {r c : ℕ} (M : Matrix (Fin r) (Fin c) K) (i : Fin r) (j : Fin c) :
    (dense M).values[(i : ℕ) * c + j]? = some (M i j) := by
  have h : (i : ℕ) * c + j < r * c := index_lt i.2 j.2
  have := dense_lin M ⟨_, h⟩
  have hc : 0 < c := j.pos
  rw [this]
  congr 2
  · ext
    simp [Fin.divNat, Nat.add_comm (_ * _), Nat.add_mul_div_right _ _ hc, Nat.div_eq_of_lt j.2]
  · ext
    simp [Fin.modNat, Nat.add_comm (_ * _), Nat.add_mul_mod_self_right, Nat.mod_eq_of_lt j.2]

theorem dense_get' {r c : ℕ} (M : Matrix (Fin r) (Fin c) K) {i j : ℕ} (hi : i < r) (hj : j < c) :
    (dense M).values[i * c + j]? = some (M ⟨i, hi⟩ ⟨j, hj⟩) := dense_get M ⟨i, hi⟩ ⟨j, hj⟩

theorem densev_get {n : ℕ} (v : Fin n → K) (i : Fin n) :
    (densev v).values[(i : ℕ)]? = some (v i) := by
  simp [densev]

/-- Entrywise maps over the storage block. -/
theorem lin_mapM {r c : ℕ} {f : ℕ → Option K} {M : Matrix (Fin r) (Fin c) K}
    (h : ∀ k : Fin (r * c), f k = some (M k.divNat k.modNat)) :
    (List.range (r * c)).mapM f = some (dense M).values := by
  rw [dense_values_eq]; exact range_mapM h

/-- Every well formed object holds some matrix. -/
theorem exists_dense (A : Mat K) (h : A.WF) :
    ∃ M : Matrix (Fin A.row) (Fin A.col) K, A = dense M := by
  unfold Mat.WF at h
  refine ⟨fun i j => A.values[(i : ℕ) * A.col + j]'(h ▸ index_lt i.2 j.2), ?_⟩
  cases A with
  | mk r c vs =>
    congr 1
    change vs.length = r * c at h
    apply List.ext_getElem?
    intro k
    by_cases hk : k < r * c
    · have := dense_lin (K := K) (fun (i : Fin r) (j : Fin c) =>
        vs[(i : ℕ) * c + j]'(h ▸ index_lt i.2 j.2)) ⟨k, hk⟩
      simp only [dense] at this ⊢
      rw [this, List.getElem?_eq_getElem (by omega)]
      congr 2
      simp [Fin.divNat, Fin.modNat, Nat.div_add_mod']
    · rw [List.getElem?_eq_none (by omega), List.getElem?_eq_none]
      exact le_of_eq_of_le (dense_length (K := K) (fun (i : Fin r) (j : Fin c) =>
        vs[(i : ℕ) * c + j]'(h ▸ index_lt i.2 j.2))) (by omega)

theorem exists_densev (v : Vec K) : ∃ w : Fin v.size → K, v = densev w := by
  refine ⟨fun i => v.values[(i : ℕ)]'i.2, ?_⟩
  cases v with
  | mk vs => simp only [densev, Vec.size]; congr 1; exact List.ofFn_getElem.symm

theorem dense_injective {r c : ℕ} {M N : Matrix (Fin r) (Fin c) K} (h : dense M = dense N) :
    M = N := by
  ext i j
  have h1 := dense_get M i j
  rw [h, dense_get N i j] at h1
  exact (Option.some.inj h1).symm

theorem densev_injective {n : ℕ} {v w : Fin n → K} (h : densev v = densev w) : v = w := by
  funext i
  have h1 := densev_get v i
  rw [h, densev_get w i] at h1
  exact (Option.some.inj h1).symm

end Pansfem
