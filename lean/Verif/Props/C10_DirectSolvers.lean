/-
C10: `LU` factors every non-singular matrix up to a row permutation and `SolveLU` solves the system.
C50: the linear solver inside MMA returns the solution of every non-singular system.
-/
import Verif.Lemmas.LU
import Mathlib.Algebra.Order.Ring.Rat
import Mathlib.LinearAlgebra.Matrix.Notation
import Mathlib.Tactic.NormNum

namespace Pansfem

/-! ### Vocabulary of the statements -/

/-- The leading `n` by `n` block of an array as a matrix. -/
def block {K : Type} (n : ℕ) (A : ℕ → ℕ → K) : Matrix (Fin n) (Fin n) K :=
  Matrix.of fun i j => A i j

/-- The leading `n` entries of an array as a vector. -/
def seg {K : Type} (n : ℕ) (v : ℕ → K) : Fin n → K := fun i => v i

/-- The unit lower triangular factor stored in the strict lower triangle of `F`. -/
def unitLower {K : Type} [Zero K] [One K] (n : ℕ) (F : ℕ → ℕ → K) : Matrix (Fin n) (Fin n) K :=
  Matrix.of fun i j => if j < i then F i j else if i = j then 1 else 0

/-- The upper triangular factor stored in the upper triangle of `F`. -/
def upper {K : Type} [Zero K] (n : ℕ) (F : ℕ → ℕ → K) : Matrix (Fin n) (Fin n) K :=
  Matrix.of fun i j => if j < i then 0 else F i j

variable {K : Type} [Field K] [LinearOrder K]

/-- **C10**: the array left by `LU` holds factors of the row-permuted input, and the pivot array is
a permutation of the rows. -/
theorem C10_factorisation (n : ℕ) (A F : ℕ → ℕ → K) (piv : ℕ → ℕ) (h : lu n A = some (F, piv)) :
    ∃ σ : Equiv.Perm (Fin n), (∀ i, (σ i : ℕ) = piv i) ∧
      (block n A).submatrix σ id = unitLower n F * upper n F := by
  obtain ⟨hi, -⟩ := lu_inv A h
  let f : Fin n → Fin n := fun i => ⟨piv i, hi.bound i i.2⟩
  have hf : Function.Injective f := fun i j e => Fin.ext (hi.inj i j i.2 j.2 (congrArg Fin.val e))
  refine ⟨Equiv.ofBijective f ⟨hf, Finite.injective_iff_surjective.1 hf⟩, fun i => rfl, ?_⟩
  ext i j
  have hfac := hi.fac i j i.2 j.2
  simp only at hfac
  rw [Matrix.mul_apply]
  show A (piv i) j = _
  rw [hfac, show min (i : ℕ) (n - 1) = i by omega]
  have hS : ∀ l : ℕ, l < n → Sfac (n - 1) F l j = if (j : ℕ) < l then 0 else F l j := by
    intro l hl
    simp only [Sfac]
    have : ((j : ℕ) < n - 1 ∧ (j : ℕ) < l) ↔ (j : ℕ) < l := by omega
    simp only [this]
  have hsum : ∑ l : Fin n, unitLower n F i l * upper n F l j
      = ∑ l ∈ Finset.range n, (if l < i then F i l else if (i : ℕ) = l then 1 else 0)
        * Sfac (n - 1) F l j := by
    rw [Finset.sum_range]
    refine Finset.sum_congr rfl fun l _ => ?_
    rw [hS l l.2]
    simp only [unitLower, upper, Matrix.of_apply, Fin.lt_def, Fin.ext_iff]
  rw [hsum, ← Finset.sum_range_add_sum_Ico _ (show (i : ℕ) ≤ n from i.2.le),
    Finset.sum_eq_sum_Ico_succ_bot i.2]
  have h1 : ∑ l ∈ Finset.Ico ((i : ℕ) + 1) n, (if l < i then F i l else if (i : ℕ) = l then 1 else 0)
        * Sfac (n - 1) F l j = 0 :=
    Finset.sum_eq_zero fun l hl => by
      have := Finset.mem_Ico.1 hl
      rw [if_neg (by omega), if_neg (by omega), zero_mul]
  have h2 : ∑ l ∈ Finset.range i, (if l < i then F i l else if (i : ℕ) = l then 1 else 0)
        * Sfac (n - 1) F l j = ∑ l ∈ Finset.range i, F i l * Sfac (n - 1) F l j :=
    Finset.sum_congr rfl fun l hl => by rw [if_pos (Finset.mem_range.1 hl)]
  rw [h1, h2, if_neg (lt_irrefl _), if_pos rfl]
  ring

/-- **C10**: whatever `SolveLU` returns from the factors of `A` solves `A x = b`. -/
theorem C10_solve_sound (n : ℕ) (A F : ℕ → ℕ → K) (piv : ℕ → ℕ) (b x : ℕ → K)
    (h : lu n A = some (F, piv)) (hx : solveLU n F b piv = some x) :
    (block n A).mulVec (seg n x) = seg n b := by
  obtain ⟨σ, hσ, hfac⟩ := C10_factorisation n A F piv h
  obtain ⟨-, y, hy, hxy⟩ := (solveLU_spec n F b piv).1 x hx
  have hU : (upper n F).mulVec (seg n x) = seg n y := by
    ext i
    have := hxy i i.2
    simp only [Matrix.mulVec, dotProduct, upper, seg, Matrix.of_apply]
    rw [← this]
    have e : ∑ j : Fin n, (if j < i then 0 else F i j) * x j
        = ∑ j ∈ Finset.range n, (if j < i then 0 else F i j) * x j := by
      rw [Finset.sum_range]; exact Finset.sum_congr rfl fun j _ => by simp only [Fin.lt_def]
    rw [e, ← Finset.sum_range_add_sum_Ico _ (show (i : ℕ) ≤ n from i.2.le)]
    have z : ∑ j ∈ Finset.range i, (if j < i then 0 else F i j) * x j = 0 :=
      Finset.sum_eq_zero fun j hj => by rw [if_pos (Finset.mem_range.1 hj), zero_mul]
    rw [z, zero_add]
    exact Finset.sum_congr rfl fun j hj => by
      have := Finset.mem_Ico.1 hj
      rw [if_neg (by omega)]
  have hL : (unitLower n F).mulVec (seg n y) = fun i : Fin n => b (piv i) := by
    ext i
    have := hy i i.2
    simp only [Matrix.mulVec, dotProduct, unitLower, seg, Matrix.of_apply]
    rw [← this]
    have e : ∑ j : Fin n, (if j < i then F i j else if i = j then 1 else 0) * y j
        = ∑ j ∈ Finset.range n, (if j < i then F i j else if (i : ℕ) = j then 1 else 0) * y j := by
      rw [Finset.sum_range]
      exact Finset.sum_congr rfl fun j _ => by simp only [Fin.lt_def, Fin.ext_iff]
    rw [e, ← Finset.sum_range_add_sum_Ico _ (show (i : ℕ) ≤ n from i.2.le),
      Finset.sum_eq_sum_Ico_succ_bot i.2, if_neg (lt_irrefl _), if_pos rfl, one_mul]
    have z : ∑ j ∈ Finset.Ico ((i : ℕ) + 1) n,
        (if j < i then F i j else if (i : ℕ) = j then 1 else 0) * y j = 0 :=
      Finset.sum_eq_zero fun j hj => by
        have := Finset.mem_Ico.1 hj
        rw [if_neg (by omega), if_neg (by omega), zero_mul]
    rw [z, add_zero, add_comm]
    congr 1
    exact Finset.sum_congr rfl fun j hj => by rw [if_pos (Finset.mem_range.1 hj)]
  have key : ((block n A).submatrix σ id).mulVec (seg n x) = fun i : Fin n => b (piv i) := by
    rw [hfac, ← Matrix.mulVec_mulVec, hU, hL]
  ext r
  obtain ⟨i, rfl⟩ := σ.surjective r
  have := congrFun key i
  simp only [Matrix.mulVec, dotProduct, Matrix.submatrix_apply, id] at this
  show ∑ j, block n A (σ i) j * seg n x j = b (σ i)
  rw [this, hσ]

variable [IsStrictOrderedRing K]

/-- **C10**: the stored multipliers are at most one in modulus. -/
theorem C10_multipliers (n : ℕ) (A F : ℕ → ℕ → K) (piv : ℕ → ℕ) (h : lu n A = some (F, piv))
    (i l : ℕ) (hi : i < n) (hl : l < i) : |F i l| ≤ 1 :=
  forUpM_inv (lo := 0) (hi := n - 1) (Nat.zero_le _) (luStep n) (A, fun i => i) (F, piv)
    (fun k s => ∀ i l, i < n → l < i → l < k → |s.1 i l| ≤ 1)
    (fun i l _ _ h => absurd h (by omega)) (fun _ _ _ _ hk hu hv => luStep_mult hk hu hv) h
    i l hi hl (by omega)

/-- **C10**: for every non-singular matrix and every right-hand side, `LU` followed by `SolveLU`
returns the solution. -/
theorem C10_solve (n : ℕ) (A : ℕ → ℕ → K) (b : ℕ → K) (hdet : (block n A).det ≠ 0) :
    ∃ F piv x, lu n A = some (F, piv) ∧ solveLU n F b piv = some x ∧
      (block n A).mulVec (seg n x) = seg n b := by
  obtain ⟨⟨F, piv⟩, h⟩ := lu_some A hdet
  obtain ⟨hi, -⟩ := lu_inv A h
  have hd : ∀ i, i < n → F i i ≠ 0 := by
    intro k hk
    have := elim_diag (n := n) (A0 := A) (Sfac (n - 1) F) (by
      intro i j h1 h2 h3; rw [Sfac, if_pos (by omega)]) (by
      intro x hx r hr
      obtain ⟨i, hin, rfl⟩ := hi.surj r hr
      calc ∑ j ∈ Finset.range n, A (piv i) j * x j
          = ∑ j ∈ Finset.range n, (∑ l ∈ Finset.range (min i (n - 1)), F i l * Sfac (n - 1) F l j
              + Sfac (n - 1) F i j) * x j :=
            Finset.sum_congr rfl fun j hj => by rw [hi.fac i j hin (Finset.mem_range.1 hj)]
        _ = ∑ l ∈ Finset.range (min i (n - 1)),
                F i l * ∑ j ∈ Finset.range n, Sfac (n - 1) F l j * x j
              + ∑ j ∈ Finset.range n, Sfac (n - 1) F i j * x j := by
            simp only [add_mul, Finset.sum_add_distrib, Finset.sum_mul, Finset.mul_sum, mul_assoc]
            rw [Finset.sum_comm]
        _ = 0 := by
            rw [hx i hin, add_zero]
            refine Finset.sum_eq_zero fun l hl => ?_
            have := Finset.mem_range.1 hl
            rw [hx l (by omega), mul_zero]) hdet k hk
    rwa [Sfac, if_neg (by omega)] at this
  obtain ⟨x, hx⟩ := (solveLU_spec n F b piv).2 hd
  exact ⟨F, piv, x, h, hx, C10_solve_sound n A F piv b x h hx⟩

omit [IsStrictOrderedRing K] in
/-- **C10**: a singular matrix never yields a solution: a division by zero occurs in `LU` or in
`SolveLU`. -/
theorem C10_singular (n : ℕ) (A : ℕ → ℕ → K) (b : ℕ → K) (hdet : (block n A).det = 0) :
    ((lu n A).bind fun s => solveLU n s.1 b s.2) = none := by
  by_contra hne
  obtain ⟨x, hx⟩ := Option.ne_none_iff_exists'.1 hne
  obtain ⟨⟨F, piv⟩, h, hs⟩ := Option.bind_eq_some_iff.1 hx
  have hd := ((solveLU_spec n F b piv).1 x hs).1
  have hsurj : Function.Surjective (block n A).mulVec := by
    intro c
    obtain ⟨z, hz⟩ := (solveLU_spec n F (fun i => if hi : i < n then c ⟨i, hi⟩ else 0) piv).2 hd
    refine ⟨seg n z, ?_⟩
    rw [C10_solve_sound n A F piv _ z h hz]
    ext i
    simp [seg]
  have hu := Matrix.mulVec_surjective_iff_isUnit.1 hsurj
  rw [Matrix.isUnit_iff_isUnit_det, hdet] at hu
  simp at hu

/-- A matrix needing a row exchange: `[[0, 2], [3, 1]]`. -/
example : (block 2 (fun i j => (![![0, 2], ![3, 1]] : Matrix (Fin 2) (Fin 2) ℚ)
    (Fin.ofNat 2 i) (Fin.ofNat 2 j))).det ≠ 0 := by
  rw [Matrix.det_fin_two]
  simp [block]

/-- A singular one: `[[1, 2], [2, 4]]`. -/
example : (block 2 (fun i j => (![![1, 2], ![2, 4]] : Matrix (Fin 2) (Fin 2) ℚ)
    (Fin.ofNat 2 i) (Fin.ofNat 2 j))).det = 0 := by
  rw [Matrix.det_fin_two]
  simp [block]; norm_num

/-! ### C50 -/

omit [IsStrictOrderedRing K] in
/-- **C50**: whatever the solver returns solves the system. -/
theorem C50_sound (n : ℕ) (A : ℕ → ℕ → K) (b x : ℕ → K) (h : solvels n A b = some x) :
    (block n A).mulVec (seg n x) = seg n b := by
  unfold solvels at h
  split at h
  · exact absurd h (by simp)
  obtain ⟨s, hs, hx⟩ := Option.bind_eq_some_iff.1 h
  have hinv : LSInv n A b (n - 1) s := forUpM_inv (Nat.zero_le _) (lsStep n) (A, b) s
    (LSInv n A b) (LSInv.init n A b) (fun k u v _ hk hu hv => lsStep_inv hk hu hv) hs
  have hback := (lsBack_spec n s.1 s.2 (fun _ => 0)).1 x hx
  have := (hinv x 1).2 (by
    intro i hi
    rw [show min i (n - 1) = i by omega, (hback i hi).2, one_mul])
  ext i
  have hi := this i i.2
  rw [Finset.sum_range, one_mul] at hi
  exact hi

/-- **C50**: for every non-empty non-singular system the solver returns the solution. -/
theorem C50_solve (n : ℕ) (hn : 0 < n) (A : ℕ → ℕ → K) (b : ℕ → K) (hdet : (block n A).det ≠ 0) :
    ∃ x, solvels n A b = some x ∧ (block n A).mulVec (seg n x) = seg n b := by
  obtain ⟨s, hs, hinv⟩ := forUpM_total (lo := 0) (hi := n - 1) (Nat.zero_le _) (lsStep n) (A, b)
    (LSInv n A b) (LSInv.init n A b) (by
      intro k u _ hk hu
      obtain ⟨v, hv⟩ := lsStep_some hk hu hdet
      exact ⟨v, hv, lsStep_inv hk hu hv⟩)
  have hd : ∀ i, i < n → s.1 i i ≠ 0 := by
    intro k hk
    have := elim_diag (n := n) (A0 := A) (Sfac (n - 1) s.1) (by
      intro i j h1 h2 h3; rw [Sfac, if_pos (by omega)]) (by
      intro x hx
      have := (hinv x 0).2 (by intro i hi; rw [ls_full, hx i hi, zero_mul])
      intro r hr
      rw [this r hr, zero_mul]) hdet k hk
    rwa [Sfac, if_neg (by omega)] at this
  obtain ⟨x, hx⟩ := (lsBack_spec n s.1 s.2 (fun _ => 0)).2 hd
  have hsol : solvels n A b = some x := by
    unfold solvels
    rw [if_neg (by omega)]
    show ((forUpM 0 (n - 1) (lsStep n) (A, b)).bind fun s => lsBack n s.1 s.2 fun _ => 0) = _
    rw [hs]; exact hx
  exact ⟨x, hsol, C50_sound n A b x hsol⟩

omit [IsStrictOrderedRing K] in
/-- **C50**: an empty system is outside the solver's domain. -/
theorem C50_empty (A : ℕ → ℕ → K) (b : ℕ → K) : solvels 0 A b = none := rfl

/-- A system needing a row exchange: `0 x + 2 y = 4, 3 x + y = 5`. -/
example : (solvels 2 (fun i j => (![![0, 2], ![3, 1]] : Matrix (Fin 2) (Fin 2) ℚ)
    (Fin.ofNat 2 i) (Fin.ofNat 2 j)) (fun i => ![4, 5] (Fin.ofNat 2 i))).map
      (fun x => (x 0, x 1)) = some (1, 2) := by
  decide +kernel

end Pansfem
