/-
Helper lemmas for the dense direct solvers.
-/
import Verif.Model.LU
import Verif.Lemmas.Loops
import Mathlib.LinearAlgebra.Matrix.ToLin
import Mathlib.LinearAlgebra.Dimension.Constructions
import Mathlib.LinearAlgebra.FiniteDimensional.Lemmas
import Mathlib.LinearAlgebra.Matrix.NonsingularInverse
import Mathlib.LinearAlgebra.Matrix.ToLinearEquiv
import Mathlib.Tactic.Linarith
import Mathlib.Tactic.FieldSimp
import Mathlib.Tactic.Ring
import Mathlib.Tactic.LinearCombination

namespace Pansfem

variable {K : Type}

/-- A loop of writes to pairwise different places, each value not depending on the other places. -/
theorem forUp_writes {lo hi : ℕ} (h : lo ≤ hi) (p q : ℕ → ℕ) (f : ℕ → (ℕ → ℕ → K) → K)
    (A : ℕ → ℕ → K)
    (hinj : ∀ i j, lo ≤ i → i < j → j < hi → ¬ (p i = p j ∧ q i = q j))
    (hf : ∀ i B, lo ≤ i → i < hi →
      (∀ a b, (∀ i', lo ≤ i' → i' < i → ¬ (a = p i' ∧ b = q i')) → B a b = A a b) → f i B = f i A) :
    let R := forUp lo hi (fun i B => upd2 B (p i) (q i) (f i B)) A
    (∀ i, lo ≤ i → i < hi → R (p i) (q i) = f i A) ∧
    (∀ a b, (∀ i', lo ≤ i' → i' < hi → ¬ (a = p i' ∧ b = q i')) → R a b = A a b) := by
  refine forUp_inv h _ A (fun n R => (∀ i, lo ≤ i → i < n → R (p i) (q i) = f i A) ∧
    (∀ a b, (∀ i', lo ≤ i' → i' < n → ¬ (a = p i' ∧ b = q i')) → R a b = A a b)) ?_ ?_
  · exact ⟨fun i h1 h2 => absurd h2 (by omega), fun _ _ _ => rfl⟩
  · rintro n R h1 h2 ⟨hR1, hR2⟩
    constructor
    · intro i hi1 hi2
      rcases Nat.lt_succ_iff_lt_or_eq.1 hi2 with hlt | rfl
      · rw [upd2_ne _ _ (hinj i n hi1 hlt h2), hR1 i hi1 hlt]
      · rw [upd2_self, hf i R h1 h2 hR2]
    · intro a b hab
      rw [upd2_ne _ _ (hab n h1 (by omega)), hR2 a b fun i' x y => hab i' x (by omega)]

section
variable [Field K] [LinearOrder K]

/-- What the pivot search returns. -/
theorem pivotSearch_spec {n k : ℕ} (hk : k < n) (A : ℕ → ℕ → K) :
    k ≤ pivotSearch n k A ∧ pivotSearch n k A < n ∧
      ∀ i, k ≤ i → i < n → |A i k| ≤ |A (pivotSearch n k A) k| := by
  have := forUp_inv (lo := k + 1) (hi := n) (by omega)
    (fun i (s : K × ℕ) => if s.1 < |A i k| then (|A i k|, i) else s) (|A k k|, k)
    (fun m s => k ≤ s.2 ∧ s.2 < m ∧ s.1 = |A s.2 k| ∧ ∀ i, k ≤ i → i < m → |A i k| ≤ |A s.2 k|)
    ⟨le_rfl, by simp, rfl, fun i h1 h2 => by rw [show i = k by omega]⟩ (by
      rintro i ⟨v, p⟩ h1 h2 ⟨hp1, hp2, hv, hmax⟩
      simp only at hp1 hp2 hv hmax ⊢
      split
      · next hlt =>
        refine ⟨by simp; omega, by simp, rfl, fun i' a b => ?_⟩
        rcases Nat.lt_succ_iff_lt_or_eq.1 b with hb | rfl
        · exact (hmax i' a hb).trans (le_of_lt (hv ▸ hlt))
        · exact le_rfl
      · next hlt =>
        refine ⟨hp1, by simp only; omega, hv, fun i' a b => ?_⟩
        rcases Nat.lt_succ_iff_lt_or_eq.1 b with hb | rfl
        · exact hmax i' a hb
        · exact hv ▸ not_lt.1 hlt)
  exact ⟨this.1, this.2.1, this.2.2.2⟩

/-- Row exchange of the columns `[lo, n)`. -/
theorem swapRows_apply (n a b lo : ℕ) (hab : a ≠ b) (A : ℕ → ℕ → K) (i j : ℕ) :
    swapRows n a b lo A i j
      = if lo ≤ j ∧ j < n then (if i = a then A b j else if i = b then A a j else A i j)
        else A i j := by
  rcases le_or_gt lo n with h | h
  · have := forUp_inv h (fun j A => upd2 (upd2 A a j (A b j)) b j (A a j)) A
      (fun m R => ∀ i j, R i j = if lo ≤ j ∧ j < m then
        (if i = a then A b j else if i = b then A a j else A i j) else A i j)
      (by intro i j; rw [if_neg (by omega)]) (by
        intro m R h1 h2 hR i j
        simp only [upd2, hR]
        by_cases hj : j = m
        · subst hj
          simp only [and_true, lt_irrefl, and_false, if_false, h1, Nat.lt_succ_self,
            and_self, if_true]
          by_cases hia : i = a
          · subst hia; simp [hab]
          · by_cases hib : i = b
            · simp [hib, hab.symm]
            · simp [hia, hib]
        · simp only [hj, and_false, if_false]
          have : (lo ≤ j ∧ j < m) ↔ (lo ≤ j ∧ j < m + 1) := by omega
          simp only [this])
    exact this i j
  · rw [if_neg (by omega)]
    simp [swapRows, forUp, show n - lo = 0 by omega]

/-! ### Factorisation -/

/-- Multipliers stored below the diagonal of the first `k` columns, ones on the diagonal. -/
def Lfac (k : ℕ) (A : ℕ → ℕ → K) (i l : ℕ) : K :=
  if l < k ∧ l < i then A i l else if i = l then 1 else 0

/-- The partly eliminated matrix. -/
def Sfac (k : ℕ) (A : ℕ → ℕ → K) (i j : ℕ) : K := if j < k ∧ j < i then 0 else A i j

/-- Invariant of `LU`. -/
structure LUInv (n : ℕ) (A0 : ℕ → ℕ → K) (k : ℕ) (s : (ℕ → ℕ → K) × (ℕ → ℕ)) : Prop where
  bound : ∀ i, i < n → s.2 i < n
  inj : ∀ i j, i < n → j < n → s.2 i = s.2 j → i = j
  fac : ∀ i j, i < n → j < n →
    A0 (s.2 i) j = ∑ l ∈ Finset.range (min i k), s.1 i l * Sfac k s.1 l j + Sfac k s.1 i j

theorem LUInv.surj {n : ℕ} {A0 : ℕ → ℕ → K} {k : ℕ} {s : (ℕ → ℕ → K) × (ℕ → ℕ)}
    (h : LUInv n A0 k s) (r : ℕ) (hr : r < n) : ∃ i, i < n ∧ s.2 i = r := by
  let f : Fin n → Fin n := fun i => ⟨s.2 i, h.bound i i.2⟩
  have hf : Function.Injective f := fun i j e => Fin.ext (h.inj i j i.2 j.2 (congrArg Fin.val e))
  obtain ⟨i, hi⟩ := Finite.injective_iff_surjective.1 hf ⟨r, hr⟩
  exact ⟨i, i.2, congrArg Fin.val hi⟩

theorem divLoop_apply (n k : ℕ) (A : ℕ → ℕ → K) (a b : ℕ) (hk : k < n) :
    forUp (k + 1) n (fun i A => upd2 A i k (A i k / A k k)) A a b
      = if k < a ∧ a < n ∧ b = k then A a k / A k k else A a b := by
  obtain ⟨h1, h2⟩ := forUp_writes (lo := k + 1) (hi := n) (by omega) (fun i => i) (fun _ => k)
    (fun i A => A i k / A k k) A (by intro i j _ _ _; simp; omega) (by
      intro i B hi1 hi2 hB
      rw [hB i k (by intro i' _ _; omega), hB k k (by intro i' _ _; omega)])
  split
  · next h => obtain ⟨ha, hb, rfl⟩ := h; exact h1 a (by omega) hb
  · next h => exact h2 a b (by intro i' _ _; omega)

theorem elimLoop_apply (n k : ℕ) (A : ℕ → ℕ → K) (a b : ℕ) (hk : k < n) :
    forUp (k + 1) n (fun j A =>
      forUp (k + 1) n (fun i A => upd2 A i j (A i j - A i k * A k j)) A) A a b
      = if k < a ∧ a < n ∧ k < b ∧ b < n then A a b - A a k * A k b else A a b := by
  have := forUp_inv (lo := k + 1) (hi := n) (by omega) (fun j A =>
      forUp (k + 1) n (fun i A => upd2 A i j (A i j - A i k * A k j)) A) A
    (fun m R => ∀ a b, R a b =
      if k < a ∧ a < n ∧ k < b ∧ b < m then A a b - A a k * A k b else A a b)
    (by intro a b; rw [if_neg (by omega)]) (by
      intro j R hj1 hj2 hR a b
      obtain ⟨h1, h2⟩ := forUp_writes (lo := k + 1) (hi := n) (by omega) (fun i => i) (fun _ => j)
        (fun i A => A i j - A i k * A k j) R (by intro i j _ _ _; simp; omega) (by
          intro i B hi1 hi2 hB
          rw [hB i j (by intro i' _ _; omega), hB i k (by intro i' _ _; omega),
            hB k j (by intro i' _ _; omega)])
      by_cases h : k < a ∧ a < n ∧ b = j
      · obtain ⟨ha, hb, rfl⟩ := h
        rw [if_pos (by omega)]
        refine (h1 a (by omega) hb).trans ?_
        rw [hR a b, hR a k, hR k b, if_neg (by omega), if_neg (by omega), if_neg (by omega)]
      · refine (h2 a b (by intro i' _ _; omega)).trans ?_
        rw [hR a b]
        have : (k < a ∧ a < n ∧ k < b ∧ b < j) ↔ (k < a ∧ a < n ∧ k < b ∧ b < j + 1) := by omega
        simp only [this])
  exact this a b

/-- The state after the row exchange of step `k`. -/
theorem LUInv.swapped {n : ℕ} {A0 : ℕ → ℕ → K} {k p : ℕ} {s : (ℕ → ℕ → K) × (ℕ → ℕ)}
    (h : LUInv n A0 k s) (hk : k ≤ p) (hp : p < n) :
    LUInv n A0 k (if k ≠ p then swapRows n k p 0 s.1 else s.1,
      if k ≠ p then swap1 s.2 k p else s.2) := by
  by_cases hkp : k = p
  · simpa [hkp] using h
  simp only [ne_eq, hkp, not_false_eq_true, if_true]
  -- the transposition
  let σ : ℕ → ℕ := fun i => if i = k then p else if i = p then k else i
  have hσ1 : ∀ i, swap1 s.2 k p i = s.2 (σ i) := by
    intro i; simp only [swap1, σ]; split_ifs <;> rfl
  have hσ2 : ∀ i j, j < n → swapRows n k p 0 s.1 i j = s.1 (σ i) j := by
    intro i j hj
    rw [swapRows_apply _ _ _ _ hkp, if_pos (by omega)]
    simp only [σ]; split_ifs <;> rfl
  have hσn : ∀ i, i < n → σ i < n := by intro i hi; simp only [σ]; split_ifs <;> omega
  have hσlt : ∀ i, i < k → σ i = i := by intro i hi; simp only [σ]; split_ifs <;> omega
  have hσge : ∀ i, k ≤ i → k ≤ σ i := by intro i hi; simp only [σ]; split_ifs <;> omega
  have hσσ : ∀ i, σ (σ i) = i := by
    intro i; simp only [σ]; split_ifs <;> omega
  refine ⟨fun i hi => ?_, fun i j hi hj e => ?_, fun i j hi hj => ?_⟩
  · simp only [hσ1]; exact h.bound _ (hσn i hi)
  · simp only [hσ1] at e
    have := h.inj _ _ (hσn i hi) (hσn j hj) e
    rw [← hσσ i, this, hσσ]
  · simp only [hσ1]
    rw [h.fac _ j (hσn i hi) hj]
    have hmin : min (σ i) k = min i k := by
      rcases lt_or_ge i k with hlt | hge
      · rw [hσlt i hlt]
      · have := hσge i hge; omega
    rw [hmin]
    congr 1
    · refine Finset.sum_congr rfl fun l hl => ?_
      have hl' := Finset.mem_range.1 hl
      rw [hσ2 i l (by omega)]
      congr 1
      simp only [Sfac]
      rw [hσ2 l j hj, hσlt l (by omega)]
    · simp only [Sfac]
      rw [hσ2 i j hj]
      rcases lt_or_ge i k with hlt | hge
      · rw [hσlt i hlt]
      · have := hσge i hge
        have e : (j < k ∧ j < σ i) ↔ (j < k ∧ j < i) := by omega
        simp only [e]

theorem luStep_inv {n : ℕ} {A0 : ℕ → ℕ → K} {k : ℕ} (hk : k < n - 1)
    {s t : (ℕ → ℕ → K) × (ℕ → ℕ)} (h : LUInv n A0 k s) (ht : luStep n k s = some t) :
    LUInv n A0 (k + 1) t ∧ t.1 k k ≠ 0 ∧ ∀ l, l < k → t.1 l l = s.1 l l := by
  obtain ⟨hp1, hp2, -⟩ := pivotSearch_spec (n := n) (k := k) (by omega) s.1
  have h' := h.swapped hp1 hp2
  have hdiag : ∀ l, l < k → (if k ≠ pivotSearch n k s.1 then
      swapRows n k (pivotSearch n k s.1) 0 s.1 else s.1) l l = s.1 l l := by
    intro l hl
    split
    · next hne =>
      rw [swapRows_apply _ _ _ _ hne]
      rw [if_pos (by omega), if_neg (by omega), if_neg (by omega)]
    · rfl
  unfold luStep at ht
  simp only at ht
  generalize (if k ≠ pivotSearch n k s.1 then swapRows n k (pivotSearch n k s.1) 0 s.1 else s.1)
    = A at *
  generalize (if k ≠ pivotSearch n k s.1 then swap1 s.2 k (pivotSearch n k s.1) else s.2)
    = piv at *
  split at ht
  · exact absurd ht (by simp)
  next hz =>
  have ht := Option.some.inj ht
  obtain ⟨B, hB⟩ : ∃ B, B = t.1 := ⟨_, rfl⟩
  have hBv : ∀ a b, B a b = if k < a ∧ a < n ∧ k < b ∧ b < n then A a b - A a k / A k k * A k b
      else if k < a ∧ a < n ∧ b = k then A a k / A k k else A a b := by
    intro a b
    rw [hB, ← ht]
    simp only
    rw [elimLoop_apply _ _ _ _ _ (by omega)]
    simp only [divLoop_apply _ _ _ _ _ (show k < n by omega)]
    by_cases hA : k < a ∧ a < n ∧ k < b ∧ b < n
    · rw [if_pos hA, if_pos hA, if_neg (show ¬ (k < a ∧ a < n ∧ b = k) by omega),
        if_pos (show k < a ∧ a < n ∧ True from ⟨hA.1, hA.2.1, trivial⟩),
        if_neg (show ¬ (k < k ∧ k < n ∧ b = k) by omega)]
    · rw [if_neg hA, if_neg hA]
  have hpiv : t.2 = piv := by rw [← ht]
  have hle : ∀ a b, a ≤ k → B a b = A a b := by
    intro a b ha; rw [hBv, if_neg (by omega), if_neg (by omega)]
  have hlk : ∀ a b, b < k → B a b = A a b := by
    intro a b ha; rw [hBv, if_neg (by omega), if_neg (by omega)]
  refine ⟨⟨?_, ?_, ?_⟩, ?_, ?_⟩
  · rw [hpiv]; exact h'.bound
  · rw [hpiv]; exact h'.inj
  · intro i j hi hj
    rw [hpiv, ← hB, h'.fac i j hi hj]
    simp only
    have hS : ∀ l, l ≤ k → Sfac (k + 1) B l j = Sfac k A l j := by
      intro l hl
      simp only [Sfac]
      rw [hle l j hl]
      have : (j < k + 1 ∧ j < l) ↔ (j < k ∧ j < l) := by omega
      simp only [this]
    rcases Nat.lt_or_ge k i with hki | hki
    · rw [show min i (k + 1) = k + 1 by omega, show min i k = k by omega, Finset.sum_range_succ]
      rw [add_assoc]
      congr 1
      · refine Finset.sum_congr rfl fun l hl => ?_
        have hl' := Finset.mem_range.1 hl
        rw [hS l (by omega), hlk i l hl']
      · rw [hS k le_rfl]
        simp only [Sfac]
        have hik : B i k = A i k / A k k := by
          rw [hBv, if_neg (by omega), if_pos ⟨hki, hi, rfl⟩]
        rcases lt_trichotomy j k with hjk | rfl | hjk
        · rw [if_pos (by omega), if_pos (by omega), if_pos (by omega)]; simp
        · rw [if_neg (by omega), if_neg (by omega), if_pos (by omega), hik]
          field_simp; simp
        · rw [if_neg (by omega), if_neg (by omega), if_neg (by omega), hik,
            hBv i j, if_pos ⟨hki, hi, hjk, hj⟩]
          ring
    · rw [show min i (k + 1) = min i k by omega, hS i hki]
      congr 1
      refine Finset.sum_congr rfl fun l hl => ?_
      have hl' := Finset.mem_range.1 hl
      rw [hS l (by omega), hle i l hki]
  · rw [← hB, hle k k le_rfl]; exact hz
  · intro l hl
    rw [← hB, hle l l (by omega)]; exact hdiag l hl

omit [LinearOrder K] in
theorem LUInv.init (n : ℕ) (A0 : ℕ → ℕ → K) : LUInv n A0 0 (A0, fun i => i) :=
  ⟨fun i h => h, fun i j _ _ h => h, fun i j _ _ => by simp [Sfac]⟩

end

/-! ### Square systems written with natural subscripts -/

/-- `n` homogeneous equations whose first `k + 1` columns vanish below row `k` have a non-zero
solution. -/
theorem exists_kernel [Field K] {n k : ℕ} (hk : k < n) (S : ℕ → ℕ → K)
    (hz : ∀ i j, k ≤ i → i < n → j ≤ k → S i j = 0) :
    ∃ x : ℕ → K, (∃ j, j < n ∧ x j ≠ 0) ∧ ∀ i, i < n → ∑ j ∈ Finset.range n, S i j * x j = 0 := by
  let M : Matrix (Fin k) (Fin (k + 1)) K := fun i j => S i j
  have hlt : Module.finrank K (Fin k → K) < Module.finrank K (Fin (k + 1) → K) := by simp
  have := LinearMap.ker_ne_bot_of_finrank_lt (f := M.mulVecLin) hlt
  obtain ⟨v, hv, hv0⟩ := (Submodule.ne_bot_iff _).1 this
  have hv' : M.mulVec v = 0 := by simpa using hv
  obtain ⟨c, hc⟩ : ∃ c, v c ≠ 0 := by
    by_contra hcon; push Not at hcon; exact hv0 (funext hcon)
  refine ⟨fun j => if h : j < k + 1 then v ⟨j, h⟩ else 0,
    ⟨c, by omega, by simpa [c.2] using hc⟩, fun i hi => ?_⟩
  have hsum : ∑ j ∈ Finset.range n, S i j * (if h : j < k + 1 then v ⟨j, h⟩ else 0)
      = ∑ j ∈ Finset.range (k + 1), S i j * (if h : j < k + 1 then v ⟨j, h⟩ else 0) := by
    symm
    refine Finset.sum_subset (fun a ha => ?_) fun a _ ha => ?_
    · simp only [Finset.mem_range] at ha ⊢; omega
    · simp only [Finset.mem_range, not_lt] at ha
      rw [dif_neg (by omega), mul_zero]
  rw [hsum]
  rcases Nat.lt_or_ge i k with hik | hik
  · rw [Finset.sum_range]
    have := congrFun hv' ⟨i, hik⟩
    simp only [Matrix.mulVec, dotProduct, M, Pi.zero_apply] at this
    rw [← this]
    refine Finset.sum_congr rfl fun j _ => ?_
    rw [dif_pos j.2]
  · refine Finset.sum_eq_zero fun j hj => ?_
    rw [hz i j hik hi (by simp only [Finset.mem_range] at hj; omega), zero_mul]

/-- A matrix with non-zero determinant has no non-trivial solution of the homogeneous system. -/
theorem no_kernel [Field K] {n : ℕ} (A : ℕ → ℕ → K)
    (hdet : (Matrix.of fun i j : Fin n => A i j).det ≠ 0) (x : ℕ → K)
    (hx : ∀ i, i < n → ∑ j ∈ Finset.range n, A i j * x j = 0) (j : ℕ) (hj : j < n) : x j = 0 := by
  by_contra hne
  apply hdet
  rw [← Matrix.exists_mulVec_eq_zero_iff]
  refine ⟨fun j => x j, fun h => hne (congrFun h ⟨j, hj⟩), ?_⟩
  funext i
  have := hx i i.2
  rw [Finset.sum_range] at this
  exact this

section
variable [Field K] [LinearOrder K] [IsStrictOrderedRing K]

/-- With a non-singular matrix no pivot vanishes. -/
theorem luStep_some {n : ℕ} {A0 : ℕ → ℕ → K} {k : ℕ} (hk : k < n - 1)
    {s : (ℕ → ℕ → K) × (ℕ → ℕ)} (h : LUInv n A0 k s)
    (hdet : (Matrix.of fun i j : Fin n => A0 i j).det ≠ 0) : ∃ t, luStep n k s = some t := by
  unfold luStep
  simp only
  by_cases hz : (if k ≠ pivotSearch n k s.1 then swapRows n k (pivotSearch n k s.1) 0 s.1
      else s.1) k k = 0
  · exfalso
    obtain ⟨hp1, hp2, hmax⟩ := pivotSearch_spec (n := n) (k := k) (by omega) s.1
    have hpk : s.1 (pivotSearch n k s.1) k = 0 := by
      by_cases hne : k = pivotSearch n k s.1
      · rw [if_neg (by simpa using hne)] at hz
        rw [← hne]; exact hz
      · rw [if_pos hne, swapRows_apply _ _ _ _ hne, if_pos (by omega), if_pos rfl] at hz
        exact hz
    have hcol : ∀ i, k ≤ i → i < n → s.1 i k = 0 := by
      intro i h1 h2
      have := hmax i h1 h2
      rw [hpk, abs_zero] at this
      exact abs_nonpos_iff.1 this
    obtain ⟨x, ⟨j, hj, hxj⟩, hx⟩ := exists_kernel (K := K) (n := n) (k := k) (by omega)
      (Sfac k s.1) (by
        intro i j h1 h2 h3
        simp only [Sfac]
        rcases Nat.lt_or_ge j k with hlt | hge
        · rw [if_pos (by omega)]
        · rw [if_neg (by omega), show j = k by omega, hcol i h1 h2])
    refine hxj (no_kernel A0 hdet x ?_ j hj)
    intro r hr
    obtain ⟨i, hi, rfl⟩ := h.surj r hr
    calc ∑ j ∈ Finset.range n, A0 (s.2 i) j * x j
        = ∑ j ∈ Finset.range n, (∑ l ∈ Finset.range (min i k), s.1 i l * Sfac k s.1 l j
            + Sfac k s.1 i j) * x j :=
          Finset.sum_congr rfl fun j hj => by rw [h.fac i j hi (Finset.mem_range.1 hj)]
      _ = ∑ l ∈ Finset.range (min i k), s.1 i l * ∑ j ∈ Finset.range n, Sfac k s.1 l j * x j
            + ∑ j ∈ Finset.range n, Sfac k s.1 i j * x j := by
          simp only [add_mul, Finset.sum_add_distrib, Finset.sum_mul, Finset.mul_sum, mul_assoc]
          rw [Finset.sum_comm]
      _ = 0 := by
          rw [hx i hi, add_zero]
          refine Finset.sum_eq_zero fun l hl => ?_
          have := Finset.mem_range.1 hl
          rw [hx l (by omega), mul_zero]
  · rw [if_neg hz]; exact ⟨_, rfl⟩

/-- `LU` finishes for every non-singular matrix. -/
theorem lu_some {n : ℕ} (A0 : ℕ → ℕ → K)
    (hdet : (Matrix.of fun i j : Fin n => A0 i j).det ≠ 0) : ∃ t, lu n A0 = some t := by
  obtain ⟨t, ht, -⟩ := forUpM_total (lo := 0) (hi := n - 1) (Nat.zero_le _) (luStep n)
    (A0, fun i => i) (fun k s => LUInv n A0 k s) (LUInv.init n A0) (by
      intro k s _ hk h
      obtain ⟨t, ht⟩ := luStep_some hk h hdet
      exact ⟨t, ht, (luStep_inv hk h ht).1⟩)
  exact ⟨t, ht⟩

omit [IsStrictOrderedRing K] in
/-- What `LU` leaves behind. -/
theorem lu_inv {n : ℕ} (A0 : ℕ → ℕ → K) {t : (ℕ → ℕ → K) × (ℕ → ℕ)} (ht : lu n A0 = some t) :
    LUInv n A0 (n - 1) t ∧ ∀ l, l < n - 1 → t.1 l l ≠ 0 := by
  refine forUpM_inv (lo := 0) (hi := n - 1) (Nat.zero_le _) (luStep n) (A0, fun i => i) t
    (fun k s => LUInv n A0 k s ∧ ∀ l, l < k → s.1 l l ≠ 0) ⟨LUInv.init n A0, by simp⟩ ?_ ht
  rintro k u v - hk ⟨h, hd⟩ hv
  obtain ⟨h', hkk, hl⟩ := luStep_inv hk h hv
  refine ⟨h', fun l hlk => ?_⟩
  rcases Nat.lt_succ_iff_lt_or_eq.1 hlk with hlt | rfl
  · rw [hl l hlt]; exact hd l hlt
  · exact hkk

end

section
variable [Field K] [LinearOrder K] [IsStrictOrderedRing K]

/-- The multipliers stored so far are at most one in modulus. -/
theorem luStep_mult {n : ℕ} {k : ℕ} (hk : k < n - 1) {s t : (ℕ → ℕ → K) × (ℕ → ℕ)}
    (h : ∀ i l, i < n → l < i → l < k → |s.1 i l| ≤ 1) (ht : luStep n k s = some t) :
    ∀ i l, i < n → l < i → l < k + 1 → |t.1 i l| ≤ 1 := by
  obtain ⟨hp1, hp2, hmax⟩ := pivotSearch_spec (n := n) (k := k) (by omega) s.1
  have hA1 : ∀ i l, i < n → l < i → l < k → |(if k ≠ pivotSearch n k s.1 then
      swapRows n k (pivotSearch n k s.1) 0 s.1 else s.1) i l| ≤ 1 := by
    intro i l hi hl hlk
    split
    · next hne =>
      rw [swapRows_apply _ _ _ _ hne, if_pos (by omega)]
      split_ifs
      · exact h _ _ hp2 (by omega) hlk
      · exact h _ _ (by omega) (by omega) hlk
      · exact h _ _ hi hl hlk
    · exact h i l hi hl hlk
  have hA2 : ∀ i, k ≤ i → i < n → |(if k ≠ pivotSearch n k s.1 then
      swapRows n k (pivotSearch n k s.1) 0 s.1 else s.1) i k| ≤ |(if k ≠ pivotSearch n k s.1 then
      swapRows n k (pivotSearch n k s.1) 0 s.1 else s.1) k k| := by
    intro i hi hin
    split
    · next hne =>
      have e : swapRows n k (pivotSearch n k s.1) 0 s.1 k k = s.1 (pivotSearch n k s.1) k := by
        rw [swapRows_apply _ _ _ _ hne, if_pos (by omega), if_pos rfl]
      rw [e, swapRows_apply _ _ _ _ hne, if_pos (by omega)]
      split_ifs
      · exact le_rfl
      · exact hmax k le_rfl (by omega)
      · exact hmax i hi hin
    · next hne =>
      have := hmax i hi hin
      rwa [← not_not.1 hne] at this
  unfold luStep at ht
  simp only at ht
  generalize (if k ≠ pivotSearch n k s.1 then swapRows n k (pivotSearch n k s.1) 0 s.1 else s.1)
    = A at *
  split at ht
  · exact absurd ht (by simp)
  next hz =>
  have ht := Option.some.inj ht
  intro i l hi hl hlk
  rw [← ht]
  simp only
  rw [elimLoop_apply _ _ _ _ _ (by omega), if_neg (by omega),
    divLoop_apply _ _ _ _ _ (by omega)]
  rcases Nat.lt_succ_iff_lt_or_eq.1 hlk with hlt | rfl
  · rw [if_neg (by omega)]; exact hA1 i l hi hl hlt
  · rw [if_pos ⟨hl, hi, rfl⟩, abs_div]
    exact div_le_one_of_le₀ (hA2 i hl.le hi) (abs_nonneg _)

end

section
variable [Field K]

/-! ### Triangular solves -/

theorem permLoop_apply (n : ℕ) (b v : ℕ → K) (piv : ℕ → ℕ) (i : ℕ) :
    forUp 0 n (fun i v => upd1 v i (b (piv i))) v i = if i < n then b (piv i) else v i := by
  have := forUp_inv (Nat.zero_le n) (fun i v => upd1 v i (b (piv i))) v
    (fun m w => ∀ i, w i = if i < m then b (piv i) else v i) (by simp) (by
      intro m w _ _ hw i
      simp only [upd1]
      by_cases h : i = m
      · subst h; simp
      · have : i < m + 1 ↔ i < m := by omega
        rw [if_neg h, hw i]; simp only [this])
  exact this i

/-- Forward substitution with unit diagonal. -/
theorem forward_spec (n : ℕ) (L : ℕ → ℕ → K) (b : ℕ → K) :
    let y := forUp 0 n (fun i v => forUp 0 i (fun j v => upd1 v i (v i - L i j * v j)) v) b
    ∀ i, i < n → y i + ∑ j ∈ Finset.range i, L i j * y j = b i := by
  have := forUp_inv (Nat.zero_le n)
    (fun i v => forUp 0 i (fun j v => upd1 v i (v i - L i j * v j)) v) b
    (fun m y => (∀ i, i < m → y i + ∑ j ∈ Finset.range i, L i j * y j = b i) ∧
      ∀ i, m ≤ i → y i = b i) (by simp) (by
      rintro m y - hm ⟨h1, h2⟩
      rw [accum_sub (Nat.zero_le m) m (fun j w => L m j * w j) y
        (by intro j w _ hj hw; rw [hw j (by omega)])]
      refine ⟨fun i hi => ?_, fun i hi => ?_⟩
      · have hs : ∑ j ∈ Finset.range i, L i j * upd1 y m
            (y m - ∑ j ∈ Finset.Ico 0 m, L m j * y j) j = ∑ j ∈ Finset.range i, L i j * y j :=
          Finset.sum_congr rfl fun j hj => by
            rw [upd1_ne _ _ (by have := Finset.mem_range.1 hj; omega)]
        rw [hs]
        rcases Nat.lt_succ_iff_lt_or_eq.1 hi with hlt | rfl
        · rw [upd1_ne _ _ (by omega), h1 i hlt]
        · rw [upd1_self, h2 i le_rfl, Nat.Ico_zero_eq_range]; ring
      · rw [upd1_ne _ _ (by omega), h2 i (by omega)])
  exact this.1

/-- Back substitution, for any loop body with the stated effect on element `i`. -/
theorem backward_spec [DecidableEq K] (n : ℕ) (U : ℕ → ℕ → K) (y x0 : ℕ → K)
    (body : ℕ → (ℕ → K) → Option (ℕ → K))
    (hbody : ∀ i v, i < n → (∀ j, j ≤ i → v j = x0 j) →
      body i v = if U i i = 0 then none
        else some (upd1 v i ((y i - ∑ j ∈ Finset.Ico (i + 1) n, U i j * v j) / U i i))) :
    (∀ x, forDownM 0 n body x0 = some x →
      ∀ i, i < n → U i i ≠ 0 ∧ ∑ j ∈ Finset.Ico i n, U i j * x j = y i) ∧
    ((∀ i, i < n → U i i ≠ 0) → ∃ x, forDownM 0 n body x0 = some x) := by
  have step : ∀ i u, i < n → ((∀ j, j < i + 1 → u j = x0 j) ∧ ∀ k, i + 1 ≤ k → k < n →
      U k k ≠ 0 ∧ ∑ j ∈ Finset.Ico k n, U k j * u j = y k) → U i i ≠ 0 →
      let v := upd1 u i ((y i - ∑ j ∈ Finset.Ico (i + 1) n, U i j * u j) / U i i)
      (∀ j, j < i → v j = x0 j) ∧ ∀ k, i ≤ k → k < n →
        U k k ≠ 0 ∧ ∑ j ∈ Finset.Ico k n, U k j * v j = y k := by
    rintro i u hi ⟨h1, h2⟩ hz
    refine ⟨fun j hj => ?_, fun k hk hkn => ?_⟩
    · rw [upd1_ne _ _ (by omega), h1 j (by omega)]
    · have hs : ∀ k, i + 1 ≤ k → ∑ j ∈ Finset.Ico k n, U i j * u j
          = ∑ j ∈ Finset.Ico k n, U i j * upd1 u i
            ((y i - ∑ j ∈ Finset.Ico (i + 1) n, U i j * u j) / U i i) j := fun k hk =>
        Finset.sum_congr rfl fun j hj => by
          rw [upd1_ne _ _ (by have := Finset.mem_Ico.1 hj; omega)]
      rcases Nat.eq_or_lt_of_le hk with rfl | hlt
      · refine ⟨hz, ?_⟩
        rw [Finset.sum_eq_sum_Ico_succ_bot hi, ← hs _ le_rfl, upd1_self]
        field_simp; ring
      · refine ⟨(h2 k hlt hkn).1, ?_⟩
        rw [← (h2 k hlt hkn).2]
        exact Finset.sum_congr rfl fun j hj => by
          rw [upd1_ne _ _ (by have := Finset.mem_Ico.1 hj; omega)]
  have init : (∀ j, j < n → x0 j = x0 j) ∧ ∀ k, n ≤ k → k < n →
      U k k ≠ 0 ∧ ∑ j ∈ Finset.Ico k n, U k j * x0 j = y k :=
    ⟨fun _ _ => rfl, fun k h1 h2 => absurd h2 (by omega)⟩
  constructor
  · intro x hx i hi
    refine (forDownM_inv (Nat.zero_le n) body x0 x (fun m u => (∀ j, j < m → u j = x0 j) ∧
      ∀ k, m ≤ k → k < n → U k k ≠ 0 ∧ ∑ j ∈ Finset.Ico k n, U k j * u j = y k) init ?_ hx).2 i
      (Nat.zero_le i) hi
    intro i u v _ hi hP hv
    rw [hbody i u hi fun j hj => hP.1 j (by omega)] at hv
    split at hv
    · exact absurd hv (by simp)
    · next hz => rw [← Option.some.inj hv]; exact step i u hi hP hz
  · intro hU
    obtain ⟨x, hx, -⟩ := forDownM_total (Nat.zero_le n) body x0
      (fun m u => (∀ j, j < m → u j = x0 j) ∧
        ∀ k, m ≤ k → k < n → U k k ≠ 0 ∧ ∑ j ∈ Finset.Ico k n, U k j * u j = y k) init (by
      intro i u _ hi hP
      rw [hbody i u hi fun j hj => hP.1 j (by omega), if_neg (hU i hi)]
      exact ⟨_, rfl, step i u hi hP (hU i hi)⟩)
    exact ⟨x, hx⟩

end

section
variable [Field K] [LinearOrder K]

/-- `SolveLU` succeeds exactly when the diagonal has no zero, and solves the permuted triangular
systems. -/
theorem solveLU_spec (n : ℕ) (F : ℕ → ℕ → K) (b : ℕ → K) (piv : ℕ → ℕ) :
    (∀ x, solveLU n F b piv = some x → (∀ i, i < n → F i i ≠ 0) ∧
      ∃ y : ℕ → K, (∀ i, i < n → y i + ∑ j ∈ Finset.range i, F i j * y j = b (piv i)) ∧
        ∀ i, i < n → ∑ j ∈ Finset.Ico i n, F i j * x j = y i) ∧
    ((∀ i, i < n → F i i ≠ 0) → ∃ x, solveLU n F b piv = some x) := by
  unfold solveLU
  simp only
  have hf := forward_spec n F (forUp 0 n (fun i v => upd1 v i (b (piv i))) b)
  simp only at hf
  generalize forUp 0 n (fun i v => forUp 0 i (fun j v => upd1 v i (v i - F i j * v j)) v)
    (forUp 0 n (fun i v => upd1 v i (b (piv i))) b) = y at hf ⊢
  have hb := backward_spec n F y y (fun i v =>
    if F i i = 0 then none else some (upd1 (forUp (i + 1) n
      (fun j v => upd1 v i (v i - F i j * v j)) v) i ((forUp (i + 1) n
      (fun j v => upd1 v i (v i - F i j * v j)) v) i / F i i))) (by
    intro i v hi hv
    rw [accum_sub (by omega) i (fun j w => F i j * w j) v
      (by intro j w hj _ hw; rw [hw j (by omega)])]
    split
    · rfl
    · rw [upd1_self, hv i le_rfl]
      congr 1
      funext k
      simp only [upd1]
      split <;> rfl)
  refine ⟨fun x hx => ?_, hb.2⟩
  have hx' := hb.1 x hx
  refine ⟨fun i hi => (hx' i hi).1, y, fun i hi => ?_, fun i hi => (hx' i hi).2⟩
  rw [hf i hi, permLoop_apply, if_pos hi]

/-! ### `solvels` -/

/-- Invariant of the elimination: same solutions, for every multiple of the right-hand side. -/
def LSInv (n : ℕ) (A0 : ℕ → ℕ → K) (b0 : ℕ → K) (k : ℕ) (s : (ℕ → ℕ → K) × (ℕ → K)) : Prop :=
  ∀ (x : ℕ → K) (t : K), (∀ i, i < n → ∑ j ∈ Finset.range n, A0 i j * x j = t * b0 i) ↔
    ∀ i, i < n → ∑ j ∈ Finset.Ico (min i k) n, s.1 i j * x j = t * s.2 i

theorem LSInv.swapped {n : ℕ} {A0 : ℕ → ℕ → K} {b0 : ℕ → K} {k p : ℕ}
    {s : (ℕ → ℕ → K) × (ℕ → K)} (h : LSInv n A0 b0 k s) (hk : k ≤ p) (hp : p < n) :
    LSInv n A0 b0 k (if p ≠ k then swapRows n k p k s.1 else s.1,
      if p ≠ k then swap1 s.2 k p else s.2) := by
  by_cases hkp : p = k
  · simpa [hkp] using h
  simp only [ne_eq, hkp, not_false_eq_true, if_true]
  let σ : ℕ → ℕ := fun i => if i = k then p else if i = p then k else i
  have hσ1 : ∀ i, swap1 s.2 k p i = s.2 (σ i) := by
    intro i; simp only [swap1, σ]; split_ifs <;> rfl
  have hσn : ∀ i, i < n → σ i < n := by intro i hi; simp only [σ]; split_ifs <;> omega
  have hσlt : ∀ i, i < k → σ i = i := by intro i hi; simp only [σ]; split_ifs <;> omega
  have hσge : ∀ i, k ≤ i → k ≤ σ i := by intro i hi; simp only [σ]; split_ifs <;> omega
  have hσσ : ∀ i, σ (σ i) = i := by intro i; simp only [σ]; split_ifs <;> omega
  have hσ2 : ∀ i j, (k ≤ j ∨ i < k) → j < n → swapRows n k p k s.1 i j = s.1 (σ i) j := by
    intro i j hij hj
    rw [swapRows_apply _ _ _ _ (Ne.symm hkp)]
    simp only [σ]; split_ifs <;> first | rfl | omega
  intro x t
  rw [h x t]
  have key : ∀ i, i < n → ((∑ j ∈ Finset.Ico (min i k) n, swapRows n k p k s.1 i j * x j
      = t * swap1 s.2 k p i) ↔
      (∑ j ∈ Finset.Ico (min (σ i) k) n, s.1 (σ i) j * x j = t * s.2 (σ i))) := by
    intro i hi
    rw [hσ1]
    have hmin : min (σ i) k = min i k := by
      rcases lt_or_ge i k with hlt | hge
      · rw [hσlt i hlt]
      · have := hσge i hge; omega
    rw [hmin]
    have : ∑ j ∈ Finset.Ico (min i k) n, swapRows n k p k s.1 i j * x j
        = ∑ j ∈ Finset.Ico (min i k) n, s.1 (σ i) j * x j :=
      Finset.sum_congr rfl fun j hj => by
        have := Finset.mem_Ico.1 hj
        rw [hσ2 i j (by omega) this.2]
    rw [this]
  constructor
  · intro hx i hi
    exact (key i hi).2 (hx _ (hσn i hi))
  · intro hx i hi
    have := (key (σ i) (hσn i hi)).1 (hx _ (hσn i hi))
    rwa [hσσ] at this

theorem lsElim_apply (n k : ℕ) (hk : k < n) (A : ℕ → ℕ → K) (b : ℕ → K) :
    let R := forUp (k + 1) n (fun j (t : (ℕ → ℕ → K) × (ℕ → K)) =>
      let A' := forUp (k + 1) n (fun c A => upd2 A j c (A j c - A k c * A j k / A k k)) t.1
      (A', upd1 t.2 j (t.2 j - t.2 k * A' j k / A' k k))) (A, b)
    (∀ a c, R.1 a c = if k < a ∧ a < n ∧ k < c ∧ c < n then A a c - A k c * A a k / A k k
      else A a c) ∧
    ∀ a, R.2 a = if k < a ∧ a < n then b a - b k * A a k / A k k else b a := by
  refine forUp_inv (lo := k + 1) (hi := n) (by omega) _ (A, b) (fun m R =>
    (∀ a c, R.1 a c = if k < a ∧ a < m ∧ k < c ∧ c < n then A a c - A k c * A a k / A k k
      else A a c) ∧
    ∀ a, R.2 a = if k < a ∧ a < m then b a - b k * A a k / A k k else b a) ?_ ?_
  · exact ⟨fun a c => by rw [if_neg (by omega)], fun a => by rw [if_neg (by omega)]⟩
  · rintro j ⟨B, d⟩ hj1 hj2 ⟨hB, hd⟩
    simp only at hB hd ⊢
    obtain ⟨h1, h2⟩ := forUp_writes (lo := k + 1) (hi := n) (by omega) (fun _ => j) (fun c => c)
      (fun c A => A j c - A k c * A j k / A k k) B (by intro i j _ _ _; omega) (by
        intro i C hi1 hi2 hC
        rw [hC j i (by intro i' _ _; omega), hC k i (by intro i' _ _; omega),
          hC j k (by intro i' _ _; omega), hC k k (by intro i' _ _; omega)])
    constructor
    · intro a c
      by_cases h : a = j ∧ k < c ∧ c < n
      · obtain ⟨rfl, hc, hcn⟩ := h
        rw [if_pos (by omega)]
        refine (h1 c (by omega) hcn).trans ?_
        rw [hB a c, hB k c, hB a k, hB k k, if_neg (by omega), if_neg (by omega),
          if_neg (by omega), if_neg (by omega)]
      · refine (h2 a c (by intro i' _ _; omega)).trans ?_
        rw [hB a c]
        have : (k < a ∧ a < j ∧ k < c ∧ c < n) ↔ (k < a ∧ a < j + 1 ∧ k < c ∧ c < n) := by omega
        simp only [this]
    · intro a
      rw [h2 j k (by intro i' _ _; omega), h2 k k (by intro i' _ _; omega)]
      by_cases h : a = j
      · subst h
        rw [upd1_self, if_pos (by omega), hd a, hd k, hB a k, hB k k, if_neg (by omega),
          if_neg (by omega), if_neg (by omega), if_neg (by omega)]
      · rw [upd1_ne _ _ h, hd a]
        have : (k < a ∧ a < j) ↔ (k < a ∧ a < j + 1) := by omega
        simp only [this]

theorem lsStep_inv {n : ℕ} {A0 : ℕ → ℕ → K} {b0 : ℕ → K} {k : ℕ} (hk : k < n - 1)
    {s t : (ℕ → ℕ → K) × (ℕ → K)} (h : LSInv n A0 b0 k s) (ht : lsStep n k s = some t) :
    LSInv n A0 b0 (k + 1) t := by
  obtain ⟨hp1, hp2, -⟩ := pivotSearch_spec (n := n) (k := k) (by omega) s.1
  have h' := h.swapped hp1 hp2
  unfold lsStep at ht
  simp only at ht
  generalize (if pivotSearch n k s.1 ≠ k then swapRows n k (pivotSearch n k s.1) k s.1 else s.1)
    = A at *
  generalize (if pivotSearch n k s.1 ≠ k then swap1 s.2 k (pivotSearch n k s.1) else s.2)
    = b at *
  split at ht
  · exact absurd ht (by simp)
  next hz =>
  obtain ⟨hA, hb⟩ := lsElim_apply n k (by omega) A b
  have ht := Option.some.inj ht
  simp only at hA hb
  rw [ht] at hA hb
  intro x τ
  rw [h' x τ]
  simp only
  -- row `k` is unchanged
  have hrow : ∀ i, i ≤ k → ∑ j ∈ Finset.Ico (min i (k + 1)) n, t.1 i j * x j
      = ∑ j ∈ Finset.Ico (min i k) n, A i j * x j := by
    intro i hi
    rw [show min i (k + 1) = min i k by omega]
    exact Finset.sum_congr rfl fun j _ => by rw [hA, if_neg (by omega)]
  have hbk : ∀ i, i ≤ k → t.2 i = b i := by
    intro i hi; rw [hb, if_neg (by omega)]
  -- a row below `k`, given row `k`
  have hbelow : (∑ j ∈ Finset.Ico k n, A k j * x j = τ * b k) → ∀ i, k < i → i < n →
      ((∑ j ∈ Finset.Ico (min i (k + 1)) n, t.1 i j * x j = τ * t.2 i) ↔
        (∑ j ∈ Finset.Ico (min i k) n, A i j * x j = τ * b i)) := by
    intro hkrow i hi hin
    rw [show min i (k + 1) = k + 1 by omega, show min i k = k by omega, hb,
      if_pos ⟨hi, hin⟩]
    have e : ∑ j ∈ Finset.Ico (k + 1) n, t.1 i j * x j
        = ∑ j ∈ Finset.Ico (k + 1) n, A i j * x j
          - A i k / A k k * ∑ j ∈ Finset.Ico (k + 1) n, A k j * x j := by
      rw [Finset.mul_sum, ← Finset.sum_sub_distrib]
      refine Finset.sum_congr rfl fun j hj => ?_
      have := Finset.mem_Ico.1 hj
      rw [hA, if_pos (by omega)]
      ring
    rw [e]
    rw [Finset.sum_eq_sum_Ico_succ_bot (show k < n by omega)] at hkrow ⊢
    generalize ∑ j ∈ Finset.Ico (k + 1) n, A i j * x j = P at *
    generalize ∑ j ∈ Finset.Ico (k + 1) n, A k j * x j = Q at *
    have hQ : Q = τ * b k - A k k * x k := by rw [← hkrow]; ring
    rw [hQ]
    have e2 : P - A i k / A k k * (τ * b k - A k k * x k)
        = A i k * x k + P - τ * (b k * A i k / A k k) := by
      field_simp; ring
    rw [e2]
    constructor
    · intro hh; linear_combination hh
    · intro hh; linear_combination hh
  constructor
  · intro hx i hi
    rcases Nat.lt_or_ge k i with hki | hki
    · have hkk := hx k (by omega)
      rw [min_self] at hkk
      exact (hbelow hkk i hki hi).2 (hx i hi)
    · rw [hrow i hki, hbk i hki]; exact hx i hi
  · intro hx i hi
    rcases Nat.lt_or_ge k i with hki | hki
    · have hkk := hx k (by omega)
      rw [hrow k le_rfl, hbk k le_rfl, min_self] at hkk
      exact (hbelow hkk i hki hi).1 (hx i hi)
    · rw [← hrow i hki, ← hbk i hki]; exact hx i hi

theorem LSInv.init (n : ℕ) (A0 : ℕ → ℕ → K) (b0 : ℕ → K) : LSInv n A0 b0 0 (A0, b0) := by
  intro x t; simp

/-- Equations of the invariant as a full system with zeros. -/
theorem ls_full (n k i : ℕ) (A : ℕ → ℕ → K) (x : ℕ → K) :
    ∑ j ∈ Finset.Ico (min i k) n, A i j * x j = ∑ j ∈ Finset.range n, Sfac k A i j * x j := by
  rw [Finset.range_eq_Ico]
  refine Finset.sum_subset_zero_on_sdiff ?_ ?_ ?_
  · intro j hj; simp only [Finset.mem_Ico] at hj ⊢; omega
  · intro j hj
    simp only [Finset.mem_sdiff, Finset.mem_Ico] at hj
    rw [Sfac, if_pos (by omega), zero_mul]
  · intro j hj
    simp only [Finset.mem_Ico] at hj
    rw [Sfac, if_neg (by omega)]

theorem accum_sub_down {lo hi : ℕ} (h : lo ≤ hi) (i : ℕ) (t : ℕ → (ℕ → K) → K)
    (v : ℕ → K) (ht : ∀ j w, lo ≤ j → j < hi → (∀ k, k ≠ i → w k = v k) → t j w = t j v) :
    forDown lo hi (fun j w => upd1 w i (w i - t j w)) v
      = upd1 v i (v i - ∑ j ∈ Finset.Ico lo hi, t j v) := by
  have := forDown_inv h (fun j w => upd1 w i (w i - t j w)) v
    (fun n w => (∀ k, k ≠ i → w k = v k) ∧ w i = v i - ∑ j ∈ Finset.Ico n hi, t j v)
    ⟨fun _ _ => rfl, by simp⟩ (by
      intro j w h1 h2 ⟨hw, hi'⟩
      refine ⟨fun k hk => by rw [upd1_ne _ _ hk, hw k hk], ?_⟩
      rw [upd1_self, Finset.sum_eq_sum_Ico_succ_bot h2, hi', ht j w h1 h2 hw]
      ring)
  funext k
  by_cases hk : k = i
  · subst hk; rw [this.2, upd1_self]
  · rw [this.1 k hk, upd1_ne _ _ hk]

theorem lsBack_spec (n : ℕ) (A : ℕ → ℕ → K) (b x0 : ℕ → K) :
    (∀ x, lsBack n A b x0 = some x →
      ∀ i, i < n → A i i ≠ 0 ∧ ∑ j ∈ Finset.Ico i n, A i j * x j = b i) ∧
    ((∀ i, i < n → A i i ≠ 0) → ∃ x, lsBack n A b x0 = some x) := by
  refine backward_spec n A b x0 _ ?_
  intro i v hi _
  simp only
  rw [accum_sub_down (by omega) i (fun j x => x j * A i j) (upd1 v i (b i))
    (by intro j w hj _ hw; rw [hw j (by omega)])]
  split
  · rfl
  · congr 1
    funext k
    by_cases hk : k = i
    · subst hk
      rw [upd1_self, upd1_self, upd1_self, upd1_self]
      congr 2
      exact Finset.sum_congr rfl fun j hj => by
        rw [upd1_ne _ _ (by have := Finset.mem_Ico.1 hj; omega), mul_comm]
    · simp only [upd1_ne _ _ hk]

end

section
variable [Field K] [LinearOrder K] [IsStrictOrderedRing K]

theorem lsStep_some {n : ℕ} {A0 : ℕ → ℕ → K} {b0 : ℕ → K} {k : ℕ} (hk : k < n - 1)
    {s : (ℕ → ℕ → K) × (ℕ → K)} (h : LSInv n A0 b0 k s)
    (hdet : (Matrix.of fun i j : Fin n => A0 i j).det ≠ 0) : ∃ t, lsStep n k s = some t := by
  unfold lsStep
  simp only
  by_cases hz : (if pivotSearch n k s.1 ≠ k then swapRows n k (pivotSearch n k s.1) k s.1
      else s.1) k k = 0
  · exfalso
    obtain ⟨hp1, hp2, hmax⟩ := pivotSearch_spec (n := n) (k := k) (by omega) s.1
    have hpk : s.1 (pivotSearch n k s.1) k = 0 := by
      by_cases hne : pivotSearch n k s.1 = k
      · rw [if_neg (by simpa using hne)] at hz
        rw [hne]; exact hz
      · rw [if_pos hne, swapRows_apply _ _ _ _ (Ne.symm hne), if_pos (by omega), if_pos rfl] at hz
        exact hz
    have hcol : ∀ i, k ≤ i → i < n → s.1 i k = 0 := by
      intro i h1 h2
      have := hmax i h1 h2
      rw [hpk, abs_zero] at this
      exact abs_nonpos_iff.1 this
    obtain ⟨x, ⟨j, hj, hxj⟩, hx⟩ := exists_kernel (K := K) (n := n) (k := k) (by omega)
      (Sfac k s.1) (by
        intro i j h1 h2 h3
        simp only [Sfac]
        rcases Nat.lt_or_ge j k with hlt | hge
        · rw [if_pos (by omega)]
        · rw [if_neg (by omega), show j = k by omega, hcol i h1 h2])
    refine hxj (no_kernel A0 hdet x ?_ j hj)
    have := (h x 0).2 (by intro i hi; rw [ls_full, hx i hi, zero_mul])
    intro r hr
    rw [this r hr, zero_mul]
  · rw [if_neg hz]; exact ⟨_, rfl⟩

/-- The last diagonal element of an eliminated non-singular matrix is not zero. -/
theorem elim_diag {n : ℕ} {A0 : ℕ → ℕ → K} (S : ℕ → ℕ → K)
    (hS : ∀ i j, i < n → j < n → j < i → S i j = 0)
    (hker : ∀ x : ℕ → K, (∀ i, i < n → ∑ j ∈ Finset.range n, S i j * x j = 0) →
      ∀ i, i < n → ∑ j ∈ Finset.range n, A0 i j * x j = 0)
    (hdet : (Matrix.of fun i j : Fin n => A0 i j).det ≠ 0) (k : ℕ) (hk : k < n) : S k k ≠ 0 := by
  intro hz
  -- columns `0..k` of the rows below `k` vanish, so the rows `0..k` have a kernel
  obtain ⟨x, ⟨j, hj, hxj⟩, hx⟩ := exists_kernel (K := K) (n := n) (k := k) hk S (by
    intro i j h1 h2 h3
    rcases Nat.lt_or_ge j i with hlt | hge
    · exact hS i j h2 (by omega) hlt
    · rw [show j = k by omega, show i = k by omega, hz])
  exact hxj (no_kernel A0 hdet x (hker x hx) j hj)

end

end Pansfem
