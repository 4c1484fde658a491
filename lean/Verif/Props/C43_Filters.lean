/-
C43 (density filter), C44 (filtered sensitivities), C45 (Heaviside projection), C76 (filters of
sensitivities).
-/
import Verif.Lemmas.Filter
import Mathlib.Analysis.Calculus.FDeriv.Pi
import Mathlib.Analysis.Calculus.FDeriv.Comp
import Mathlib.Analysis.Calculus.Deriv.Comp
import Mathlib.Algebra.Order.BigOperators.Ring.Finset
import Mathlib.LinearAlgebra.Pi
import Mathlib.Algebra.BigOperators.Field
import Mathlib.Tactic.FinCases
import Mathlib.Tactic.IntervalCases

namespace Pansfem

open Finset

section
variable {K : Type} [Field K]

/-- The neighbours of the variable `i` with their weights. -/
def rowPairs (neighbors : List (List ℕ)) (w : List (List K)) (i : ℕ) : List (ℕ × K) :=
  ((neighbors[i]?).getD []).zip ((w[i]?).getD [])

/-- Sum of the weights of the neighbours of `i`. -/
def weightSum (neighbors : List (List ℕ)) (w : List (List K)) (i : ℕ) : K :=
  ((rowPairs neighbors w i).map fun p => p.2).sum

/-- Total weight with which `k` occurs among the neighbours of `i`. -/
def weightOf (neighbors : List (List ℕ)) (w : List (List K)) (i k : ℕ) : K :=
  ((rowPairs neighbors w i).map fun p => if p.1 = k then p.2 else 0).sum

/-- The share of `k` in the mean at `i`. -/
def share (neighbors : List (List ℕ)) (w : List (List K)) (i k : ℕ) : K :=
  weightOf neighbors w i k / weightSum neighbors w i

/-- Tables of neighbours and weights for `n` variables that can be read without leaving them. -/
structure TableOk (n : ℕ) (neighbors : List (List ℕ)) (w : List (List K)) : Prop where
  rows : n ≤ neighbors.length
  wrows : n ≤ w.length
  lengths : ∀ i < n, ((neighbors[i]?).getD []).length ≤ ((w[i]?).getD []).length
  range : ∀ i < n, ∀ k ∈ (neighbors[i]?).getD [], k < n

theorem sum_pairs {n : ℕ} (L : List (ℕ × K)) (hL : ∀ p ∈ L, p.1 < n) (x : ℕ → K) :
    (L.map fun p => p.2 * x p.1).sum
      = ∑ k : Fin n, (L.map fun p => if p.1 = (k : ℕ) then p.2 else 0).sum * x k := by
  induction L with
  | nil => simp
  | cons p L ih =>
    simp only [List.map_cons, List.sum_cons, add_mul, sum_add_distrib]
    rw [ih fun q hq => hL q (by simp [hq])]
    congr 1
    have hp := hL p (by simp)
    rw [sum_eq_single (⟨p.1, hp⟩ : Fin n)]
    · simp
    · intro b _ hb
      rw [if_neg, zero_mul]
      rintro h
      exact hb (Fin.ext h.symm)
    · simp

theorem rowPairs_lt {n : ℕ} {neighbors : List (List ℕ)} {w : List (List K)} (h : TableOk n neighbors w)
    {i : ℕ} (hi : i < n) : ∀ p ∈ rowPairs neighbors w i, p.1 < n :=
  fun _ hp => h.range i hi _ (List.of_mem_zip hp).1

theorem weightSum_eq {n : ℕ} {neighbors : List (List ℕ)} {w : List (List K)} (h : TableOk n neighbors w)
    {i : ℕ} (hi : i < n) : weightSum neighbors w i = ∑ k : Fin n, weightOf neighbors w i k := by
  have := sum_pairs (rowPairs neighbors w i) (rowPairs_lt h hi) fun _ => (1 : K)
  simpa [weightSum, weightOf] using this

theorem row_get {A : Type} {l : List (List A)} {i : ℕ} (h : i < l.length) : l[i]? = some ((l[i]?).getD []) := by
  simp [h]

variable [DecidableEq K]

theorem row_loop {n : ℕ} {neighbors : List (List ℕ)} {w : List (List K)} (h : TableOk n neighbors w)
    (i : Fin n) (term : ℕ → K → Option (K × K)) (a b : ℕ → K → K)
    (ht : ∀ k < n, ∀ x, term k x = some (a k x, b k x)) :
    neighbourLoop ((neighbors[(i : ℕ)]?).getD []) ((w[(i : ℕ)]?).getD []) term
      = some (((rowPairs neighbors w i).map fun p => a p.1 p.2).sum,
          ((rowPairs neighbors w i).map fun p => b p.1 p.2).sum) :=
  neighbourLoop_zip _ _ (h.lengths i i.2) _ _ _ fun p hp => ht p.1 (rowPairs_lt h i.2 p hp) p.2

theorem weightedMean_eq {n : ℕ} {neighbors : List (List ℕ)} {w : List (List K)} (h : TableOk n neighbors w)
    (i : Fin n) (hi : weightSum neighbors w i ≠ 0) {v : ℕ → Option K} {x : Fin n → K}
    (hv : ∀ k : Fin n, v k = some (x k)) :
    weightedMean neighbors w v i = some (∑ k : Fin n, share neighbors w i k * x k) := by
  have e := row_loop h i (fun k wj => do return (wj * (← v k), wj))
    (fun k wj => wj * (if hk : k < n then x ⟨k, hk⟩ else 0)) (fun _ wj => wj) (fun k hk y => by
      simp [hv ⟨k, hk⟩, hk])
  rw [weightedMean, row_get (lt_of_lt_of_le i.2 h.rows), row_get (lt_of_lt_of_le i.2 h.wrows)]
  simp only [Option.bind_eq_bind, Option.bind_some]
  rw [weightedSums]
  simp only [Option.bind_eq_bind] at e
  simp only [Option.bind_eq_bind]
  rw [e]
  simp only [Option.bind_some]
  rw [div?_eq_some]
  refine ⟨hi, ?_⟩
  rw [sum_pairs _ (rowPairs_lt h i.2) fun k => if hk : k < n then x ⟨k, hk⟩ else 0, sum_div]
  refine sum_congr rfl fun k _ => ?_
  rw [dif_pos k.2, share, weightOf, weightSum]
  ring

/-- **C43**: the filtered variables are the means with the shares of the neighbours. -/
theorem C43_mean {n : ℕ} {neighbors : List (List ℕ)} {w : List (List K)} (h : TableOk n neighbors w)
    (hw : ∀ i < n, weightSum neighbors w i ≠ 0) (s : Fin n → K) :
    densityVariables n neighbors w (List.ofFn s)
      = some (List.ofFn fun i : Fin n => ∑ k : Fin n, share neighbors w i k * s k) :=
  range_mapM fun i => weightedMean_eq h i (hw i i.2) fun k => by simp

/-- **C43**: the shares add to one. -/
theorem C43_shares {n : ℕ} {neighbors : List (List ℕ)} {w : List (List K)} (h : TableOk n neighbors w)
    {i : ℕ} (hi : i < n) (hw : weightSum neighbors w i ≠ 0) :
    ∑ k : Fin n, share neighbors w i k = 1 := by
  simp only [share]
  rw [← sum_div, ← weightSum_eq h hi, div_self hw]

/-- **C43**: constants are preserved. -/
theorem C43_const {n : ℕ} {neighbors : List (List ℕ)} {w : List (List K)} (h : TableOk n neighbors w)
    (hw : ∀ i < n, weightSum neighbors w i ≠ 0) (c : K) :
    densityVariables n neighbors w (List.replicate n c) = some (List.replicate n c) := by
  have e : ∀ c : K, List.replicate n c = List.ofFn fun _ : Fin n => c := fun c => by simp
  rw [e, C43_mean h hw]
  congr 2
  funext i
  rw [← sum_mul, C43_shares h i.2 (hw i i.2), one_mul]

/-- **C43**: a variable whose weights add to zero has no filtered value (the code divides by zero). -/
theorem C43_undefined {n : ℕ} {neighbors : List (List ℕ)} {w : List (List K)} (h : TableOk n neighbors w)
    (i : Fin n) (hi : weightSum neighbors w i = 0) (s : Fin n → K) :
    weightedMean neighbors w (fun k => (List.ofFn s)[k]?) i = none := by
  have e := row_loop h i (fun k wj => do return (wj * (← (List.ofFn s)[k]?), wj))
    (fun k wj => wj * (if hk : k < n then s ⟨k, hk⟩ else 0)) (fun _ wj => wj) (fun k hk y => by
      simp [hk])
  rw [weightedMean, row_get (lt_of_lt_of_le i.2 h.rows), row_get (lt_of_lt_of_le i.2 h.wrows)]
  simp only [Option.bind_eq_bind, Option.bind_some]
  rw [weightedSums]
  simp only [Option.bind_eq_bind] at e
  simp only [Option.bind_eq_bind]
  rw [e]
  simp only [Option.bind_some]
  rw [weightSum] at hi
  rw [div?, if_pos hi]

end

section Order
variable {K : Type} [Field K] [LinearOrder K] [IsStrictOrderedRing K]

/-- All weights are non-negative and those of every variable add to something positive. -/
structure WeightsOk (n : ℕ) (neighbors : List (List ℕ)) (w : List (List K)) : Prop extends
    TableOk n neighbors w where
  nonneg : ∀ row ∈ w, ∀ x ∈ row, 0 ≤ x
  pos : ∀ i < n, 0 < weightSum neighbors w i

theorem WeightsOk.weight_nonneg {n : ℕ} {neighbors : List (List ℕ)} {w : List (List K)}
    (h : WeightsOk n neighbors w) {i : ℕ} (hi : i < n) (k : ℕ) : 0 ≤ weightOf neighbors w i k := by
  refine List.sum_nonneg fun x hx => ?_
  obtain ⟨p, hp, rfl⟩ := List.mem_map.1 hx
  split_ifs
  · have h1 := (List.of_mem_zip hp).2
    have h2 : i < w.length := lt_of_lt_of_le hi h.wrows
    refine h.nonneg _ ?_ _ h1
    simp [h2]
  · exact le_rfl

/-- **C43**: the shares are not negative. -/
theorem C43_share_nonneg {n : ℕ} {neighbors : List (List ℕ)} {w : List (List K)}
    (h : WeightsOk n neighbors w) {i : ℕ} (hi : i < n) (k : ℕ) : 0 ≤ share neighbors w i k :=
  div_nonneg (h.weight_nonneg hi k) (h.pos i hi).le

theorem mean_le {n : ℕ} {neighbors : List (List ℕ)} {w : List (List K)} (h : WeightsOk n neighbors w)
    {i : ℕ} (hi : i < n) {s : Fin n → K} {b : K} (hb : ∀ k, s k ≤ b) :
    ∑ k : Fin n, share neighbors w i k * s k ≤ b := by
  calc ∑ k : Fin n, share neighbors w i k * s k ≤ ∑ k : Fin n, share neighbors w i k * b :=
        sum_le_sum fun k _ => mul_le_mul_of_nonneg_left (hb k) (C43_share_nonneg h hi k)
    _ = b := by rw [← sum_mul, C43_shares h.toTableOk hi (h.pos i hi).ne', one_mul]

theorem le_mean {n : ℕ} {neighbors : List (List ℕ)} {w : List (List K)} (h : WeightsOk n neighbors w)
    {i : ℕ} (hi : i < n) {s : Fin n → K} {a : K} (ha : ∀ k, a ≤ s k) :
    a ≤ ∑ k : Fin n, share neighbors w i k * s k := by
  calc a = ∑ k : Fin n, share neighbors w i k * a := by
        rw [← sum_mul, C43_shares h.toTableOk hi (h.pos i hi).ne', one_mul]
    _ ≤ _ := sum_le_sum fun k _ => mul_le_mul_of_nonneg_left (ha k) (C43_share_nonneg h hi k)

/-- **C43**: the filtered variables stay between the bounds of the variables. -/
theorem C43_bounds {n : ℕ} {neighbors : List (List ℕ)} {w : List (List K)} (h : WeightsOk n neighbors w)
    {s : List K} (hs : s.length = n) {a b : K} (hab : ∀ x ∈ s, a ≤ x ∧ x ≤ b) :
    ∃ rho, densityVariables n neighbors w s = some rho ∧ rho.length = n ∧ ∀ y ∈ rho, a ≤ y ∧ y ≤ b := by
  subst hs
  have e := C43_mean h.toTableOk (fun i hi => (h.pos i hi).ne') fun k : Fin s.length => s[(k : ℕ)]
  rw [List.ofFn_getElem] at e
  refine ⟨_, e, by simp, ?_⟩
  intro y hy
  obtain ⟨i, rfl⟩ := List.mem_ofFn.1 hy
  exact ⟨le_mean h i.2 fun k => (hab _ (List.getElem_mem _)).1,
    mean_le h i.2 fun k => (hab _ (List.getElem_mem _)).2⟩

/-- **C43**: raising variables lowers no filtered variable. -/
theorem C43_monotone {n : ℕ} {neighbors : List (List ℕ)} {w : List (List K)} (h : WeightsOk n neighbors w)
    {s t : Fin n → K} (hst : ∀ k, s k ≤ t k) {r q : List K}
    (hr : densityVariables n neighbors w (List.ofFn s) = some r)
    (hq : densityVariables n neighbors w (List.ofFn t) = some q) : List.Forall₂ (· ≤ ·) r q := by
  rw [C43_mean h.toTableOk fun i hi => (h.pos i hi).ne', Option.some.injEq] at hr hq
  subst hr hq
  rw [List.forall₂_iff_get]
  refine ⟨by simp, fun i h1 h2 => ?_⟩
  simp only [List.get_eq_getElem, List.getElem_ofFn]
  exact sum_le_sum fun k _ => mul_le_mul_of_nonneg_left (hst k) (C43_share_nonneg h (by simpa using h1) _)

end Order

/-! A strip of three elements, each averaged with its neighbours. -/

def stripNeighbors : List (List ℕ) := [[0, 1], [0, 1, 2], [1, 2]]
def stripWeights : List (List ℝ) := [[1, 1], [1, 1, 1], [1, 1]]

theorem stripOk : WeightsOk 3 stripNeighbors stripWeights where
  rows := by simp [stripNeighbors]
  wrows := by simp [stripWeights]
  lengths := by intro i hi; interval_cases i <;> simp [stripNeighbors, stripWeights]
  range := by intro i hi; interval_cases i <;> simp [stripNeighbors]
  nonneg := by simp [stripWeights]
  pos := by
    intro i hi
    interval_cases i <;> norm_num [weightSum, rowPairs, stripNeighbors, stripWeights]

example : densityVariables 3 stripNeighbors stripWeights [1, 4, 7] = some [5 / 2, 4, 11 / 2] := by
  have := C43_mean stripOk.toTableOk (fun i hi => (stripOk.pos i hi).ne') ![1, 4, 7]
  simp only [List.ofFn_succ, List.ofFn_zero, Fin.sum_univ_succ, share, weightOf, weightSum, rowPairs,
    stripNeighbors, stripWeights] at this ⊢
  have h2 : (![1, 4, 7] : Fin 3 → ℝ) 2 = 7 := rfl
  norm_num [h2] at this ⊢
  exact this

example : ∃ rho, densityVariables 3 stripNeighbors stripWeights [0, 1, 0] = some rho ∧ rho.length = 3 ∧
    ∀ y ∈ rho, 0 ≤ y ∧ y ≤ 1 := C43_bounds stripOk rfl (by simp)

/-! ### C44 -/

section Gradient
variable {n : ℕ} {neighbors : List (List ℕ)} {w : List (List ℝ)}

/-- The matrix of shares as a linear map. -/
noncomputable def meanMap (n : ℕ) (neighbors : List (List ℕ)) (w : List (List ℝ)) :
    (Fin n → ℝ) →L[ℝ] (Fin n → ℝ) :=
  ContinuousLinearMap.pi fun i : Fin n =>
    ∑ k : Fin n, share neighbors w i k • ContinuousLinearMap.proj (R := ℝ) (φ := fun _ : Fin n => ℝ) k

theorem meanMap_apply (s : Fin n → ℝ) (i : Fin n) :
    meanMap n neighbors w s i = ∑ k : Fin n, share neighbors w i k * s k := by
  simp [meanMap]

theorem meanMap_single (i k : Fin n) : meanMap n neighbors w (Pi.single i 1) k = share neighbors w k i := by
  rw [meanMap_apply, sum_eq_single i]
  · simp
  · intro b _ hb; simp [hb]
  · simp

theorem fderiv_sum (f' : (Fin n → ℝ) →L[ℝ] ℝ) (v : Fin n → ℝ) :
    f' v = ∑ k, v k * f' (Pi.single k 1) := by
  have := LinearMap.pi_apply_eq_sum_univ (f' : (Fin n → ℝ) →ₗ[ℝ] ℝ) v
  simp only [ContinuousLinearMap.coe_coe, smul_eq_mul] at this
  rw [this]
  refine sum_congr rfl fun k _ => ?_
  congr 2
  funext j
  simp [Pi.single_apply, eq_comm]

/-- The gradient of a function of the projected means. -/
theorem gradient_means {phi : ℝ → ℝ} {f : (Fin n → ℝ) → ℝ} {f' g' : (Fin n → ℝ) →L[ℝ] ℝ} {s slope : Fin n → ℝ}
    (hphi : ∀ i, HasDerivAt phi (slope i) (meanMap n neighbors w s i))
    (hf : HasFDerivAt f f' fun i => phi (meanMap n neighbors w s i))
    (hg : HasFDerivAt (fun t => f fun i => phi (meanMap n neighbors w t i)) g' s) (i : Fin n) :
    g' (Pi.single i 1) = ∑ k : Fin n, share neighbors w k i * (f' (Pi.single k 1) * slope k) := by
  have h1 : HasFDerivAt (fun t i => phi (meanMap n neighbors w t i))
      (ContinuousLinearMap.pi fun i => slope i •
        (ContinuousLinearMap.proj (R := ℝ) (φ := fun _ : Fin n => ℝ) i).comp (meanMap n neighbors w)) s := by
    rw [hasFDerivAt_pi]
    intro i
    have h2 : HasFDerivAt (fun t => meanMap n neighbors w t i)
        ((ContinuousLinearMap.proj (R := ℝ) (φ := fun _ : Fin n => ℝ) i).comp (meanMap n neighbors w)) s :=
      ((ContinuousLinearMap.proj (R := ℝ) (φ := fun _ : Fin n => ℝ) i).comp (meanMap n neighbors w)).hasFDerivAt
    exact (hphi i).comp_hasFDerivAt s h2
  have h3 := hg.unique (hf.comp s h1)
  rw [h3, ContinuousLinearMap.comp_apply, fderiv_sum]
  refine sum_congr rfl fun k _ => ?_
  simp only [ContinuousLinearMap.pi_apply, smul_apply, ContinuousLinearMap.comp_apply,
    ContinuousLinearMap.proj_apply, meanMap_single, smul_eq_mul]
  ring

theorem densitySensitivities_eq (h : TableOk n neighbors w) (hw : ∀ i < n, weightSum neighbors w i ≠ 0)
    (s : List ℝ) (d : Fin n → ℝ) : densitySensitivities n neighbors w s (List.ofFn d)
      = some (List.ofFn fun i : Fin n => ∑ k : Fin n, share neighbors w i k * d k) :=
  C43_mean h hw d

theorem filter_unique {F : (Fin n → ℝ) → Fin n → ℝ} (h : TableOk n neighbors w)
    (hw : ∀ i < n, weightSum neighbors w i ≠ 0)
    (hF : ∀ s, densityVariables n neighbors w (List.ofFn s) = some (List.ofFn (F s))) :
    F = fun s => meanMap n neighbors w s := by
  funext s
  have := hF s
  rw [C43_mean h hw, Option.some.injEq, List.ofFn_inj] at this
  rw [← this]
  funext i
  rw [meanMap_apply]

/-- **C44** for `DensityFilter`, where the shares are symmetric (symmetric weights with equal sums):
the filtered sensitivities are the gradient of `f(filter(s))`.  Missing: tables with different sums of
weights, for which the claim is false (`C44_density_false`, `C44_density_sharp`). -/
theorem C44_density_partial (h : TableOk n neighbors w) (hw : ∀ i < n, weightSum neighbors w i ≠ 0)
    (hsym : ∀ i k : Fin n, share neighbors w i k = share neighbors w k i)
    {F : (Fin n → ℝ) → Fin n → ℝ}
    (hF : ∀ s, densityVariables n neighbors w (List.ofFn s) = some (List.ofFn (F s)))
    {f : (Fin n → ℝ) → ℝ} {f' g' : (Fin n → ℝ) →L[ℝ] ℝ} {s : Fin n → ℝ}
    (hf : HasFDerivAt f f' (F s)) (hg : HasFDerivAt (fun t => f (F t)) g' s) :
    densitySensitivities n neighbors w (List.ofFn s) (List.ofFn fun k => f' (Pi.single k 1))
      = some (List.ofFn fun i => g' (Pi.single i 1)) := by
  obtain rfl := filter_unique h hw hF
  rw [densitySensitivities_eq h hw]
  congr 2
  funext i
  have := gradient_means (phi := fun x => x) (slope := fun _ => 1) (fun i => hasDerivAt_id _) hf hg i
  rw [this]
  refine sum_congr rfl fun k _ => ?_
  rw [mul_one, hsym]

/-- **C44**: the sensitivities of every linear function are right exactly when the shares are
symmetric. -/
theorem C44_density_sharp (h : TableOk n neighbors w) (hw : ∀ i < n, weightSum neighbors w i ≠ 0)
    (s : Fin n → ℝ) :
    (∀ c : Fin n → ℝ, ∀ g' : (Fin n → ℝ) →L[ℝ] ℝ, ∀ F : (Fin n → ℝ) → Fin n → ℝ,
      (∀ s, densityVariables n neighbors w (List.ofFn s) = some (List.ofFn (F s))) →
      HasFDerivAt (fun t => ∑ k, c k * F t k) g' s →
      densitySensitivities n neighbors w (List.ofFn s) (List.ofFn c)
        = some (List.ofFn fun i => g' (Pi.single i 1)))
      ↔ ∀ i k : Fin n, share neighbors w i k = share neighbors w k i := by
  have hlin : ∀ c : Fin n → ℝ, ∃ L : (Fin n → ℝ) →L[ℝ] ℝ, (∀ v, L v = ∑ k, c k * v k) := fun c =>
    ⟨∑ k, c k • ContinuousLinearMap.proj (R := ℝ) (φ := fun _ : Fin n => ℝ) k, fun v => by
      simp⟩
  have hsing : ∀ c : Fin n → ℝ, ∀ i, ∑ k, c k * (Pi.single i 1 : Fin n → ℝ) k = c i := fun c i => by
    rw [sum_eq_single i]
    · simp
    · intro b _ hb; simp [hb]
    · simp
  constructor
  · intro H i k
    obtain ⟨L, hL⟩ := hlin (Pi.single k 1)
    have hd : HasFDerivAt (fun t => ∑ j, (Pi.single k 1 : Fin n → ℝ) j * meanMap n neighbors w t j)
        (L.comp (meanMap n neighbors w)) s := by
      have := (L.comp (meanMap n neighbors w)).hasFDerivAt (x := s)
      convert this using 2
      rw [ContinuousLinearMap.comp_apply, hL]
    have := H (Pi.single k 1) _ (fun t => meanMap n neighbors w t) (fun s => by
      rw [C43_mean h hw]; simp only [← meanMap_apply]) hd
    rw [densitySensitivities_eq h hw, Option.some.injEq, List.ofFn_inj] at this
    have := congrFun this i
    rw [ContinuousLinearMap.comp_apply, hL] at this
    simp only [meanMap_single] at this
    rw [sum_eq_single k (by intro b _ hb; simp [hb]) (by simp), sum_eq_single k (by intro b _ hb; simp [hb])
      (by simp)] at this
    simpa using this
  · intro hsym c g' F hF hg
    obtain ⟨L, hL⟩ := hlin c
    have hf : HasFDerivAt (fun v => ∑ k, c k * v k) L (F s) := by
      have := L.hasFDerivAt (x := F s)
      convert this using 2
      rw [hL]
    have := C44_density_partial h hw hsym hF hf hg
    rw [← this]
    congr 2
    funext k
    rw [hL, hsing]

/-- **C44** is false as stated: on a strip of three elements with equal weights the sensitivity of the
first filtered variable to the middle variable is 1/2, the code returns 1/3. -/
theorem C44_density_false : ¬ ∀ (n : ℕ) (neighbors : List (List ℕ)) (w : List (List ℝ)),
    WeightsOk n neighbors w → (∀ i k : Fin n, weightOf neighbors w i k = weightOf neighbors w k i) →
    ∀ F : (Fin n → ℝ) → Fin n → ℝ,
    (∀ s, densityVariables n neighbors w (List.ofFn s) = some (List.ofFn (F s))) →
    ∀ (f : (Fin n → ℝ) → ℝ) (f' g' : (Fin n → ℝ) →L[ℝ] ℝ) (s : Fin n → ℝ),
    HasFDerivAt f f' (F s) → HasFDerivAt (fun t => f (F t)) g' s →
    densitySensitivities n neighbors w (List.ofFn s) (List.ofFn fun k => f' (Pi.single k 1))
      = some (List.ofFn fun i => g' (Pi.single i 1)) := by
  intro H
  have hw := fun i hi => (stripOk.pos i hi).ne'
  have H1 := (C44_density_sharp stripOk.toTableOk hw 0).1 (fun c g' F hF hg => by
    have hL : ∃ L : (Fin 3 → ℝ) →L[ℝ] ℝ, (∀ v, L v = ∑ k, c k * v k) :=
      ⟨∑ k, c k • ContinuousLinearMap.proj (R := ℝ) (φ := fun _ : Fin 3 => ℝ) k, fun v => by
        simp⟩
    obtain ⟨L, hL⟩ := hL
    have hf : HasFDerivAt (fun v : Fin 3 → ℝ => ∑ k, c k * v k) L (F 0) := by
      have := L.hasFDerivAt (x := F 0)
      convert this using 2
      rw [hL]
    have := H 3 _ _ stripOk (by
      intro i k
      fin_cases i <;> fin_cases k <;> simp [weightOf, rowPairs, stripNeighbors, stripWeights]) F hF _ L g' 0 hf hg
    rw [← this]
    congr 2
    funext k
    rw [hL, sum_eq_single k (by intro b _ hb; simp [hb]) (by simp)]
    simp) 0 1
  norm_num [share, weightOf, weightSum, rowPairs, stripNeighbors, stripWeights] at H1


/-! ### C45 -/

theorem project_eq {beta : ℝ} (hb : 0 < beta) (y : ℝ) :
    project beta y = some ((Real.tanh (beta / 2) + Real.tanh (beta * (y - 1 / 2))) / (2 * Real.tanh (beta / 2))) := by
  have h : (0.5 : ℝ) * beta = beta / 2 := by ring
  have ht := (tanh_pos (half_pos hb)).ne'
  rw [project, div?_eq_some, h]
  refine ⟨ht, ?_⟩
  have : (0.5 : ℝ) = 1 / 2 := by norm_num
  rw [this]
  field_simp

/-- **C45**: the projection keeps 0. -/
theorem C45_zero {beta : ℝ} (hb : 0 < beta) : project beta 0 = some 0 := by
  rw [project_eq hb, Option.some.injEq]
  have : beta * (0 - 1 / 2) = -(beta / 2) := by ring
  rw [this, Real.tanh_neg, add_neg_cancel, zero_div]

/-- **C45**: the projection keeps 1/2. -/
theorem C45_half {beta : ℝ} (hb : 0 < beta) : project beta (1 / 2) = some (1 / 2) := by
  have ht := (tanh_pos (half_pos hb)).ne'
  rw [project_eq hb, Option.some.injEq, sub_self, mul_zero, Real.tanh_zero, add_zero]
  field_simp

/-- **C45**: the projection keeps 1. -/
theorem C45_one {beta : ℝ} (hb : 0 < beta) : project beta 1 = some 1 := by
  have ht := (tanh_pos (half_pos hb)).ne'
  have : beta * (1 - 1 / 2) = beta / 2 := by ring
  rw [project_eq hb, Option.some.injEq, this]
  field_simp
  ring

/-- **C45**: the projection is strictly increasing. -/
theorem C45_strictMono {beta x y a b : ℝ} (hb : 0 < beta) (hxy : x < y) (hx : project beta x = some a)
    (hy : project beta y = some b) : a < b := by
  rw [project_eq hb, Option.some.injEq] at hx hy
  subst hx hy
  have ht := tanh_pos (half_pos hb)
  have : Real.tanh (beta * (x - 1 / 2)) < Real.tanh (beta * (y - 1 / 2)) :=
    tanh_strictMono (by nlinarith)
  exact div_lt_div_of_pos_right (by linarith) (by linarith)

theorem project_mono {beta x y a b : ℝ} (hb : 0 < beta) (hxy : x ≤ y) (hx : project beta x = some a)
    (hy : project beta y = some b) : a ≤ b := by
  rcases hxy.lt_or_eq with h | rfl
  · exact (C45_strictMono hb h hx hy).le
  · rw [hx, Option.some.injEq] at hy; exact hy.le

/-- **C45**: values in [0,1] are projected into [0,1]. -/
theorem C45_range {beta y : ℝ} (hb : 0 < beta) (h0 : 0 ≤ y) (h1 : y ≤ 1) :
    ∃ a, project beta y = some a ∧ 0 ≤ a ∧ a ≤ 1 :=
  ⟨_, project_eq hb y, project_mono hb h0 (C45_zero hb) (project_eq hb y),
    project_mono hb h1 (project_eq hb y) (C45_one hb)⟩

/-- **C45**: with `beta = 0` there is no projection (the code divides zero by zero). -/
theorem C45_beta_zero (y : ℝ) : project 0 y = none := by
  simp [project, div?]

/-- The projection as a total function. -/
noncomputable def projected (beta y : ℝ) : ℝ :=
  (Real.tanh (beta / 2) + Real.tanh (beta * (y - 1 / 2))) / (2 * Real.tanh (beta / 2))

theorem heaviside_eq (h : TableOk n neighbors w) (hw : ∀ i < n, weightSum neighbors w i ≠ 0) {beta : ℝ}
    (hb : 0 < beta) (s : Fin n → ℝ) : heavisideVariables n beta neighbors w (List.ofFn s)
      = some (List.ofFn fun i : Fin n => projected beta (meanMap n neighbors w s i)) := by
  refine range_mapM fun i => ?_
  rw [heavisideEntry, weightedMean_eq h i (hw i i.2) (x := s) fun k => by simp]
  simp only [Option.bind_eq_bind, Option.bind_some]
  rw [project_eq hb, meanMap_apply, projected]

/-- **C45**: the filtered variables are the projections of the means of the density filter. -/
theorem C45_filter (h : TableOk n neighbors w) (hw : ∀ i < n, weightSum neighbors w i ≠ 0) {beta : ℝ}
    (hb : 0 < beta) (s : Fin n → ℝ) {rho : List ℝ}
    (hr : densityVariables n neighbors w (List.ofFn s) = some rho) :
    heavisideVariables n beta neighbors w (List.ofFn s) = rho.mapM (project beta) := by
  rw [C43_mean h hw, Option.some.injEq] at hr
  subst hr
  rw [heaviside_eq h hw hb, mapM_some (g := projected beta) fun a _ => project_eq hb a, List.map_ofFn]
  congr 2
  funext i
  rw [Function.comp_apply, meanMap_apply]

/-- **C45**: variables within [0,1] are filtered into [0,1]. -/
theorem C45_variables (h : WeightsOk n neighbors w) {beta : ℝ} (hb : 0 < beta) {s : List ℝ}
    (hs : s.length = n) (h01 : ∀ x ∈ s, 0 ≤ x ∧ x ≤ 1) :
    ∃ rho, heavisideVariables n beta neighbors w s = some rho ∧ rho.length = n ∧ ∀ y ∈ rho, 0 ≤ y ∧ y ≤ 1 := by
  subst hs
  have e := heaviside_eq h.toTableOk (fun i hi => (h.pos i hi).ne') hb fun k : Fin s.length => s[(k : ℕ)]
  rw [List.ofFn_getElem] at e
  refine ⟨_, e, by simp, ?_⟩
  intro y hy
  obtain ⟨i, rfl⟩ := List.mem_ofFn.1 hy
  rw [meanMap_apply]
  obtain ⟨a, h1, h2⟩ := C45_range hb (le_mean h i.2 fun k : Fin s.length => (h01 _ (List.getElem_mem k.2)).1)
    (mean_le h i.2 fun k : Fin s.length => (h01 _ (List.getElem_mem k.2)).2)
  rw [project_eq hb, Option.some.injEq] at h1
  rw [← h1] at h2
  exact h2

/-- **C45**: raising variables lowers no filtered variable. -/
theorem C45_monotone (h : WeightsOk n neighbors w) {beta : ℝ} (hb : 0 < beta)
    {s t : Fin n → ℝ} (hst : ∀ k, s k ≤ t k) {r q : List ℝ}
    (hr : heavisideVariables n beta neighbors w (List.ofFn s) = some r)
    (hq : heavisideVariables n beta neighbors w (List.ofFn t) = some q) : List.Forall₂ (· ≤ ·) r q := by
  rw [heaviside_eq h.toTableOk (fun i hi => (h.pos i hi).ne') hb, Option.some.injEq] at hr hq
  subst hr hq
  rw [List.forall₂_iff_get]
  refine ⟨by simp, fun i h1 h2 => ?_⟩
  simp only [List.get_eq_getElem, List.getElem_ofFn]
  refine project_mono hb ?_ (project_eq hb _) (project_eq hb _)
  rw [meanMap_apply, meanMap_apply]
  exact sum_le_sum fun k _ => mul_le_mul_of_nonneg_left (hst k) (C43_share_nonneg h (by simpa using h1) _)

example : ∃ rho, heavisideVariables 3 8 stripNeighbors stripWeights [0, 1, 0] = some rho ∧ rho.length = 3 ∧
    ∀ y ∈ rho, 0 ≤ y ∧ y ≤ 1 := C45_variables stripOk (by norm_num) rfl (by simp)

/-! ### C44 for the Heaviside filter -/

theorem projectDerivative_eq {beta : ℝ} (hb : 0 < beta) (y : ℝ) : projectDerivative beta y
    = some (beta * (1 - Real.tanh (beta * (y - 1 / 2)) ^ 2) / (2 * Real.tanh (beta / 2))) := by
  have h : (0.5 : ℝ) * beta = beta / 2 := by ring
  have ht := (tanh_pos (half_pos hb)).ne'
  rw [projectDerivative, div?_eq_some, h]
  refine ⟨ht, ?_⟩
  have : (0.5 : ℝ) = 1 / 2 := by norm_num
  have h1 : (1.0 : ℝ) = 1 := by norm_num
  rw [this, h1]
  field_simp

/-- **C44**: the slope used by the code is the derivative of the projection. -/
theorem C44_slope {beta : ℝ} (hb : 0 < beta) {P : ℝ → ℝ} (hP : ∀ y, project beta y = some (P y)) {y d : ℝ}
    (hd : projectDerivative beta y = some d) : HasDerivAt P d y := by
  have e : P = projected beta := by
    funext y
    have := hP y
    rw [project_eq hb, Option.some.injEq] at this
    rw [← this, projected]
  rw [projectDerivative_eq hb, Option.some.injEq] at hd
  subst hd e
  have h1 : HasDerivAt (fun y : ℝ => beta * (y - 1 / 2)) beta y := by
    exact (((hasDerivAt_id y).sub_const (1 / 2)).const_mul beta).congr_deriv (mul_one beta)
  have h2 := ((tanh_hasDerivAt (beta * (y - 1 / 2))).comp y h1).const_add (Real.tanh (beta / 2))
  have h3 := h2.div_const (2 * Real.tanh (beta / 2))
  refine (h3.congr_deriv ?_)
  ring

/-- The slopes at the means of the variables. -/
noncomputable def slopes (beta : ℝ) (neighbors : List (List ℕ)) (w : List (List ℝ)) (s : Fin n → ℝ) (i : Fin n) : ℝ :=
  beta * (1 - Real.tanh (beta * (meanMap n neighbors w s i - 1 / 2)) ^ 2) / (2 * Real.tanh (beta / 2))

theorem heavisideSensitivities_eq (h : TableOk n neighbors w) (hw : ∀ i < n, weightSum neighbors w i ≠ 0)
    {beta : ℝ} (hb : 0 < beta) (s d : Fin n → ℝ) :
    heavisideSensitivities n beta neighbors w (List.ofFn s) (List.ofFn d)
      = some (List.ofFn fun i : Fin n => ∑ k : Fin n, share neighbors w i k * (d k * slopes beta neighbors w s k)) := by
  have e : (List.range n).mapM (slopeEntry beta neighbors w (List.ofFn s))
      = some (List.ofFn (slopes beta neighbors w s)) := by
    refine range_mapM fun i => ?_
    rw [slopeEntry, weightedMean_eq h i (hw i i.2) (x := s) fun k => by simp]
    simp only [Option.bind_eq_bind, Option.bind_some]
    rw [projectDerivative_eq hb, slopes, meanMap_apply]
  rw [heavisideSensitivities, e]
  simp only [Option.bind_eq_bind, Option.bind_some]
  exact range_mapM fun i => weightedMean_eq h i (hw i i.2) fun k => by simp

theorem heaviside_unique {F : (Fin n → ℝ) → Fin n → ℝ} (h : TableOk n neighbors w)
    (hw : ∀ i < n, weightSum neighbors w i ≠ 0) {beta : ℝ} (hb : 0 < beta)
    (hF : ∀ s, heavisideVariables n beta neighbors w (List.ofFn s) = some (List.ofFn (F s))) :
    F = fun s i => projected beta (meanMap n neighbors w s i) := by
  funext s
  have := hF s
  rw [heaviside_eq h hw hb, Option.some.injEq, List.ofFn_inj] at this
  rw [← this]

theorem heaviside_gradient (h : TableOk n neighbors w) (hw : ∀ i < n, weightSum neighbors w i ≠ 0)
    {beta : ℝ} (hb : 0 < beta) {F : (Fin n → ℝ) → Fin n → ℝ}
    (hF : ∀ s, heavisideVariables n beta neighbors w (List.ofFn s) = some (List.ofFn (F s)))
    {f : (Fin n → ℝ) → ℝ} {f' g' : (Fin n → ℝ) →L[ℝ] ℝ} {s : Fin n → ℝ}
    (hf : HasFDerivAt f f' (F s)) (hg : HasFDerivAt (fun t => f (F t)) g' s) (i : Fin n) :
    g' (Pi.single i 1) = ∑ k : Fin n, share neighbors w k i * (f' (Pi.single k 1) * slopes beta neighbors w s k) := by
  obtain rfl := heaviside_unique h hw hb hF
  exact gradient_means (phi := projected beta) (fun i => C44_slope hb (fun y => project_eq hb y)
    (projectDerivative_eq hb _)) hf hg i

/-- **C44** for `HeavisideFilter`, where the shares are symmetric.  Missing: tables with different sums
of weights, for which the claim is false (`C44_heaviside_false`). -/
theorem C44_heaviside_partial (h : TableOk n neighbors w) (hw : ∀ i < n, weightSum neighbors w i ≠ 0)
    (hsym : ∀ i k : Fin n, share neighbors w i k = share neighbors w k i)
    {beta : ℝ} (hb : 0 < beta) {F : (Fin n → ℝ) → Fin n → ℝ}
    (hF : ∀ s, heavisideVariables n beta neighbors w (List.ofFn s) = some (List.ofFn (F s)))
    {f : (Fin n → ℝ) → ℝ} {f' g' : (Fin n → ℝ) →L[ℝ] ℝ} {s : Fin n → ℝ}
    (hf : HasFDerivAt f f' (F s)) (hg : HasFDerivAt (fun t => f (F t)) g' s) :
    heavisideSensitivities n beta neighbors w (List.ofFn s) (List.ofFn fun k => f' (Pi.single k 1))
      = some (List.ofFn fun i => g' (Pi.single i 1)) := by
  rw [heavisideSensitivities_eq h hw hb]
  congr 2
  funext i
  rw [heaviside_gradient h hw hb hF hf hg]
  exact sum_congr rfl fun k _ => by rw [hsym]

theorem projected_differentiable {beta : ℝ} (hb : 0 < beta) (s : Fin n → ℝ) (j : Fin n) :
    ∃ g' : (Fin n → ℝ) →L[ℝ] ℝ, HasFDerivAt (fun t => projected beta (meanMap n neighbors w t j)) g' s := by
  have h2 : HasFDerivAt (fun t => meanMap n neighbors w t j)
      ((ContinuousLinearMap.proj (R := ℝ) (φ := fun _ : Fin n => ℝ) j).comp (meanMap n neighbors w)) s :=
    ((ContinuousLinearMap.proj (R := ℝ) (φ := fun _ : Fin n => ℝ) j).comp (meanMap n neighbors w)).hasFDerivAt
  exact ⟨_, (C44_slope hb (P := projected beta) (fun y => project_eq hb y)
    (projectDerivative_eq hb _)).comp_hasFDerivAt s h2⟩

/-- **C44** is false as stated for `HeavisideFilter`: the strip of three elements again. -/
theorem C44_heaviside_false : ¬ ∀ (n : ℕ) (neighbors : List (List ℕ)) (w : List (List ℝ)) (beta : ℝ),
    WeightsOk n neighbors w → (∀ i k : Fin n, weightOf neighbors w i k = weightOf neighbors w k i) →
    0 < beta → ∀ F : (Fin n → ℝ) → Fin n → ℝ,
    (∀ s, heavisideVariables n beta neighbors w (List.ofFn s) = some (List.ofFn (F s))) →
    ∀ (f : (Fin n → ℝ) → ℝ) (f' g' : (Fin n → ℝ) →L[ℝ] ℝ) (s : Fin n → ℝ),
    HasFDerivAt f f' (F s) → HasFDerivAt (fun t => f (F t)) g' s →
    heavisideSensitivities n beta neighbors w (List.ofFn s) (List.ofFn fun k => f' (Pi.single k 1))
      = some (List.ofFn fun i => g' (Pi.single i 1)) := by
  intro H
  have hw : ∀ i < 3, weightSum stripNeighbors stripWeights i ≠ 0 := fun i hi => (stripOk.pos i hi).ne'
  have hF : ∀ s : Fin 3 → ℝ, heavisideVariables 3 1 stripNeighbors stripWeights (List.ofFn s)
      = some (List.ofFn fun i => projected 1 (meanMap 3 stripNeighbors stripWeights s i)) :=
    fun s => heaviside_eq stripOk.toTableOk hw one_pos s
  obtain ⟨g', hg⟩ := projected_differentiable (neighbors := stripNeighbors) (w := stripWeights)
    (one_pos (α := ℝ)) (fun _ : Fin 3 => (1 / 2 : ℝ)) 0
  have hf : HasFDerivAt (fun v : Fin 3 → ℝ => v 0) (ContinuousLinearMap.proj (R := ℝ) (φ := fun _ : Fin 3 => ℝ) 0)
      (fun i => projected 1 (meanMap 3 stripNeighbors stripWeights (fun _ => 1 / 2) i)) :=
    (ContinuousLinearMap.proj (R := ℝ) (φ := fun _ : Fin 3 => ℝ) 0).hasFDerivAt
  have h1 := H 3 _ _ 1 stripOk (by
      intro i k
      fin_cases i <;> fin_cases k <;> simp [weightOf, rowPairs, stripNeighbors, stripWeights]) one_pos _ hF
      _ _ g' _ hf hg
  have h2 := heaviside_gradient stripOk.toTableOk hw one_pos hF hf hg 1
  rw [heavisideSensitivities_eq stripOk.toTableOk hw one_pos, Option.some.injEq, List.ofFn_inj] at h1
  have h3 := congrFun h1 1
  rw [h2] at h3
  have hm : meanMap 3 stripNeighbors stripWeights (fun _ => (1 / 2 : ℝ)) 0 = 1 / 2 := by
    rw [meanMap_apply]
    norm_num [Fin.sum_univ_succ, share, weightOf, weightSum, rowPairs, stripNeighbors, stripWeights]
  have hs : slopes 1 stripNeighbors stripWeights (fun _ : Fin 3 => (1 / 2 : ℝ)) 0 ≠ 0 := by
    rw [slopes, hm, sub_self, mul_zero, Real.tanh_zero]
    have := tanh_pos (half_pos (one_pos (α := ℝ)))
    positivity
  simp only [Fin.sum_univ_succ, ContinuousLinearMap.proj_apply, Fin.succ_zero_eq_one, Fin.succ_one_eq_two] at h3
  simp [share, weightOf, weightSum, rowPairs, stripNeighbors, stripWeights] at h3
  norm_num at h3
  exact hs h3

/-- Two elements averaged with one another: the shares are symmetric. -/
example (c : ℝ) : densitySensitivities 2 [[0, 1], [1, 0]] [[2, 1], [2, 1]] [c, c] [3, 0] = some [2, 1] := by
  have h : TableOk 2 [[0, 1], [1, 0]] [[(2 : ℝ), 1], [2, 1]] :=
    ⟨by simp, by simp, by intro i hi; interval_cases i <;> simp, by intro i hi; interval_cases i <;> simp⟩
  have hw : ∀ i < 2, weightSum [[0, 1], [1, 0]] [[(2 : ℝ), 1], [2, 1]] i ≠ 0 := by
    intro i hi; interval_cases i <;> norm_num [weightSum, rowPairs]
  have hsym : ∀ i k : Fin 2, share [[0, 1], [1, 0]] [[(2 : ℝ), 1], [2, 1]] i k
      = share [[0, 1], [1, 0]] [[(2 : ℝ), 1], [2, 1]] k i := by
    intro i k
    fin_cases i <;> fin_cases k <;> norm_num [share, weightOf, weightSum, rowPairs]
  have hF : ∀ s : Fin 2 → ℝ, densityVariables 2 [[0, 1], [1, 0]] [[(2 : ℝ), 1], [2, 1]] (List.ofFn s)
      = some (List.ofFn (meanMap 2 [[0, 1], [1, 0]] [[(2 : ℝ), 1], [2, 1]] s)) := fun s => by
    rw [C43_mean h hw]; simp only [← meanMap_apply]
  have hL := (3 • ContinuousLinearMap.proj (R := ℝ) (φ := fun _ : Fin 2 => ℝ) 0).hasFDerivAt
    (x := meanMap 2 [[0, 1], [1, 0]] [[(2 : ℝ), 1], [2, 1]] fun _ => c)
  have hg := ((3 • ContinuousLinearMap.proj (R := ℝ) (φ := fun _ : Fin 2 => ℝ) 0).comp
    (meanMap 2 [[0, 1], [1, 0]] [[(2 : ℝ), 1], [2, 1]])).hasFDerivAt (x := fun _ => c)
  have := C44_density_partial h hw hsym hF hL hg
  simp [List.ofFn_succ, meanMap_single] at this
  norm_num [share, weightOf, weightSum, rowPairs] at this
  exact this

end Gradient

/-! ### C76 -/

section Sensitivity
variable {K : Type} [Field K] [DecidableEq K] {n : ℕ} {neighbors : List (List ℕ)} {w : List (List K)}

/-- **C76**: Sigmund's filter returns the mean of `s*df/ds` divided by the own variable. -/
theorem C76_sigmund (h : TableOk n neighbors w) (hw : ∀ i < n, weightSum neighbors w i ≠ 0) {s : Fin n → K}
    (hs : ∀ i, s i ≠ 0) (d : Fin n → K) :
    sigmundSensitivities n neighbors w (List.ofFn s) (List.ofFn d)
      = some (List.ofFn fun i : Fin n => (∑ k : Fin n, share neighbors w i k * (s k * d k)) / s i) := by
  refine range_mapM fun i => ?_
  have e := row_loop h i (fun k wj => do return (wj * (← (List.ofFn s)[k]?) * (← (List.ofFn d)[k]?), wj))
    (fun k wj => wj * (if hk : k < n then s ⟨k, hk⟩ * d ⟨k, hk⟩ else 0)) (fun _ wj => wj) (fun k hk y => by
      simp [hk, mul_assoc])
  rw [sigmundEntry, row_get (lt_of_lt_of_le i.2 h.rows), row_get (lt_of_lt_of_le i.2 h.wrows)]
  simp only [Option.bind_eq_bind] at e
  simp only [Option.bind_eq_bind, Option.bind_some]
  rw [e]
  have hsi : (List.ofFn s)[(i : ℕ)]? = some (s i) := by simp
  simp only [Option.bind_some, hsi]
  rw [div?_eq_some]
  have hi := hw i i.2
  refine ⟨mul_ne_zero hi (hs i), ?_⟩
  rw [sum_pairs _ (rowPairs_lt h i.2) fun k => if hk : k < n then s ⟨k, hk⟩ * d ⟨k, hk⟩ else 0, ← div_div]
  congr 1
  rw [sum_div]
  refine sum_congr rfl fun k _ => ?_
  rw [dif_pos k.2, share, weightOf, weightSum]
  ring

/-- **C76**: a variable equal to zero has no filtered sensitivity (the code divides by zero). -/
theorem C76_sigmund_zero (h : TableOk n neighbors w) {s : Fin n → K} (d : Fin n → K) (i : Fin n)
    (hi : s i = 0) : sigmundEntry neighbors w (List.ofFn s) (List.ofFn d) i = none := by
  have e := row_loop h i (fun k wj => do return (wj * (← (List.ofFn s)[k]?) * (← (List.ofFn d)[k]?), wj))
    (fun k wj => wj * (if hk : k < n then s ⟨k, hk⟩ * d ⟨k, hk⟩ else 0)) (fun _ wj => wj) (fun k hk y => by
      simp [hk, mul_assoc])
  rw [sigmundEntry, row_get (lt_of_lt_of_le i.2 h.rows), row_get (lt_of_lt_of_le i.2 h.wrows)]
  simp only [Option.bind_eq_bind] at e
  simp only [Option.bind_eq_bind, Option.bind_some]
  rw [e]
  have hsi : (List.ofFn s)[(i : ℕ)]? = some 0 := by simp [hi]
  simp only [Option.bind_some, hsi]
  rw [mul_zero, div?, if_pos rfl]

/-- **C76**: with equal variables Sigmund's filter is the plain mean of the sensitivities. -/
theorem C76_sigmund_uniform (h : TableOk n neighbors w) (hw : ∀ i < n, weightSum neighbors w i ≠ 0) {c : K}
    (hc : c ≠ 0) (d : Fin n → K) :
    sigmundSensitivities n neighbors w (List.ofFn fun _ : Fin n => c) (List.ofFn d)
      = densityVariables n neighbors w (List.ofFn d) := by
  rw [C76_sigmund h hw (fun _ => hc), C43_mean h hw]
  congr 2
  funext i
  rw [sum_div]
  refine sum_congr rfl fun k _ => ?_
  field_simp

/-- **C76**: the second filter returns the mean of the sensitivities weighted with `w*s`. -/
theorem C76_borrvall (h : TableOk n neighbors w) {s : Fin n → K}
    (hw : ∀ i < n, ∑ k : Fin n, weightOf neighbors w i k * s k ≠ 0) (d : Fin n → K) :
    borrvallSensitivities n neighbors w (List.ofFn s) (List.ofFn d)
      = some (List.ofFn fun i : Fin n => (∑ k : Fin n, weightOf neighbors w i k * s k * d k)
          / ∑ k : Fin n, weightOf neighbors w i k * s k) := by
  refine range_mapM fun i => ?_
  have e := row_loop h i (fun k wj => do
      return (wj * (← (List.ofFn s)[k]?) * (← (List.ofFn d)[k]?), wj * (← (List.ofFn s)[k]?)))
    (fun k wj => wj * (if hk : k < n then s ⟨k, hk⟩ * d ⟨k, hk⟩ else 0))
    (fun k wj => wj * (if hk : k < n then s ⟨k, hk⟩ else 0)) (fun k hk y => by simp [hk, mul_assoc])
  rw [borrvallEntry, row_get (lt_of_lt_of_le i.2 h.rows), row_get (lt_of_lt_of_le i.2 h.wrows)]
  simp only [Option.bind_eq_bind] at e
  simp only [Option.bind_eq_bind, Option.bind_some]
  rw [e]
  simp only [Option.bind_some]
  rw [div?_eq_some, sum_pairs _ (rowPairs_lt h i.2) fun k => if hk : k < n then s ⟨k, hk⟩ * d ⟨k, hk⟩ else 0,
    sum_pairs _ (rowPairs_lt h i.2) fun k => if hk : k < n then s ⟨k, hk⟩ else 0]
  have h1 : ∑ k : Fin n, ((rowPairs neighbors w i).map fun p => if p.1 = (k : ℕ) then p.2 else 0).sum
      * (if hk : (k : ℕ) < n then s ⟨k, hk⟩ else 0) = ∑ k : Fin n, weightOf neighbors w i k * s k :=
    sum_congr rfl fun k _ => by rw [dif_pos k.2, weightOf]
  have h2 : ∑ k : Fin n, ((rowPairs neighbors w i).map fun p => if p.1 = (k : ℕ) then p.2 else 0).sum
      * (if hk : (k : ℕ) < n then s ⟨k, hk⟩ * d ⟨k, hk⟩ else 0) = ∑ k : Fin n, weightOf neighbors w i k * s k * d k :=
    sum_congr rfl fun k _ => by rw [dif_pos k.2, weightOf, mul_assoc]
  rw [h1, h2]
  exact ⟨hw i i.2, rfl⟩

end Sensitivity

section SensitivityOrder
variable {K : Type} [Field K] [LinearOrder K] [IsStrictOrderedRing K] {n : ℕ} {neighbors : List (List ℕ)}
  {w : List (List K)}

/-- **C76**: Sigmund's filter keeps the sign: with positive variables sensitivities that are nowhere
positive stay so. -/
theorem C76_sigmund_sign (h : WeightsOk n neighbors w) {s d : Fin n → K} (hs : ∀ i, 0 < s i)
    (hd : ∀ i, d i ≤ 0) {r : List K}
    (hr : sigmundSensitivities n neighbors w (List.ofFn s) (List.ofFn d) = some r) : ∀ y ∈ r, y ≤ 0 := by
  rw [C76_sigmund h.toTableOk (fun i hi => (h.pos i hi).ne') (fun i => (hs i).ne'), Option.some.injEq] at hr
  subst hr
  intro y hy
  obtain ⟨i, rfl⟩ := List.mem_ofFn.1 hy
  refine div_nonpos_of_nonpos_of_nonneg (sum_nonpos fun k _ => ?_) (hs i).le
  exact mul_nonpos_of_nonneg_of_nonpos (C43_share_nonneg h i.2 k)
    (mul_nonpos_of_nonneg_of_nonpos (hs k).le (hd k))

theorem borrvall_pos (h : WeightsOk n neighbors w) {s : Fin n → K} (hs : ∀ i, 0 < s i) {i : ℕ} (hi : i < n) :
    0 < ∑ k : Fin n, weightOf neighbors w i k * s k := by
  have h1 := h.pos i hi
  rw [weightSum_eq h.toTableOk hi] at h1
  obtain ⟨k, hk, hpos⟩ : ∃ k ∈ (univ : Finset (Fin n)), 0 < weightOf neighbors w i k := by
    by_contra hno
    push Not at hno
    exact absurd (sum_nonpos hno) (not_le.2 h1)
  exact sum_pos' (fun k _ => mul_nonneg (h.weight_nonneg hi k) (hs k).le) ⟨k, hk, mul_pos hpos (hs k)⟩

/-- **C76**: the second filter keeps the sensitivities between their bounds. -/
theorem C76_borrvall_bounds (h : WeightsOk n neighbors w) {s d : Fin n → K} (hs : ∀ i, 0 < s i) {a b : K}
    (hd : ∀ i, a ≤ d i ∧ d i ≤ b) :
    ∃ r, borrvallSensitivities n neighbors w (List.ofFn s) (List.ofFn d) = some r ∧ r.length = n ∧
      ∀ y ∈ r, a ≤ y ∧ y ≤ b := by
  refine ⟨_, C76_borrvall h.toTableOk (fun i hi => (borrvall_pos h hs hi).ne') d, by simp, ?_⟩
  intro y hy
  obtain ⟨i, rfl⟩ := List.mem_ofFn.1 hy
  have hp := borrvall_pos h hs i.2
  rw [le_div_iff₀ hp, div_le_iff₀ hp, mul_sum, mul_sum]
  constructor
  · refine sum_le_sum fun k _ => ?_
    have := mul_nonneg (h.weight_nonneg i.2 k) (hs k).le
    nlinarith [(hd k).1]
  · refine sum_le_sum fun k _ => ?_
    have := mul_nonneg (h.weight_nonneg i.2 k) (hs k).le
    nlinarith [(hd k).2]

/-- **C76**: the second filter preserves constants. -/
theorem C76_borrvall_const (h : WeightsOk n neighbors w) {s : Fin n → K} (hs : ∀ i, 0 < s i) (c : K) :
    borrvallSensitivities n neighbors w (List.ofFn s) (List.replicate n c) = some (List.replicate n c) := by
  have e : List.replicate n c = List.ofFn fun _ : Fin n => c := by simp
  rw [e, C76_borrvall h.toTableOk (fun i hi => (borrvall_pos h hs hi).ne')]
  congr 2
  funext i
  rw [← sum_mul, mul_div_assoc, mul_div_cancel₀ _ (borrvall_pos h hs i.2).ne']

end SensitivityOrder

example : ∃ r, borrvallSensitivities 3 stripNeighbors stripWeights (List.ofFn ![1 / 2, 1, 1 / 4])
    (List.ofFn ![-3, -1, -2]) = some r ∧ r.length = 3 ∧ ∀ y ∈ r, -3 ≤ y ∧ y ≤ -1 :=
  C76_borrvall_bounds stripOk (by intro i; fin_cases i <;> norm_num)
    (by intro i; fin_cases i <;> norm_num)

example : ∃ r, sigmundSensitivities 3 stripNeighbors stripWeights (List.ofFn fun _ : Fin 3 => (1 / 2 : ℝ))
    (List.ofFn ![-3, -1, -2]) = some r ∧ ∀ y ∈ r, y ≤ 0 :=
  ⟨_, C76_sigmund stripOk.toTableOk (fun i hi => (stripOk.pos i hi).ne') (fun _ => by norm_num) _,
    C76_sigmund_sign stripOk (fun _ => by norm_num) (by intro i; fin_cases i <;> norm_num)
      (C76_sigmund stripOk.toTableOk (fun i hi => (stripOk.pos i hi).ne') (fun _ => by norm_num) _)⟩

end Pansfem
