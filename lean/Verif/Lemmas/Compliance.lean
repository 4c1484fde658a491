/-
The work of a load on the solution as a function of the weights of a sum of quadratic forms.
-/
import Mathlib.LinearAlgebra.BilinearMap
import Mathlib.Analysis.Calculus.Deriv.Add
import Mathlib.Analysis.Calculus.Deriv.Mul
import Mathlib.Tactic.Linarith
import Mathlib.Tactic.Ring

namespace Pansfem

variable {ι V : Type} [Fintype ι] [AddCommGroup V] [Module ℝ V] {q : ι → V →ₗ[ℝ] V →ₗ[ℝ] ℝ}
  {l : V →ₗ[ℝ] ℝ} {S : Set V}

/-- `u` solves the problem with weights `c`: it is admissible and the weighted form agrees with the load on all
admissible fields. -/
def Solves (q : ι → V →ₗ[ℝ] V →ₗ[ℝ] ℝ) (l : V →ₗ[ℝ] ℝ) (S : Set V) (c : ι → ℝ) (u : V) : Prop :=
  u ∈ S ∧ ∀ w ∈ S, ∑ i, c i * q i w u = l w

theorem compliance_diff (hs : ∀ i v w, q i v w = q i w v) {c c' : ι → ℝ} {u u' : V} (h : Solves q l S c u)
    (h' : Solves q l S c' u') : l u' - l u = -∑ i, (c' i - c i) * q i u u' := by
  rw [← h.2 u' h'.1, ← h'.2 u h.1, ← Finset.sum_sub_distrib, ← Finset.sum_neg_distrib]
  refine Finset.sum_congr rfl fun i _ => ?_
  rw [hs i u' u]
  ring

theorem compliance_gap (hs : ∀ i v w, q i v w = q i w v) {c c' : ι → ℝ} {u u' : V} (h : Solves q l S c u)
    (h' : Solves q l S c' u') :
    l u' - l u + ∑ i, (c' i - c i) * q i u u = ∑ i, c' i * q i (u' - u) (u' - u) := by
  have e : ∑ i, c' i * q i (u' - u) (u' - u) = ∑ i, c' i * q i u' u' - 2 * ∑ i, c' i * q i u u' +
      ∑ i, c' i * q i u u := by
    rw [Finset.mul_sum, ← Finset.sum_sub_distrib, ← Finset.sum_add_distrib]
    refine Finset.sum_congr rfl fun i _ => ?_
    simp only [map_sub, LinearMap.sub_apply]
    rw [hs i u' u]
    ring
  have e2 : ∑ i, (c' i - c i) * q i u u = ∑ i, c' i * q i u u - l u := by
    rw [← h.2 u h.1, ← Finset.sum_sub_distrib]
    exact Finset.sum_congr rfl fun i _ => by ring
  rw [e, e2, h'.2 u' h'.1, h'.2 u h.1]
  ring

theorem compliance_bound [DecidableEq ι] (hs : ∀ i v w, q i v w = q i w v) (hp : ∀ i v, 0 ≤ q i v v) {c : ι → ℝ} {j : ι} {y : ℝ}
    (hc : ∀ i, 0 ≤ c i) (hy : 0 < y) {u u' : V} (h : Solves q l S c u) (h' : Solves q l S (Function.update c j y) u') :
    0 ≤ l u' - l u + (y - c j) * q j u u ∧ y * (l u' - l u + (y - c j) * q j u u) ≤ (y - c j) ^ 2 * q j u u := by
  have hsum : ∀ a : V → V → ι → ℝ, ∀ v w, ∑ i, (Function.update c j y i - c i) * a v w i = (y - c j) * a v w j := by
    intro a v w
    rw [Finset.sum_eq_single j]
    · simp
    · intro i _ hi; simp [hi]
    · intro hn; exact absurd (Finset.mem_univ j) hn
  have g := compliance_gap hs h h'
  have d := compliance_diff hs h h'
  rw [hsum fun v w i => q i v w] at g d
  have hupd : ∀ i, 0 ≤ Function.update c j y i := by
    intro i
    by_cases hi : i = j
    · subst hi; simp [hy.le]
    · simp [hi, hc i]
  have hge : y * q j (u' - u) (u' - u) ≤ ∑ i, Function.update c j y i * q i (u' - u) (u' - u) := by
    have := Finset.single_le_sum (f := fun i => Function.update c j y i * q i (u' - u) (u' - u))
      (fun i _ => mul_nonneg (hupd i) (hp i _)) (Finset.mem_univ j)
    simpa using this
  have hT : l u' - l u + (y - c j) * q j u u = -(y - c j) * q j u (u' - u) := by
    rw [map_sub]; linarith
  have hsq := hp j (y • (u' - u) + (y - c j) • u)
  have hexp : q j (y • (u' - u) + (y - c j) • u) (y • (u' - u) + (y - c j) • u) =
      y ^ 2 * q j (u' - u) (u' - u) + 2 * y * (y - c j) * q j u (u' - u) + (y - c j) ^ 2 * q j u u := by
    simp only [map_add, map_smul, LinearMap.add_apply, LinearMap.smul_apply, smul_eq_mul]
    rw [hs j (u' - u) u]
    ring
  rw [hexp] at hsq
  set T := l u' - l u + (y - c j) * q j u u with hTdef
  have h1 : y * (y * q j (u' - u) (u' - u)) ≤ y * T := by
    apply mul_le_mul_of_nonneg_left _ hy.le
    rw [g]
    exact hge
  refine ⟨by rw [g]; exact Finset.sum_nonneg fun i _ => mul_nonneg (hupd i) (hp i _), ?_⟩
  have h2 : 2 * y * (y - c j) * q j u (u' - u) = -2 * (y * T) := by rw [hT]; ring
  rw [h2] at hsq
  nlinarith

/-- The derivative of the compliance if one weight is a differentiable function. -/
theorem compliance_deriv [DecidableEq ι] (hs : ∀ i v w, q i v w = q i w v) (hp : ∀ i v, 0 ≤ q i v v) {c : ι → ℝ} {j : ι}
    (hc : ∀ i, 0 < c i) {m : ℝ → ℝ} {m' y₀ : ℝ} (hm : HasDerivAt m m' y₀) (h0 : m y₀ = c j) {g : ℝ → V}
    (hg : ∀ y, 0 < m y → Solves q l S (Function.update c j (m y)) (g y)) :
    HasDerivAt (fun y => l (g y)) (-(m' * q j (g y₀) (g y₀))) y₀ := by
  have hm0 : 0 < m y₀ := by rw [h0]; exact hc j
  have hg0 : Solves q l S c (g y₀) := by
    have := hg y₀ hm0
    rwa [h0, Function.update_eq_self] at this
  have hR : HasDerivAt (fun y => l (g y) - l (g y₀) + (m y - m y₀) * q j (g y₀) (g y₀)) 0 y₀ := by
    rw [hasDerivAt_iff_isLittleO]
    simp only [sub_self, zero_mul, add_zero, sub_zero, smul_zero]
    have hb := hm.isBigO_sub.pow 2
    refine Asymptotics.IsBigO.trans_isLittleO (g := fun y => (m y - m y₀) ^ 2) ?_
      (hb.trans_isLittleO ?_)
    · refine Asymptotics.IsBigO.of_bound (2 / m y₀ * q j (g y₀) (g y₀)) ?_
      filter_upwards [hm.continuousAt.eventually (lt_mem_nhds (show m y₀ / 2 < m y₀ by linarith))] with y hy
      have hy0 : 0 < m y := by linarith
      obtain ⟨b1, b2⟩ := compliance_bound hs hp (fun i => (hc i).le) hy0 hg0 (hg y hy0)
      rw [← h0] at b1 b2
      simp only [Real.norm_eq_abs]
      rw [abs_of_nonneg b1, abs_of_nonneg (sq_nonneg (m y - m y₀))]
      set T := l (g y) - l (g y₀) + (m y - m y₀) * q j (g y₀) (g y₀)
      have h1 : m y₀ / 2 * T ≤ (m y - m y₀) ^ 2 * q j (g y₀) (g y₀) :=
        le_trans (mul_le_mul_of_nonneg_right hy.le b1) b2
      rw [show 2 / m y₀ * q j (g y₀) (g y₀) * (m y - m y₀) ^ 2 = (2 * ((m y - m y₀) ^ 2 * q j (g y₀) (g y₀))) / m y₀ by
        ring, le_div_iff₀ hm0]
      linarith
    · have := Asymptotics.isLittleO_pow_sub_sub y₀ (m := 2) (by norm_num)
      simpa only [Real.norm_eq_abs, sq_abs] using this
  have hd := (hR.add_const (l (g y₀))).sub ((hm.sub_const (m y₀)).mul_const (q j (g y₀) (g y₀)))
  refine (hd.congr_deriv (by ring)).congr_of_eventuallyEq (Filter.Eventually.of_forall fun y => ?_)
  simp only [Pi.sub_apply]
  ring

end Pansfem
