/-
The work of a load on the solution if one of the forms depends on a parameter.
-/
import Verif.Lemmas.Compliance
import Mathlib.Tactic.Positivity

namespace Pansfem

variable {V : Type} [AddCommGroup V] [Module ℝ V] {l : V →ₗ[ℝ] ℝ} {S : Set V}

/-- A symmetric form bounded by another one on the diagonal. -/
theorem polar_bound {A B : V →ₗ[ℝ] V →ₗ[ℝ] ℝ} (hA : ∀ v w, A v w = A w v) (hB : ∀ v w, B v w = B w v) {eps : ℝ}
    (h : ∀ v, |A v v| ≤ eps * B v v) (u e : V) (c : ℝ) :
    |2 * c * A u e| ≤ eps * (c ^ 2 * B u u + B e e) := by
  have h1 := h (c • u + e)
  have h2 := h (c • u - e)
  have ex : ∀ C : V →ₗ[ℝ] V →ₗ[ℝ] ℝ, (∀ v w, C v w = C w v) →
      C (c • u + e) (c • u + e) = c ^ 2 * C u u + 2 * c * C u e + C e e ∧
      C (c • u - e) (c • u - e) = c ^ 2 * C u u - 2 * c * C u e + C e e := by
    intro C hC
    simp only [map_add, map_sub, map_smul, LinearMap.add_apply, LinearMap.sub_apply, LinearMap.smul_apply, smul_eq_mul]
    rw [hC e u]
    constructor <;> ring
  rw [(ex A hA).1, (ex B hB).1] at h1
  rw [(ex A hA).2, (ex B hB).2] at h2
  rw [abs_le] at h1 h2 ⊢
  constructor <;> linarith [h1.1, h1.2, h2.1, h2.2]

variable {R : V →ₗ[ℝ] V →ₗ[ℝ] ℝ} {Q : ℝ → V →ₗ[ℝ] V →ₗ[ℝ] ℝ} {g : ℝ → V} {y₀ : ℝ}

theorem form_gap (hR : ∀ v w, R v w = R w v) (hR0 : ∀ v, 0 ≤ R v v) {A B : V →ₗ[ℝ] V →ₗ[ℝ] ℝ}
    (hA : ∀ v w, A v w = A w v) (hB : ∀ v w, B v w = B w v) (hB0 : ∀ v, 0 ≤ B v v) {eps : ℝ} (he : 0 ≤ eps)
    (he2 : eps ≤ 1 / 2) (h : ∀ v, |A v v - B v v| ≤ eps * B v v) {u u' : V} (hu : u ∈ S) (hu' : u' ∈ S)
    (h1 : ∀ w ∈ S, B w u + R w u = l w) (h2 : ∀ w ∈ S, A w u' + R w u' = l w) :
    0 ≤ l u' - l u + (A u u - B u u) ∧ l u' - l u + (A u u - B u u) ≤ 2 * eps ^ 2 * B u u := by
  have a1 := h1 u hu
  have a2 := h1 u' hu'
  have a3 := h2 u hu
  have a4 := h2 u' hu'
  have hexp : A (u' - u) (u' - u) + R (u' - u) (u' - u) = l u' - l u + (A u u - B u u) := by
    simp only [map_sub, LinearMap.sub_apply]
    have := hA u u'
    have := hR u u'
    linarith
  have hcross : l u' - l u + (A u u - B u u) = -((A - B) u (u' - u)) := by
    simp only [map_sub, LinearMap.sub_apply]
    have := hB u u'
    have := hR u u'
    linarith
  obtain ⟨T, hT⟩ : ∃ T, T = l u' - l u + (A u u - B u u) := ⟨_, rfl⟩
  rw [← hT] at hexp hcross ⊢
  have hAB := abs_le.1 (h (u' - u))
  have hAe : 1 / 2 * B (u' - u) (u' - u) ≤ A (u' - u) (u' - u) := by
    have := mul_le_mul_of_nonneg_right he2 (hB0 (u' - u))
    linarith [hAB.1]
  have hTe : 1 / 2 * B (u' - u) (u' - u) ≤ T := by linarith [hR0 (u' - u)]
  refine ⟨by linarith [hB0 (u' - u)], ?_⟩
  rcases he.eq_or_lt with rfl | hpos
  · have := abs_le.1 (polar_bound (A := A - B) (B := B) (by intro v w; simp [hA v w, hB v w]) hB (eps := 0)
      (by simpa using h) u (u' - u) 1)
    linarith [this.1, this.2]
  · have := abs_le.1 (polar_bound (A := A - B) (B := B) (by intro v w; simp [hA v w, hB v w]) hB (eps := eps)
      (by simpa using h) u (u' - u) (2 * eps))
    have h3 := this.1
    rw [show 2 * (2 * eps) * ((A - B) u (u' - u)) = -(4 * eps * T) by rw [hcross]; ring] at h3
    have h4 : 4 * T ≤ (2 * eps) ^ 2 * B u u + B (u' - u) (u' - u) := by
      have : eps * (4 * T) ≤ eps * ((2 * eps) ^ 2 * B u u + B (u' - u) (u' - u)) := by linarith
      exact le_of_mul_le_mul_left this hpos
    nlinarith

/-- The derivative of the work of the load. -/
theorem form_deriv (hR : ∀ v w, R v w = R w v) (hR0 : ∀ v, 0 ≤ R v v)
    (hQ : ∀ y v w, Q y v w = Q y w v) (hQ0 : ∀ v, 0 ≤ Q y₀ v v) {M : ℝ}
    (hb : ∀ᶠ y in nhds y₀, ∀ v, |Q y v v - Q y₀ v v| ≤ M * |y - y₀| * Q y₀ v v)
    (hg : ∀ᶠ y in nhds y₀, g y ∈ S ∧ ∀ w ∈ S, Q y w (g y) + R w (g y) = l w) {d : ℝ}
    (hd : HasDerivAt (fun y => Q y (g y₀) (g y₀)) d y₀) :
    HasDerivAt (fun y => l (g y)) (-d) y₀ := by
  have hg0 := hg.self_of_nhds
  have hR' : HasDerivAt (fun y => l (g y) - l (g y₀) + (Q y (g y₀) (g y₀) - Q y₀ (g y₀) (g y₀))) 0 y₀ := by
    rw [hasDerivAt_iff_isLittleO]
    simp only [sub_self, add_zero, sub_zero, smul_zero]
    have hM : ∀ᶠ y in nhds y₀, |M| * |y - y₀| ≤ 1 / 2 := by
      have : ContinuousAt (fun y : ℝ => |M| * |y - y₀|) y₀ := by fun_prop
      have h0 : |M| * |y₀ - y₀| < 1 / 2 := by simp
      filter_upwards [this.eventually (gt_mem_nhds h0)] with y hy using hy.le
    refine Asymptotics.IsBigO.trans_isLittleO (g := fun y => (y - y₀) ^ 2) ?_ ?_
    · refine Asymptotics.IsBigO.of_bound (2 * |M| ^ 2 * Q y₀ (g y₀) (g y₀)) ?_
      filter_upwards [hb, hg, hM] with y h1 h2 h3
      have h1' : ∀ v, |Q y v v - Q y₀ v v| ≤ |M| * |y - y₀| * Q y₀ v v := fun v =>
        (h1 v).trans (mul_le_mul_of_nonneg_right (mul_le_mul_of_nonneg_right (le_abs_self M) (abs_nonneg _)) (hQ0 v))
      obtain ⟨b1, b2⟩ := form_gap hR hR0 (hQ y) (hQ y₀) hQ0 (by positivity) h3 h1' hg0.1 h2.1 hg0.2 h2.2
      rw [Real.norm_eq_abs, abs_of_nonneg b1, Real.norm_eq_abs, abs_of_nonneg (sq_nonneg (y - y₀))]
      refine b2.trans (le_of_eq ?_)
      rw [mul_pow, sq_abs (y - y₀)]
      ring
    · have := Asymptotics.isLittleO_pow_sub_sub y₀ (m := 2) (by norm_num)
      simpa only [Real.norm_eq_abs, sq_abs] using this
  have hd' := (hR'.add_const (l (g y₀))).sub (hd.sub_const (Q y₀ (g y₀) (g y₀)))
  refine (hd'.congr_deriv (by ring)).congr_of_eventuallyEq (Filter.Eventually.of_forall fun y => ?_)
  simp only [Pi.sub_apply]
  ring

end Pansfem
