/-
How the quotient of hyperbolic tangents in the Heaviside projection depends on its parameter.
-/
import Verif.Lemmas.Filter
import Mathlib.Analysis.Calculus.Deriv.Slope
import Mathlib.Topology.Algebra.Order.Field
import Mathlib.Analysis.SpecialFunctions.Exp

namespace Pansfem

open Filter Topology

/-- The hyperbolic sine lies below its chords. -/
theorem sinh_chord {t z : ℝ} (t0 : 0 ≤ t) (t1 : t ≤ 1) (hz : 0 ≤ z) : Real.sinh (t * z) ≤ t * Real.sinh z := by
  have hd : ∀ x : ℝ, HasDerivAt (fun x => t * Real.sinh x - Real.sinh (t * x))
      (t * Real.cosh x - Real.cosh (t * x) * (t * 1)) x := fun x =>
    ((Real.hasDerivAt_sinh x).const_mul t).sub ((Real.hasDerivAt_sinh (t * x)).comp x ((hasDerivAt_id x).const_mul t))
  have hm : MonotoneOn (fun x => t * Real.sinh x - Real.sinh (t * x)) (Set.Ici 0) := by
    refine monotoneOn_of_deriv_nonneg (convex_Ici 0) (fun x _ => (hd x).continuousAt.continuousWithinAt)
      (fun x _ => (hd x).differentiableAt.differentiableWithinAt) fun x hx => ?_
    rw [interior_Ici] at hx
    have hx : 0 < x := hx
    rw [(hd x).deriv]
    have : Real.cosh (t * x) ≤ Real.cosh x := by
      rw [Real.cosh_le_cosh, abs_of_nonneg (by positivity), abs_of_nonneg hx.le]
      nlinarith
    nlinarith
  have := hm (Set.mem_Ici.2 le_rfl) (Set.mem_Ici.2 hz) hz
  simp only [mul_zero, Real.sinh_zero, sub_self] at this
  linarith

/-- The quotient of the hyperbolic tangents grows with the parameter. -/
theorem tanh_quotient {t a b : ℝ} (t0 : 0 ≤ t) (t1 : t ≤ 1) (ha : 0 < a) (hab : a ≤ b) :
    Real.tanh (t * a) / Real.tanh a ≤ Real.tanh (t * b) / Real.tanh b := by
  have hd : ∀ x : ℝ, 0 < x → HasDerivAt (fun x => Real.tanh (t * x) / Real.tanh x)
      (((1 - Real.tanh (t * x) ^ 2) * (t * 1) * Real.tanh x - Real.tanh (t * x) * (1 - Real.tanh x ^ 2)) /
        Real.tanh x ^ 2) x := fun x hx =>
    ((tanh_hasDerivAt (t * x)).comp x ((hasDerivAt_id x).const_mul t)).div (tanh_hasDerivAt x) (tanh_pos hx).ne'
  have hm : MonotoneOn (fun x => Real.tanh (t * x) / Real.tanh x) (Set.Ioi 0) := by
    refine monotoneOn_of_deriv_nonneg (convex_Ioi 0) (fun x hx => (hd x hx).continuousAt.continuousWithinAt)
      (fun x hx => (hd x (by rwa [interior_Ioi] at hx)).differentiableAt.differentiableWithinAt) fun x hx => ?_
    rw [interior_Ioi] at hx
    have hx : 0 < x := hx
    rw [(hd x hx).deriv]
    refine div_nonneg ?_ (sq_nonneg _)
    have hc : 0 < Real.cosh x := Real.cosh_pos x
    have hct : 0 < Real.cosh (t * x) := Real.cosh_pos _
    have h1 := Real.cosh_sq x
    have h2 := Real.cosh_sq (t * x)
    have key : Real.sinh (t * x) * Real.cosh (t * x) ≤ t * (Real.sinh x * Real.cosh x) := by
      have := sinh_chord t0 t1 (by linarith : (0 : ℝ) ≤ 2 * x)
      rw [show t * (2 * x) = 2 * (t * x) by ring, Real.sinh_two_mul, Real.sinh_two_mul] at this
      linarith
    rw [Real.tanh_eq_sinh_div_cosh, Real.tanh_eq_sinh_div_cosh]
    have e1 : 1 - (Real.sinh (t * x) / Real.cosh (t * x)) ^ 2 = 1 / Real.cosh (t * x) ^ 2 := by
      field_simp; linarith
    have e2 : 1 - (Real.sinh x / Real.cosh x) ^ 2 = 1 / Real.cosh x ^ 2 := by
      field_simp; linarith
    rw [e1, e2]
    have : 1 / Real.cosh (t * x) ^ 2 * (t * 1) * (Real.sinh x / Real.cosh x) -
        Real.sinh (t * x) / Real.cosh (t * x) * (1 / Real.cosh x ^ 2) =
        (t * (Real.sinh x * Real.cosh x) - Real.sinh (t * x) * Real.cosh (t * x)) /
          (Real.cosh (t * x) ^ 2 * Real.cosh x ^ 2) := by
      field_simp
    rw [this]
    exact div_nonneg (by linarith) (by positivity)
  exact hm (Set.mem_Ioi.2 ha) (Set.mem_Ioi.2 (ha.trans_le hab)) hab

theorem tanh_exp (x : ℝ) : Real.tanh x = 1 - 2 / (Real.exp (2 * x) + 1) := by
  have h : 0 < Real.exp x := Real.exp_pos x
  rw [Real.tanh_eq, Real.exp_neg, show 2 * x = x + x by ring, Real.exp_add]
  field_simp
  ring

theorem tanh_atTop : Tendsto Real.tanh atTop (𝓝 1) := by
  have h : Tendsto (fun x : ℝ => 1 - 2 / (Real.exp (2 * x) + 1)) atTop (𝓝 (1 - 0)) := by
    refine tendsto_const_nhds.sub (Tendsto.div_atTop tendsto_const_nhds ?_)
    exact tendsto_atTop_add_const_right _ _ (Real.tendsto_exp_atTop.comp
      (tendsto_id.const_mul_atTop (by norm_num : (0 : ℝ) < 2)))
  rw [sub_zero] at h
  exact h.congr fun x => (tanh_exp x).symm

/-- Near zero the hyperbolic tangent of a multiple is the multiple. -/
theorem tanh_slope (c : ℝ) : Tendsto (fun x : ℝ => Real.tanh (x * c) / x) (𝓝[>] 0) (𝓝 c) := by
  have h : HasDerivAt (fun x : ℝ => Real.tanh (x * c)) ((1 - Real.tanh (0 * c) ^ 2) * (1 * c)) 0 :=
    (tanh_hasDerivAt (0 * c)).comp 0 ((hasDerivAt_id 0).mul_const c)
  have := h.tendsto_slope_zero_right
  simp only [zero_mul, Real.tanh_zero, zero_add, sub_zero, smul_eq_mul, one_mul, ne_eq, OfNat.ofNat_ne_zero,
    not_false_eq_true, zero_pow] at this
  exact this.congr fun x => by rw [div_eq_inv_mul]

end Pansfem
