/-
C147: how near the designs of OC come to the limit of the weight in the density program.
-/
import Verif.Props.C146_Density
import Verif.Props.C147_Weight
import Verif.Lemmas.Sharpen
import Mathlib.Analysis.Complex.ExponentialBounds

namespace Pansfem

noncomputable section

open Finset

theorem tanh_sub_le {a b : ℝ} (h : a ≤ b) : Real.tanh b - Real.tanh a ≤ b - a := by
  have hm : Monotone fun x : ℝ => x - Real.tanh x := by
    refine monotone_of_hasDerivAt_nonneg (f' := fun x => 1 - (1 - Real.tanh x ^ 2))
      (fun x => (hasDerivAt_id x).sub (tanh_hasDerivAt x)) fun x => ?_
    simp only [Pi.zero_apply]
    nlinarith [sq_nonneg (Real.tanh x)]
  have := hm h
  simp only at this
  linarith

/-- A change of a density changes its projection by at most the largest slope times the change. -/
theorem projected_sub_le {beta : ℝ} (hb : 0 < beta) {y z : ℝ} (h : y ≤ z) :
    projected beta z - projected beta y ≤ beta / (2 * Real.tanh (beta / 2)) * (z - y) := by
  have ht := tanh_pos (half_pos hb)
  have h1 := tanh_sub_le (a := beta * (y - 1 / 2)) (b := beta * (z - 1 / 2)) (by nlinarith)
  rw [projected, projected, ← sub_div, div_mul_eq_mul_div]
  refine div_le_div_of_nonneg_right ?_ (by linarith)
  linarith

theorem projectSlope_bound {beta : ℝ} (hb : 1 ≤ beta) : beta / (2 * Real.tanh (beta / 2)) ≤ 1.09 * beta := by
  have h0 : (0.46 : ℝ) ≤ Real.tanh (1 / 2) := by
    rw [tanh_exp]
    have := Real.exp_one_gt_d9
    rw [show (2 : ℝ) * (1 / 2) = 1 by norm_num, le_sub_comm, div_le_iff₀ (by linarith)]
    norm_num at this ⊢
    linarith
  have h1 : (0.46 : ℝ) ≤ Real.tanh (beta / 2) := h0.trans (tanh_strictMono.monotone (by linarith))
  rw [div_le_iff₀ (by linarith)]
  norm_num at h1 ⊢
  nlinarith

variable {P : DensityProgram}

/-- The filtered values of a list. -/
theorem heaviside_list (h : P.Ok) {beta : ℝ} (hb : 0 < beta) {s : List ℝ} (hs : s.length = P.elements.length) :
    heavisideVariables P.elements.length beta P.neighbors P.w s = some (List.ofFn fun i : Fin P.elements.length =>
      projected beta (meanMap P.elements.length P.neighbors P.w (fun k => s[(k : ℕ)]?.getD 0) i)) := by
  have e := heaviside_eq h.weights.toTableOk (fun i hi => (h.weights.pos i hi).ne') hb
    fun k : Fin P.elements.length => s[(k : ℕ)]?.getD 0
  have hl : (List.ofFn fun k : Fin P.elements.length => s[(k : ℕ)]?.getD 0) = s := by
    refine List.ext_getElem (by simp [hs]) fun i h1 h2 => ?_
    simp [List.getElem?_eq_getElem h2]
  rw [hl] at e
  exact e

/-- **C147 (weight with densities)**: in every run of the density program with OC, filtered with the parameter of the pass that
made it, every design after the first one has a mean density that is less than the limit by at most `0.0011` times the
parameter, which is doubled after every 40 passes. -/
theorem C147_density (h : P.Ok) (fuel : ℕ) {i : ℕ} (hi : i + 1 < (runOC P fuel).1.length) :
    ∃ rho, heavisideVariables P.elements.length (2 ^ (i / 40)) P.neighbors P.w (runOC P fuel).1[i + 1].s = some rho ∧
      P.weightlimit - 0.0011 * 2 ^ (i / 40) < rho.sum / P.elements.length := by
  obtain ⟨hrun, st, h0, h1, -⟩ := C123_oc h fuel
  obtain ⟨v, hv⟩ := states_same h0 (N := (runOC P fuel).1.length)
    (fun j hj => ⟨_, ocUpdate_object (h1 j hj)⟩) (i := i) (by omega)
  have hu := h1 i hi
  rw [hv] at hu
  obtain ⟨d1, d2, d3⟩ := hrun.design _ (List.getElem_mem (by omega : i < (runOC P fuel).1.length))
  obtain ⟨l1, l2, -⟩ := hrun.design _ (List.getElem_mem hi)
  have hbeta := (hrun.numbered i (by omega)).2
  set beta : ℝ := 2 ^ (i / 40) with hβ
  have hb1 : 1 ≤ beta := one_le_pow₀ (by norm_num)
  have hb : 0 < beta := by linarith
  simp only [hbeta] at hu
  have hok := densityOC_ok d1 d3 v
  obtain ⟨s, t, hs, -, hsr, -⟩ := C147_bracket (o := densityOC P v) (g := fun y => (weightCallback P beta y).getD 0)
    ⟨d2, d3.dfsign, d3.dgsign, by norm_num [OC.mk'], by norm_num [OC.mk']⟩ hok.len rfl (by norm_num [OC.mk'])
    (by norm_num [OC.mk']) (by norm_num [OC.mk']) hu
  set r := (runOC P fuel).1[i + 1].s with hr
  have ls : s.length = P.elements.length := hsr.length_eq.trans l1
  refine ⟨_, heaviside_list h hb l1, ?_⟩
  obtain ⟨q, a1, a2⟩ := C123_callback h hb ls
  rw [heaviside_list h hb ls, Option.some.injEq] at a1
  have hn : (0 : ℝ) < P.elements.length := by exact_mod_cast h.nonempty
  have hlim : P.weightlimit < q.sum / P.elements.length := by
    simp only [a2, Option.getD_some] at hs
    have := pos_of_mul_pos_right hs h.scales.2.le
    rwa [sub_pos, one_lt_div h.limit] at this
  have hentry : ∀ k : Fin P.elements.length, r[(k : ℕ)]?.getD 0 ≤ s[(k : ℕ)]?.getD 0 ∧
      s[(k : ℕ)]?.getD 0 - r[(k : ℕ)]?.getD 0 ≤ 1 / 999 := fun k => by
    have k1 : (k : ℕ) < s.length := by rw [ls]; exact k.2
    have k2 : (k : ℕ) < r.length := by rw [l1]; exact k.2
    obtain ⟨k3, k4⟩ := (List.forall₂_iff_get.1 hsr).2 k k1 k2
    simp only [List.get_eq_getElem, OC.mk'] at k3 k4
    rw [List.getElem?_eq_getElem k1, List.getElem?_eq_getElem k2, Option.getD_some, Option.getD_some]
    have k5 := l2 _ (List.getElem_mem k2)
    have k6 := mul_le_mul_of_nonneg_right factor_bound (k5.1.le.trans k4)
    have k7 := k6.trans k3
    refine ⟨k4, ?_⟩
    norm_num at k7
    linarith [k5.2]
  have hmean : ∀ j : Fin P.elements.length,
      meanMap P.elements.length P.neighbors P.w (fun k => r[(k : ℕ)]?.getD 0) j ≤
        meanMap P.elements.length P.neighbors P.w (fun k => s[(k : ℕ)]?.getD 0) j ∧
      meanMap P.elements.length P.neighbors P.w (fun k => s[(k : ℕ)]?.getD 0) j -
        meanMap P.elements.length P.neighbors P.w (fun k => r[(k : ℕ)]?.getD 0) j ≤ 1 / 999 := fun j => by
    rw [meanMap_apply, meanMap_apply, ← sum_sub_distrib]
    refine ⟨sum_le_sum fun k _ => mul_le_mul_of_nonneg_left (hentry k).1 (C43_share_nonneg h.weights j.2 k), ?_⟩
    have hsum := C43_shares h.weights.toTableOk j.2 (h.weights.pos j j.2).ne'
    calc _ ≤ ∑ k : Fin P.elements.length, share P.neighbors P.w j k * (1 / 999) := sum_le_sum fun k _ => by
          rw [← mul_sub]
          exact mul_le_mul_of_nonneg_left (hentry k).2 (C43_share_nonneg h.weights j.2 k)
      _ = 1 / 999 := by rw [← sum_mul, hsum, one_mul]
  rw [← a1, List.sum_ofFn, lt_div_iff₀ hn] at hlim
  rw [List.sum_ofFn, lt_div_iff₀ hn]
  have hdiff : ∑ j : Fin P.elements.length, projected beta (meanMap P.elements.length P.neighbors P.w
        (fun k => s[(k : ℕ)]?.getD 0) j) ≤
      ∑ j : Fin P.elements.length, (projected beta (meanMap P.elements.length P.neighbors P.w
        (fun k => r[(k : ℕ)]?.getD 0) j) + 0.0011 * beta) := sum_le_sum fun j _ => by
    obtain ⟨m1, m2⟩ := hmean j
    have m3 := projected_sub_le hb m1
    have m4 := projectSlope_bound hb1
    have m5 : beta / (2 * Real.tanh (beta / 2)) * (meanMap P.elements.length P.neighbors P.w
        (fun k => s[(k : ℕ)]?.getD 0) j - meanMap P.elements.length P.neighbors P.w
        (fun k => r[(k : ℕ)]?.getD 0) j) ≤ 1.09 * beta * (1 / 999) :=
      mul_le_mul m4 m2 (by linarith) (by norm_num; linarith)
    norm_num at m5 ⊢
    linarith
  rw [sum_add_distrib, sum_const, card_univ, Fintype.card_fin, nsmul_eq_mul] at hdiff
  nlinarith

/-- **C147 (densities of a pass)**: the densities that a pass computes have this mean, unless the parameter has been doubled in
that pass. -/
theorem C147_density_pass (h : P.Ok) (fuel : ℕ) {i : ℕ} (hi : i + 1 < (runOC P fuel).1.length) (h40 : ¬ 40 ∣ i + 1) :
    P.weightlimit - 0.0011 * 2 ^ (i / 40) < (runOC P fuel).1[i + 1].value.rho.sum / P.elements.length := by
  obtain ⟨rho, h1, h2⟩ := C147_density h fuel hi
  have hrun := (C123_oc h fuel).1
  obtain ⟨-, -, hS⟩ := hrun.design _ (List.getElem_mem hi)
  have hf := hS.filtered
  rw [(hrun.numbered (i + 1) hi).2, show (i + 1) / 40 = i / 40 by omega, h1, Option.some.injEq] at hf
  rwa [← hf]

-- one element, half of the weight: the second pass uses more than 0.4989
example : ∃ (P : DensityProgram) (fuel : ℕ), P.Ok ∧ ∃ h : 0 + 1 < (runOC P fuel).1.length,
    (0.4989 : ℝ) < (runOC P fuel).1[1].value.rho.sum := by
  obtain ⟨P, hP, l, hw, h1, h2, h3⟩ := oneElement 0.5 (by norm_num)
  obtain ⟨e, he, hS⟩ := C123_evaluation hP one_pos (s := List.replicate P.elements.length 0.5)
    ⟨by simp, fun a ha => by rw [List.eq_of_mem_replicate ha]; norm_num⟩
  obtain ⟨rho, hr, -, -⟩ := C45_range (beta := 1) (y := 0.575) one_pos (by norm_num) (by norm_num)
  have hgt := C45_strictMono one_pos (by norm_num : (1 / 2 : ℝ) < 0.575) (C45_half one_pos) hr
  obtain ⟨fuel, hf⟩ := (C146_density_second_iff hP (by rw [h1]; norm_num) (by rw [h2, h3]; norm_num) he
    (oneElement_strained hP l hS) hr).2 (by rw [hw]; norm_num at hgt ⊢; exact hgt)
  have hb := C147_density_pass hP fuel (i := 0) (by omega) (by norm_num)
  rw [l, hw] at hb
  refine ⟨P, fuel, hP, by omega, ?_⟩
  norm_num at hb ⊢
  exact hb

end

end Pansfem
