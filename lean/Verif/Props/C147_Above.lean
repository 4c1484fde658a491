/-
C147: by how much the designs of OC can exceed the limit of the weight in the truss program.
-/
import Verif.Props.C147_Weight

namespace Pansfem

noncomputable section

open Finset

variable {P : TrussProgram}

/-- With small derivatives of the objective the largest multiplier lowers all variables by 15 per cent. -/
theorem lowest_trial {v : ℝ} {x df dg t : List ℝ} (hd : OCData (trussOC P v) x df dg)
    (hsmall : ∀ c d : ℝ, ∀ k : ℕ, df[k]? = some c → dg[k]? = some d → -c ≤ 722.5 * d)
    (ht : ocTrial (trussOC P v) x df dg 1.0e3 = some t) :
    ∀ k < P.elements.length, t[k]?.getD 0 ≤ 0.85 * x[k]?.getD 0 := by
  intro k hk
  obtain ⟨-, e⟩ := ocTrial_entry ht
  obtain ⟨c, d, xi, ti, p1, p2, p3, p4, p5⟩ := e k hk
  have hc := hd.df c (List.mem_of_getElem? p1)
  have hdd := hd.dg d (List.mem_of_getElem? p2)
  have hx := hd.x xi (List.mem_of_getElem? p3)
  rw [p3, p4, Option.getD_some, Option.getD_some, ocEntry_value hd.iota hc hdd (by norm_num) p5]
  have hq : -c / (d * 1.0e3) ≤ 0.85 ^ 2 := by
    rw [div_le_iff₀ (by norm_num; exact hdd)]
    have := hsmall c d k p1 p2
    norm_num at this ⊢
    linarith
  have hy : (-c / (d * 1.0e3)) ^ (0.5 : ℝ) ≤ 0.85 := by
    refine (Real.rpow_le_rpow (div_nonneg (by linarith) (by norm_num; exact hdd.le)) hq (by norm_num)).trans_eq ?_
    rw [show (0.5 : ℝ) = 1 / 2 by norm_num, ← Real.sqrt_eq_rpow, Real.sqrt_sq (by norm_num)]
  have hm := ocClamp_mono (move := 0.15) (by norm_num) hx.1.le hx.2 (mul_le_mul_of_nonneg_right hy hx.1.le)
  refine hm.trans ?_
  unfold ocClamp
  have h1 : ((1 : ℝ) - 0.15) * xi = 0.85 * xi := by norm_num
  rw [h1, max_eq_right (by norm_num; exact hx.1.le), if_neg (lt_irrefl _)]
  split_ifs with h
  · exact h.le
  · exact le_rfl

/-- **C147 (above)**: if lowering all variables by 15 per cent meets the limit and the strain energies per length, times the
limit, are at most `722.5`, the next design exceeds the limit of the weight by at most the factor `1 / 0.999`. -/
theorem C147_above (h : P.Ok) (fuel : ℕ) {i : ℕ} (hi : i + 1 < (runTruss P fuel).1.length)
    (hw : 0.85 * ∑ k : Fin P.elements.length, (runTruss P fuel).1[i].s[(k : ℕ)]?.getD 0 * P.len k ≤
      P.weightlimit * ∑ k, P.len k)
    (hst : ∀ k, P.scale0 * (P.A1 - P.A0) * P.E * (P.stretch (runTruss P fuel).1[i].value.u k / P.len k) ^ 2 *
      (P.weightlimit * ∑ k, P.len k) ≤ 722.5) :
    0.999 * ∑ k : Fin P.elements.length, (runTruss P fuel).1[i + 1].s[(k : ℕ)]?.getD 0 * P.len k ≤
      P.weightlimit * ∑ k, P.len k := by
  obtain ⟨hrun, st, h0, h1, -⟩ := C126_run h fuel
  obtain ⟨v, hv⟩ := states_same h0 (N := (runTruss P fuel).1.length)
    (fun j hj => ⟨_, ocUpdate_object (h1 j hj)⟩) (i := i) (by omega)
  have hu := h1 i hi
  rw [hv] at hu
  obtain ⟨d1, d2, d3⟩ := hrun.design _ (List.getElem_mem (by omega : i < (runTruss P fuel).1.length))
  obtain ⟨l1, l2, -⟩ := hrun.design _ (List.getElem_mem hi)
  have hok := trussOC_ok d1 d3 v
  have hd : OCData (trussOC P v) (runTruss P fuel).1[i].s (runTruss P fuel).1[i].value.dfds
      (runTruss P fuel).1[i].value.dgds :=
    ⟨d2, d3.dfsign, d3.dgsign, by norm_num [OC.mk'], by norm_num [OC.mk']⟩
  obtain ⟨s, t, -, ht, -, hrt⟩ := C147_bracket (o := trussOC P v) (g := fun y => (trussWeight P y).getD 0) hd hok.len rfl
    (by norm_num [OC.mk']) (by norm_num [OC.mk']) (by norm_num [OC.mk']) hu
  have lt : t.length = P.elements.length := hrt.length_eq.symm.trans l1
  have hpos := mul_pos h.limit (total_pos h)
  have hweight : ∑ k : Fin P.elements.length, t[(k : ℕ)]?.getD 0 * P.len k ≤ P.weightlimit * ∑ k, P.len k := by
    rcases ht with ht | ht
    · rw [trussWeight_eq h lt, Option.getD_some, sub_nonpos, div_le_one hpos] at ht
      exact ht
    · have hlow := lowest_trial hd (fun c d k p1 p2 => by
        rw [d3.dcompliance, List.getElem?_ofFn] at p1
        rw [d3.dweight, List.getElem?_ofFn] at p2
        by_cases hk : k < P.elements.length
        · rw [dif_pos hk, Option.some.injEq] at p1 p2
          have hl : 0 < P.len ⟨k, hk⟩ := by
            have h3 : d ∈ (runTruss P fuel).1[i].value.dgds := by
              rw [d3.dweight, List.mem_ofFn]
              exact ⟨⟨k, hk⟩, p2⟩
            have h4 := d3.dgsign d h3
            rw [← p2] at h4
            exact (div_pos_iff_of_pos_right hpos).1 h4
          have h5 := hst ⟨k, hk⟩
          rw [← p1, ← p2, neg_neg, mul_div_assoc', le_div_iff₀ hpos]
          calc _ = P.len ⟨k, hk⟩ * (P.scale0 * (P.A1 - P.A0) * P.E *
                (P.stretch (runTruss P fuel).1[i].value.u ⟨k, hk⟩ / P.len ⟨k, hk⟩) ^ 2 *
                (P.weightlimit * ∑ k, P.len k)) := by field_simp
            _ ≤ P.len ⟨k, hk⟩ * 722.5 := mul_le_mul_of_nonneg_left h5 hl.le
            _ = _ := mul_comm _ _
        · rw [dif_neg hk] at p1
          exact nomatch p1) ht
      refine le_trans ?_ hw
      rw [mul_sum]
      refine sum_le_sum fun k _ => ?_
      rw [← mul_assoc]
      exact mul_le_mul_of_nonneg_right (hlow k k.2) (Real.sqrt_nonneg _)
  refine le_trans ?_ hweight
  rw [mul_sum]
  refine sum_le_sum fun k _ => ?_
  rw [← mul_assoc]
  refine mul_le_mul_of_nonneg_right ?_ (Real.sqrt_nonneg _)
  have k1 : (k : ℕ) < t.length := by rw [lt]; exact k.2
  have k2 : (k : ℕ) < (runTruss P fuel).1[i + 1].s.length := by rw [l1]; exact k.2
  obtain ⟨k3, -⟩ := (List.forall₂_iff_get.1 hrt).2 k k2 k1
  simp only [List.get_eq_getElem, OC.mk'] at k3
  rw [List.getElem?_eq_getElem k1, List.getElem?_eq_getElem k2, Option.getD_some, Option.getD_some]
  exact (mul_le_mul_of_nonneg_right factor_bound (l2 _ (List.getElem_mem k2)).1.le).trans k3

/-- **C147 (between)**: with a limit of at least `0.425`, if the strain energies per length, times the limit, are at most
`722.5` in all passes, every design after the first one has the weight of the limit up to a tenth of a per cent or so. -/
theorem C147_between (h : P.Ok) (fuel : ℕ) (hlim : 0.425 ≤ P.weightlimit)
    (hst : ∀ q ∈ (runTruss P fuel).1, ∀ k, P.scale0 * (P.A1 - P.A0) * P.E * (P.stretch q.value.u k / P.len k) ^ 2 *
      (P.weightlimit * ∑ k, P.len k) ≤ 722.5) {i : ℕ} (hi : i + 1 < (runTruss P fuel).1.length) :
    0.999 * (P.weightlimit * ∑ k, P.len k) <
      ∑ k : Fin P.elements.length, (runTruss P fuel).1[i + 1].s[(k : ℕ)]?.getD 0 * P.len k ∧
    0.999 * ∑ k : Fin P.elements.length, (runTruss P fuel).1[i + 1].s[(k : ℕ)]?.getD 0 * P.len k ≤
      P.weightlimit * ∑ k, P.len k := by
  refine ⟨C147_weight h fuel hi, ?_⟩
  have ht := total_pos h
  have hpos := mul_pos h.limit ht
  induction i with
  | zero =>
    refine C147_above h fuel hi ?_ (hst _ (List.getElem_mem _))
    have h0 := (C126_run h fuel).1.start
    rw [List.head?_eq_getElem?, List.getElem?_eq_getElem (by omega), Option.map_some, Option.some.injEq] at h0
    rw [h0, mul_sum, mul_sum]
    refine sum_le_sum fun k _ => ?_
    rw [List.getElem?_replicate, if_pos k.2, Option.getD_some, ← mul_assoc]
    refine mul_le_mul_of_nonneg_right ?_ (Real.sqrt_nonneg _)
    norm_num at hlim ⊢
    exact hlim
  | succ i ih =>
    have := ih (by omega)
    refine C147_above h fuel hi ?_ (hst _ (List.getElem_mem _))
    norm_num at this ⊢
    linarith

-- the bar that is pulled, with a limit of one half: its designs lie between 0.4995 and 0.5006
example (fuel i : ℕ) (hi : i + 1 < (runTruss pulledBar fuel).1.length) :
    (0.4995 : ℝ) < (runTruss pulledBar fuel).1[i + 1].s[0]?.getD 0 ∧
      (runTruss pulledBar fuel).1[i + 1].s[0]?.getD 0 ≤ (0.5006 : ℝ) := by
  have hlen : ∀ k, pulledBar.len k = 1 := fun k => by
    have : k = (0 : Fin 1) := Subsingleton.elim (α := Fin 1) k 0
    rw [this]
    exact pulledBar_len
  have hone : ∑ k : Fin pulledBar.elements.length, (1 : ℝ) = 1 := Fin.sum_univ_one (fun _ : Fin 1 => (1 : ℝ))
  have hb := C147_between pulledBar_ok fuel (by norm_num [pulledBar]) (fun q hq k => by
    have hk : k = (0 : Fin 1) := Subsingleton.elim (α := Fin 1) k 0
    obtain ⟨d1, d2, d3⟩ := (C126_run pulledBar_ok fuel).1.design q hq
    have hforce := pulledBar_force d3
    rw [hk]
    obtain ⟨x, hx⟩ := List.length_eq_one_iff.1 (d1.trans (show pulledBar.elements.length = 1 from rfl))
    have hx0 : 0 < x := (d2 x (by rw [hx]; simp)).1
    have harea : pulledBar.area q.s (0 : Fin 1) = 1 + x := by
      show (1 : ℝ) + (2 - 1) * q.s[0]?.getD 0 = 1 + x
      rw [hx]
      norm_num
    simp only [hlen, hone]
    rw [show pulledBar.len (0 : Fin 1) = 1 from pulledBar_len]
    generalize pulledBar.stretch q.value.u (0 : Fin 1) = σ at *
    rw [harea, abs_lt] at hforce
    obtain ⟨f1, f2⟩ := hforce
    norm_num at f1 f2
    show (1 : ℝ) * (2 - 1) * 1 * (σ / 1) ^ 2 * (0.5 * 1) ≤ 722.5
    have h3 : 0 ≤ σ := by
      by_contra hlt
      push Not at hlt
      nlinarith
    have h4 : σ ≤ 2 := by nlinarith
    norm_num
    nlinarith) hi
  simp only [hlen, mul_one, hone] at hb
  rw [show ∑ k : Fin pulledBar.elements.length, (runTruss pulledBar fuel).1[i + 1].s[(k : ℕ)]?.getD 0 =
      (runTruss pulledBar fuel).1[i + 1].s[0]?.getD 0 from
    Fin.sum_univ_one (fun k : Fin 1 => (runTruss pulledBar fuel).1[i + 1].s[(k : ℕ)]?.getD 0),
    show pulledBar.weightlimit = 0.5 from rfl] at hb
  obtain ⟨b1, b2⟩ := hb
  norm_num at b1 b2 ⊢
  exact ⟨b1, by linarith⟩

end

end Pansfem
