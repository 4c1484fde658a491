/-
C47 for the interval of the programs, which starts at zero.
-/
import Verif.Props.C46_OC
import Verif.Lemmas.Optimisers

namespace Pansfem

noncomputable section

variable {o : OC} {x dfdx dgdx : List ℝ} {g : ℕ → List ℝ → ℝ}

theorem ocLoop_zero {a c L : ℝ} {N : ℕ} (he : 0 < o.lambdaeps)
    (hg : ∀ lambda, 0 < lambda → lambda ≤ a → ∀ t, ocTrial o x dfdx dgdx lambda = some t → ∀ k, 0 < g k t)
    (hc : 0 < c) (hca : 2 * c ≤ a) (hN : L ≤ 2 ^ N * (2 * c * o.lambdaeps)) (k : ℕ) {st : OCState}
    (h0 : st.lambda0 = 0) (h1 : st.lambda1 ≤ 2 ^ k * a) (h2 : 2 * c ≤ st.lambda1) (h3 : st.lambda1 ≤ L) {fuel : ℕ}
    (hf : k + 1 + N ≤ fuel) : ocLoop o x dfdx dgdx g fuel st ≠ .running := by
  induction k generalizing st fuel with
  | zero =>
    obtain ⟨fuel, rfl⟩ : ∃ m, fuel = m + 1 := ⟨fuel - 1, by omega⟩
    rw [ocLoop_eq]
    cases div? (st.lambda1 - st.lambda0) (st.lambda1 + st.lambda0) with
    | none => exact fun h => nomatch h
    | some q =>
      simp only
      split_ifs
      · cases hb : ocBody o x dfdx dgdx g st with
        | none => exact fun h => nomatch h
        | some st' =>
          obtain ⟨t, ht, -, ⟨hpos, e0, e1⟩ | ⟨hneg, e0, e1⟩⟩ := ocBody_eq hb
          · refine ocLoop_not_running (by rw [e0]; linarith) (by rw [e0, e1]; linarith) he ?_
            have hp : (2 : ℝ) ^ N ≤ 2 ^ fuel := pow_le_pow_right₀ one_le_two (by omega)
            have : 2 ^ N * (2 * c * o.lambdaeps) ≤ 2 ^ fuel * (2 * st'.lambda0 * o.lambdaeps) := by
              gcongr
              rw [e0]; linarith
            have h4 : 0 ≤ st'.lambda0 := by rw [e0]; linarith
            rw [e1]
            linarith
          · rw [pow_zero, one_mul] at h1
            exact absurd (hg _ (by linarith) (by linarith) t ht _) (not_lt.2 hneg)
      · exact fun h => nomatch h
  | succ k ih =>
    obtain ⟨fuel, rfl⟩ : ∃ m, fuel = m + 1 := ⟨fuel - 1, by omega⟩
    rw [ocLoop_eq]
    cases div? (st.lambda1 - st.lambda0) (st.lambda1 + st.lambda0) with
    | none => exact fun h => nomatch h
    | some q =>
      simp only
      split_ifs
      · cases hb : ocBody o x dfdx dgdx g st with
        | none => exact fun h => nomatch h
        | some st' =>
          obtain ⟨t, ht, -, ⟨hpos, e0, e1⟩ | ⟨hneg, e0, e1⟩⟩ := ocBody_eq hb
          · refine ocLoop_not_running (by rw [e0]; linarith) (by rw [e0, e1]; linarith) he ?_
            have hp : (2 : ℝ) ^ N ≤ 2 ^ fuel := pow_le_pow_right₀ one_le_two (by omega)
            have : 2 ^ N * (2 * c * o.lambdaeps) ≤ 2 ^ fuel * (2 * st'.lambda0 * o.lambdaeps) := by
              gcongr
              rw [e0]; linarith
            have h4 : 0 ≤ st'.lambda0 := by rw [e0]; linarith
            rw [e1]
            linarith
          · have hmid : a < (st.lambda0 + st.lambda1) / 2 := by
              by_contra hle
              exact absurd (hg _ (by linarith) (not_lt.1 hle) t ht _) (not_lt.2 hneg)
            refine ih (by rw [e0, h0]) ?_ ?_ ?_ (by omega)
            · rw [e1, h0]
              rw [pow_succ] at h1
              linarith
            · rw [e1]; linarith
            · rw [e1, h0]; linarith
      · exact fun h => nomatch h

/-- **C47** for an interval that starts at zero, as in the programs: if the callback reports the constraint violated for
all small multipliers, the loop ends, and with sensitivities of the right signs it returns a design.  Without that it runs
on (`C47_never`). -/
theorem C47_zero (h : TrialOk o x dfdx dgdx) (h0 : o.lambdamin = 0) (h1 : 0 < o.lambdamax) (he : 0 < o.lambdaeps) {a : ℝ}
    (ha : 0 < a)
    (hg : ∀ lambda, 0 < lambda → lambda ≤ a → ∀ t, ocTrial o x dfdx dgdx lambda = some t → ∀ k, 0 < g k t) (f g0 : ℝ) :
    ∃ N, ∀ fuel, N ≤ fuel → ∃ r, ocUpdate o fuel x f dfdx g0 dgdx g = .done r := by
  have hc : 0 < min a o.lambdamax / 2 := by have := lt_min ha h1; linarith
  obtain ⟨N, hN⟩ := pow_unbounded_of_one_lt (o.lambdamax / (2 * (min a o.lambdamax / 2) * o.lambdaeps)) (one_lt_two (α := ℝ))
  rw [div_lt_iff₀ (by positivity)] at hN
  obtain ⟨k, hk⟩ := pow_unbounded_of_one_lt (o.lambdamax / a) (one_lt_two (α := ℝ))
  rw [div_lt_iff₀ ha] at hk
  refine ⟨k + 1 + N, fun fuel hf => ?_⟩
  have h2 := ocLoop_zero (o := o) (x := x) (dfdx := dfdx) (dgdx := dgdx) (g := g) he hg hc
    (by linarith [min_le_left a o.lambdamax]) hN.le k (st := ocStart o) h0 hk.le
    (by show 2 * (min a o.lambdamax / 2) ≤ o.lambdamax; linarith [min_le_right a o.lambdamax]) le_rfl hf
  have h3 := ocLoop_defined' (g := g) h (fuel := fuel) (st := ocStart o) h0.ge h1
  rw [ocUpdate]
  cases hl : ocLoop o x dfdx dgdx g fuel (ocStart o) with
  | undefined => exact absurd hl h3
  | running => exact absurd hl h2
  | done st => exact ⟨_, rfl⟩

theorem exists_small (n : ℕ) {b : ℕ → ℝ} (hb : ∀ i < n, 0 < b i) : ∃ a, 0 < a ∧ ∀ i < n, a ≤ b i := by
  induction n with
  | zero => exact ⟨1, one_pos, by simp⟩
  | succ n ih =>
    obtain ⟨a, h1, h2⟩ := ih fun i hi => hb i (by omega)
    refine ⟨min a (b n), lt_min h1 (hb n (by omega)), fun i hi => ?_⟩
    rcases Nat.lt_succ_iff_lt_or_eq.1 hi with h | rfl
    · exact (min_le_left _ _).trans (h2 i h)
    · exact min_le_right _ _

/-- For small multipliers every variable goes to its upper limit. -/
theorem ocTrial_raised (h : TrialOk o x dfdx dgdx) (hi : 0 < o.iota) (hm : 0 ≤ o.movelimit)
    (hx : ∀ v ∈ x, 0 ≤ v ∧ v ≤ 1) (hneg : ∀ v ∈ dfdx, v < 0) :
    ∃ a, 0 < a ∧ ∀ lambda, 0 < lambda → lambda ≤ a → ∀ t, ocTrial o x dfdx dgdx lambda = some t →
      t = x.map fun v => min 1 ((1 + o.movelimit) * v) := by
  have hp : 0 < (1 + o.movelimit) ^ (1 / o.iota) := Real.rpow_pos_of_pos (by linarith) _
  obtain ⟨l1, l2, l3⟩ := h.len
  obtain ⟨a, ha, hle⟩ := exists_small o.n
    (b := fun i => -(dfdx.getD i 0) / (dgdx.getD i 0 * (1 + o.movelimit) ^ (1 / o.iota))) (by
      intro i hi'
      have k1 := hneg _ (List.getElem_mem (by omega : i < dfdx.length))
      have k2 := h.dg _ (List.getElem_mem (by omega : i < dgdx.length))
      simp only [List.getD_eq_getElem?_getD, List.getElem?_eq_getElem (by omega : i < dfdx.length),
        List.getElem?_eq_getElem (by omega : i < dgdx.length), Option.getD_some]
      exact div_pos (by linarith) (mul_pos k2 hp))
  refine ⟨a, ha, fun l hl hla t ht => ?_⟩
  obtain ⟨ht1, hent⟩ := ocTrial_entry ht
  refine List.ext_getElem (by simp [ht1, l1]) fun i h1 h2 => ?_
  have hin : i < o.n := by omega
  obtain ⟨df, dg, xi, ti, e1, e2, e3, e4, e5⟩ := hent i hin
  have hdf := hneg _ (List.mem_of_getElem? e1)
  have hdg := h.dg _ (List.mem_of_getElem? e2)
  have hxi := hx _ (List.mem_of_getElem? e3)
  have hb := hle i hin
  simp only [List.getD_eq_getElem?_getD, e1, e2, Option.getD_some] at hb
  rw [ocEntry_eq hi.le hl hdf.le hdg] at e5
  have hq : (1 + o.movelimit) ^ (1 / o.iota) ≤ -df / (dg * l) := by
    rw [le_div_iff₀ (mul_pos hdg hp)] at hb
    rw [le_div_iff₀ (mul_pos hdg hl)]
    have : l * (dg * (1 + o.movelimit) ^ (1 / o.iota)) ≤ a * (dg * (1 + o.movelimit) ^ (1 / o.iota)) :=
      mul_le_mul_of_nonneg_right hla (mul_pos hdg hp).le
    linarith
  have hq2 : 1 + o.movelimit ≤ (-df / (dg * l)) ^ o.iota := by
    have := Real.rpow_le_rpow hp.le hq hi.le
    rwa [← Real.rpow_mul (by linarith), one_div_mul_cancel hi.ne', Real.rpow_one] at this
  have e4' : t[i] = ti := by
    rw [List.getElem?_eq_getElem h1] at e4
    exact Option.some.inj e4
  have e3' : x[i]'(by omega) = xi := by
    rw [List.getElem?_eq_getElem (by omega)] at e3
    exact Option.some.inj e3
  rw [e4', List.getElem_map, e3', ← Option.some.inj e5]
  have hs : (1 + o.movelimit) * xi ≤ (-df / (dg * l)) ^ o.iota * xi := mul_le_mul_of_nonneg_right hq2 hxi.1
  have hlo : max 0 ((1 - o.movelimit) * xi) ≤ (-df / (dg * l)) ^ o.iota * xi :=
    max_le (le_trans (mul_nonneg (by linarith) hxi.1) hs) (by nlinarith [hxi.1])
  rw [ocClamp, if_neg (not_lt.2 hlo)]
  split_ifs with hh
  · rfl
  · exact le_antisymm (not_lt.1 hh) ((min_le_right _ _).trans hs)

/-- **C47** for an interval that starts at zero: if the objective falls with every variable and the design with all
variables at their upper limits violates the constraint, the loop ends and returns a design, whatever the callback says
about other designs. -/
theorem C47_raised (h : TrialOk o x dfdx dgdx) (hi : 0 < o.iota) (hm : 0 ≤ o.movelimit) (hx : ∀ v ∈ x, 0 ≤ v ∧ v ≤ 1)
    (hneg : ∀ v ∈ dfdx, v < 0) (h0 : o.lambdamin = 0) (h1 : 0 < o.lambdamax) (he : 0 < o.lambdaeps)
    (hg : ∀ k, 0 < g k (x.map fun v => min 1 ((1 + o.movelimit) * v))) (f g0 : ℝ) :
    ∃ N, ∀ fuel, N ≤ fuel → ∃ r, ocUpdate o fuel x f dfdx g0 dgdx g = .done r := by
  obtain ⟨a, ha, ht⟩ := ocTrial_raised h hi hm hx hneg
  exact C47_zero h h0 h1 he ha (fun l h2 h3 t e k => by rw [ht l h2 h3 t e]; exact hg k) f g0

-- the parameters of the samples: a constraint that asks for at most 0.55; small multipliers give 0.575
example : ∃ N, ∀ fuel, N ≤ fuel → ∃ r, ocUpdate ocSample fuel [1 / 2] 0 [-1] 0 [1] (fun _ t => t.sum - 0.55) = .done r := by
  have h : TrialOk ocSample [1 / 2] [-1] [1] :=
    ⟨by norm_num [ocSample, OC.mk'], ⟨rfl, rfl, rfl⟩, by simp, by simp⟩
  refine C47_zero h (by norm_num [ocSample, OC.mk']) (by norm_num [ocSample, OC.mk']) (by norm_num [ocSample, OC.mk'])
    (a := 1 / 4) (by norm_num) (fun l h1 h2 t ht _ => ?_) 0 0
  obtain ⟨hl, hent⟩ := ocTrial_entry ht
  obtain ⟨df, dg, xi, ti, e1, e2, e3, e4, e5⟩ := hent 0 (by norm_num [ocSample, OC.mk'])
  simp only [List.getElem?_cons_zero, Option.some.injEq] at e1 e2 e3
  subst e1 e2 e3
  rw [ocEntry_eq (by norm_num [ocSample, OC.mk']) h1 (by norm_num) (by norm_num)] at e5
  have hq : (2 : ℝ) ≤ (-(-1) / (1 * l)) ^ ocSample.iota := by
    have e : ocSample.iota = 1 / 2 := by norm_num [ocSample, OC.mk']
    rw [e, ← Real.sqrt_eq_rpow]
    refine Real.le_sqrt_of_sq_le ?_
    rw [le_div_iff₀ (by linarith)]
    linarith
  generalize (-(-1 : ℝ) / (1 * l)) ^ ocSample.iota = w at hq e5
  have hti : ti = 23 / 40 := by
    rw [← Option.some.inj e5, ocClamp, show ocSample.movelimit = 3 / 20 by norm_num [ocSample, OC.mk'],
      if_neg (by norm_num; linarith), if_pos (by norm_num; linarith)]
    norm_num
  have : t = [23 / 40] := by
    match t, hl, e4 with
    | [b], _, e => simp only [List.getElem?_cons_zero, Option.some.injEq] at e; rw [e, hti]
  rw [this]
  norm_num

-- the same by the design at its upper limits
example : ∃ N, ∀ fuel, N ≤ fuel → ∃ r, ocUpdate ocSample fuel [1 / 2] 0 [-1] 0 [1] (fun _ t => t.sum - 0.55) = .done r :=
  C47_raised ⟨by norm_num [ocSample, OC.mk'], ⟨rfl, rfl, rfl⟩, by simp, by simp⟩ (by norm_num [ocSample, OC.mk'])
    (by norm_num [ocSample, OC.mk']) (by simp; norm_num) (by simp) (by norm_num [ocSample, OC.mk'])
    (by norm_num [ocSample, OC.mk']) (by norm_num [ocSample, OC.mk']) (fun _ => by norm_num [ocSample, OC.mk']) 0 0

end

end Pansfem
