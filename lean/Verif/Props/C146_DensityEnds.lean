/-
C146: when the density program with OC ends.
-/
import Verif.Props.C146_Density

namespace Pansfem

noncomputable section

open Finset

variable {P : DensityProgram}

/-- The design with all variables raised by 15 per cent, at most to 1. -/
abbrev raisedDesign (s : List ℝ) : List ℝ := s.map fun a => min 1 (1.15 * a)

theorem nextBeta_pos {k : ℕ} {beta : ℝ} (hb : 0 < beta) : 0 < nextBeta k beta := by
  unfold nextBeta
  split_ifs <;> linarith

theorem densityLoop_settled {O : Optimiser} {left k : ℕ} {beta beta' : ℝ} {s : List ℝ} {o : O.State} {e : Evaluation}
    (hβ : nextBeta k beta = beta') (he : evaluate P beta' s = some e)
    (hc : isConvergence (O.previous o) (O.eps o) e.f = true) :
    densityLoop P O (left + 1) k beta s o = ([⟨k, beta', s, e⟩], .optimised) := by
  unfold densityLoop
  rw [hβ, he]
  simp only [hc]
  rw [if_pos (by simp)]

theorem densityLoop_head {O : Optimiser} {left k : ℕ} {beta : ℝ} {s : List ℝ} {o : O.State} {e : Evaluation}
    (he : evaluate P (nextBeta k beta) s = some e) :
    (⟨k, nextBeta k beta, s, e⟩ : DensityPass) ∈ (densityLoop P O (left + 1) k beta s o).1 := by
  unfold densityLoop
  rw [he]
  simp only
  split_ifs
  · simp
  · split <;> simp

theorem densityLoop_ends (h : P.Ok) (hp : 0 < P.p) (hE : P.E0 < P.E1) (left M k : ℕ) {beta : ℝ} (hbeta : 0 < beta)
    {s : List ℝ} {v : ℝ} (hs : s.length = P.elements.length) (hb : ∀ a ∈ s, 0 < a ∧ a ≤ 1)
    (hall : ∀ fuel, M ≤ fuel → ∀ q ∈ (densityLoop P (ocOptimiser fuel) left k beta s (densityOC P v)).1,
      (∀ j, 0 < P.unitEnergy q.value.u j) ∧ 0 < (weightCallback P q.beta (raisedDesign q.s)).getD 0) :
    ∃ N, ∀ fuel, N ≤ fuel → densityLoop P (ocOptimiser fuel) left k beta s (densityOC P v) =
        densityLoop P (ocOptimiser N) left k beta s (densityOC P v) ∧
      (densityLoop P (ocOptimiser fuel) left k beta s (densityOC P v)).2 ≠ .stuck := by
  induction left generalizing s v M k beta with
  | zero => exact ⟨0, fun fuel _ => by simp [densityLoop]⟩
  | succ left ih =>
    have hβ := nextBeta_pos (k := k) hbeta
    obtain ⟨e, he, hS⟩ := C123_evaluation h hβ ⟨hs, fun a ha => ⟨(hb a ha).1.le, (hb a ha).2⟩⟩
    by_cases hc : isConvergence v 1.0e-5 e.f = true
    · have hrun : ∀ fuel, densityLoop P (ocOptimiser fuel) (left + 1) k beta s (densityOC P v) =
          ([⟨k, nextBeta k beta, s, e⟩], .optimised) := fun fuel =>
        densityLoop_settled (P := P) (O := ocOptimiser fuel) (o := densityOC P v) rfl he hc
      refine ⟨0, fun fuel _ => ?_⟩
      rw [hrun, hrun]
      simp
    · have hc' : isConvergence v 1.0e-5 e.f = false := by simpa using hc
      have hmem : ∀ fuel, (⟨k, nextBeta k beta, s, e⟩ : DensityPass) ∈
          (densityLoop P (ocOptimiser fuel) (left + 1) k beta s (densityOC P v)).1 := fun fuel =>
        densityLoop_head (O := ocOptimiser fuel) (o := densityOC P v) he
      obtain ⟨hst, hw⟩ := hall M le_rfl _ (hmem M)
      obtain ⟨N1, r, hr⟩ := (C146_density_pass h hβ hs hb he hp hE hst v).2 hw
      have hsame : ∀ fuel, N1 ≤ fuel → ocUpdate (densityOC P v) fuel s e.f e.dfds e.g e.dgds
          (fun _ y => (weightCallback P (nextBeta k beta) y).getD 0) = .done r := fun fuel hf => by
        rw [ocUpdate_more (by rw [hr]; exact fun k => nomatch k) hf, hr]
      have hobj : r.2 = densityOC P e.f := by
        have := ocUpdate_object hr
        rw [this]
      have hmove : WithinMove P.elements.length 0.15 s r.1 := C46_move_partial (o := densityOC P v)
        (by norm_num [OC.mk']) (fun a ha => ⟨(hb a ha).1.le, (hb a ha).2⟩) (by norm_num [OC.mk']) hr
      obtain ⟨l1, l2⟩ := within_next hb hmove
      have hrun : ∀ fuel, N1 ≤ fuel → densityLoop P (ocOptimiser fuel) (left + 1) k beta s (densityOC P v) =
          (⟨k, nextBeta k beta, s, e⟩ ::
            (densityLoop P (ocOptimiser fuel) left (k + 1) (nextBeta k beta) r.1 (densityOC P e.f)).1,
            (densityLoop P (ocOptimiser fuel) left (k + 1) (nextBeta k beta) r.1 (densityOC P e.f)).2) := fun fuel hf => by
        have := densityLoop_next (P := P) (O := ocOptimiser fuel) (o := densityOC P v) (left := left) rfl he hc' (hsame fuel hf)
        rw [hobj] at this
        exact this
      obtain ⟨N2, hN2⟩ := ih (max M N1) (k + 1) hβ (s := r.1) (v := e.f) l1 l2 fun fuel hf q hq => by
        refine hall fuel ((le_max_left _ _).trans hf) q ?_
        rw [hrun fuel ((le_max_right _ _).trans hf)]
        exact List.mem_cons_of_mem _ hq
      refine ⟨max N1 N2, fun fuel hf => ?_⟩
      have a1 := hN2 fuel ((le_max_right _ _).trans hf)
      have a2 := hN2 (max N1 N2) (le_max_right _ _)
      rw [hrun fuel ((le_max_left _ _).trans hf), hrun _ (le_max_left _ _)]
      exact ⟨by rw [a1.1, a2.1], a1.2⟩

/-- **C146 (end with densities)**: if in all passes all elements are strained and the callback is positive for the design with
all variables raised by 15 per cent, at most to 1, the density program with OC ends: from some bound on the bisections on all
runs are the same, and they end because the objective has settled or after 500 passes. -/
theorem C146_density_ends (h : P.Ok) (hp : 0 < P.p) (hE : P.E0 < P.E1)
    (hall : ∀ fuel, ∀ q ∈ (runOC P fuel).1,
      (∀ j, 0 < P.unitEnergy q.value.u j) ∧ 0 < (weightCallback P q.beta (raisedDesign q.s)).getD 0) :
    ∃ N, ∀ fuel, N ≤ fuel → runOC P fuel = runOC P N ∧
      ((runOC P fuel).2 = .optimised ∨ (runOC P fuel).2 = .exhausted) := by
  obtain ⟨N, hN⟩ := densityLoop_ends h hp hE 500 0 0 (beta := 0.5) (by norm_num)
    (s := List.replicate P.elements.length 0.5) (v := 0) (by simp)
    (fun a ha => by rw [List.eq_of_mem_replicate ha]; norm_num) fun fuel _ => hall fuel
  refine ⟨N, fun fuel hf => ⟨(hN fuel hf).1, ?_⟩⟩
  have h1 : (runOC P fuel).2 ≠ .stuck := (hN fuel hf).2
  have h2 := (C123_oc h fuel).1.defined
  cases hE : (runOC P fuel).2 with
  | optimised => exact Or.inl rfl
  | exhausted => exact Or.inr rfl
  | stuck => exact absurd hE h1
  | undefined => exact absurd hE h2

theorem density_lower (h : P.Ok) (fuel i : ℕ) (hi : i < (runOC P fuel).1.length) :
    ∀ a ∈ (runOC P fuel).1[i].s, 0.5 * 0.85 ^ i ≤ a := by
  have hrun := (C123_oc h fuel).1
  induction i with
  | zero =>
    intro a ha
    have h0 := hrun.start
    rw [List.head?_eq_getElem?, List.getElem?_eq_getElem hi, Option.map_some, Option.some.injEq] at h0
    rw [h0] at ha
    rw [List.eq_of_mem_replicate ha]
    norm_num
  | succ i ih =>
    have hm := List.isChain_iff_getElem.1 hrun.moves i (by simpa using hi)
    simp only [List.getElem_map] at hm
    intro a ha
    obtain ⟨k, hk, rfl⟩ := List.getElem_of_mem ha
    have hl := List.forall₂_iff_get.1 hm
    have hk' : k < (runOC P fuel).1[i].s.length := by rw [hl.1]; exact hk
    have h1 := (hl.2 k hk' hk).1
    have h2 := ih (by omega) _ (List.getElem_mem hk')
    simp only [List.get_eq_getElem] at h1
    rw [pow_succ]
    norm_num at h1 h2 ⊢
    linarith

/-- **C146 (small limits with densities)**: if the limit is less than the projections of `0.5 * 0.85 ^ 499` with all parameters
of the 500 passes, the program ends, provided that all elements are strained in all passes. -/
theorem C146_density_small (h : P.Ok) (hp : 0 < P.p) (hE : P.E0 < P.E1)
    (hlim : ∀ j ≤ 12, ∀ rho, project (2 ^ j) (0.5 * 0.85 ^ 499) = some rho → P.weightlimit < rho)
    (hst : ∀ fuel, ∀ q ∈ (runOC P fuel).1, ∀ j, 0 < P.unitEnergy q.value.u j) :
    ∃ N, ∀ fuel, N ≤ fuel → runOC P fuel = runOC P N ∧
      ((runOC P fuel).2 = .optimised ∨ (runOC P fuel).2 = .exhausted) := by
  refine C146_density_ends h hp hE fun fuel q hq => ⟨hst fuel q hq, ?_⟩
  have hrun := (C123_oc h fuel).1
  obtain ⟨hl, hbox, -⟩ := hrun.design q hq
  obtain ⟨i, hi, rfl⟩ := List.getElem_of_mem hq
  have hlow := density_lower h fuel i hi
  have hc := hrun.count
  have hβ := (hrun.numbered i hi).2
  have hb : (0 : ℝ) < 2 ^ (i / 40) := by positivity
  have hpow : (0.85 : ℝ) ^ 499 ≤ 0.85 ^ i := pow_le_pow_of_le_one (by norm_num) (by norm_num) (by omega)
  have hpos : (0 : ℝ) < 0.85 ^ 499 := by positivity
  have hle : (0.85 : ℝ) ^ 499 ≤ 1 := pow_le_one₀ (by norm_num) (by norm_num)
  have hc0 : (0 : ℝ) ≤ 0.5 * 0.85 ^ 499 := by positivity
  have hc1 : (0.5 : ℝ) * 0.85 ^ 499 ≤ 1 := mul_le_one₀ (by norm_num) hpos.le hle
  have hci : (0.5 : ℝ) * 0.85 ^ 499 ≤ 0.5 * 0.85 ^ i := mul_le_mul_of_nonneg_left hpow (by norm_num)
  clear hpow hpos hle
  generalize (0.5 : ℝ) * 0.85 ^ 499 = c at *
  obtain ⟨rho, hr, -, -⟩ := C45_range (beta := 2 ^ (i / 40)) (y := c) hb hc0 hc1
  rw [hβ]
  have hcall := weightCallback_const h hb hr
  have hmono := weightCallback_mono h hb (s := List.replicate P.elements.length c)
    (t := raisedDesign (runOC P fuel).1[i].s) (by simp) (by
      refine List.forall₂_iff_get.2 ⟨by simp [hl], fun j k1 k2 => ?_⟩
      have k3 : j < (runOC P fuel).1[i].s.length := by simpa using k2
      simp only [List.get_eq_getElem, List.getElem_replicate, List.getElem_map]
      have b1 := hlow _ (List.getElem_mem k3)
      have b2 := (hbox _ (List.getElem_mem k3)).1
      refine le_min hc1 ((hci.trans b1).trans ?_)
      norm_num
      linarith)
  refine lt_of_lt_of_le ?_ hmono
  rw [hcall, Option.getD_some]
  refine mul_pos h.scales.2 ?_
  rw [sub_pos, one_lt_div h.limit]
  exact hlim _ (by omega) rho hr

-- one element with a small limit: the program ends
example : ∃ P : DensityProgram, P.Ok ∧ ∃ N, ∀ fuel, N ≤ fuel → runOC P fuel = runOC P N ∧
    ((runOC P fuel).2 = .optimised ∨ (runOC P fuel).2 = .exhausted) := by
  have hpos : (0 : ℝ) < 0.5 * 0.85 ^ 499 := by positivity
  obtain ⟨w, hw, hlt⟩ : ∃ w : ℝ, 0 < w ∧ ∀ j ≤ 12, ∀ rho, project (2 ^ j) (0.5 * 0.85 ^ 499) = some rho → w < rho := by
    have hp : ∀ j : ℕ, 0 < (project (2 ^ j) (0.5 * 0.85 ^ 499)).getD 0 := fun j => by
      have hb : (0 : ℝ) < 2 ^ j := by positivity
      rw [project_eq hb, Option.getD_some]
      exact C45_strictMono hb hpos (C45_zero hb) (project_eq hb _)
    obtain ⟨m, hm, hmin⟩ := (range 13).exists_min_image (fun j => (project (2 ^ j) (0.5 * 0.85 ^ 499)).getD 0) ⟨0, by simp⟩
    refine ⟨(project (2 ^ m) (0.5 * 0.85 ^ 499)).getD 0 / 2, half_pos (hp m), fun j hj rho hr => ?_⟩
    have := hmin j (mem_range.2 (by omega))
    rw [hr, Option.getD_some] at this
    exact (half_lt_self (hp m)).trans_le this
  obtain ⟨P, hP, l, hl, h1, h2, h3⟩ := oneElement w hw
  exact ⟨P, hP, C146_density_small hP (by rw [h1]; norm_num) (by rw [h2, h3]; norm_num) (by rw [hl]; exact hlt)
    fun fuel q hq => oneElement_strained hP l ((C123_oc hP fuel).1.design q hq).2.2⟩

end

end Pansfem
