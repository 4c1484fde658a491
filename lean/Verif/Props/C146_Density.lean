/-
C146: when the bisection of OC ends in the density program.
-/
import Verif.Props.C146_Endless
import Verif.Props.C144_FilterObject

namespace Pansfem

noncomputable section

open Finset

variable {P : DensityProgram} {s : List ℝ} {e : Evaluation} {beta : ℝ}

/-- The callback does not fall when variables rise. -/
theorem weightCallback_mono (h : P.Ok) (hb : 0 < beta) {s t : List ℝ} (hs : s.length = P.elements.length)
    (hst : List.Forall₂ (· ≤ ·) s t) : (weightCallback P beta s).getD 0 ≤ (weightCallback P beta t).getD 0 := by
  have ht : t.length = P.elements.length := hst.length_eq ▸ hs
  obtain ⟨r1, a1, b1⟩ := C123_callback h hb hs
  obtain ⟨r2, a2, b2⟩ := C123_callback h hb ht
  rw [b1, b2, Option.getD_some, Option.getD_some]
  have hsum : r1.sum ≤ r2.sum := by
    have e := fun {s : List ℝ} (hs : s.length = P.elements.length) =>
      heaviside_eq h.weights.toTableOk (fun i hi => (h.weights.pos i hi).ne') hb
        fun k : Fin P.elements.length => s[(k : ℕ)]'(by have := k.2; omega)
    have hl : ∀ {s : List ℝ} (hs : s.length = P.elements.length),
        (List.ofFn fun k : Fin P.elements.length => s[(k : ℕ)]'(by have := k.2; omega)) = s := fun hs => by
      refine List.ext_getElem (by simp [hs]) fun i h1 h2 => ?_
      simp
    have e1 := e hs
    have e2 := e ht
    rw [hl hs, a1, Option.some.injEq] at e1
    rw [hl ht, a2, Option.some.injEq] at e2
    rw [e1, e2, List.sum_ofFn, List.sum_ofFn]
    refine sum_le_sum fun i _ => project_mono hb ?_ (project_eq hb _) (project_eq hb _)
    rw [meanMap_apply, meanMap_apply]
    refine sum_le_sum fun k _ => mul_le_mul_of_nonneg_left ?_ (C43_share_nonneg h.weights i.2 k)
    exact (List.forall₂_iff_get.1 hst).2 k (by have := k.2; omega) (by have := k.2; omega)
  have h1 := h.scales.2
  have h2 := h.limit
  have h3 : (0 : ℝ) < P.elements.length := by exact_mod_cast h.nonempty
  gcongr

/-- The object of the program with some previous value. -/
abbrev densityOC (P : DensityProgram) (v : ℝ) : OC :=
  { OC.mk' P.elements.length 0.5 0 1.0e4 1.0e-3 0.15 (List.replicate P.elements.length 0.01)
      (List.replicate P.elements.length 1) with previousvalue := v }

theorem densityOC_ok (hs : s.length = P.elements.length) (hS : e.Sound P beta s) (v : ℝ) :
    TrialOk (densityOC P v) s e.dfds e.dgds :=
  ⟨by norm_num [OC.mk'], ⟨hs, hS.dflength, hS.dglength⟩, hS.dfsign, hS.dgsign⟩

theorem density_running (h : P.Ok) (hb : 0 < beta) (hs : s.length = P.elements.length) (hx : ∀ a ∈ s, 0 < a ∧ a ≤ 1)
    (hS : e.Sound P beta s) (hw : (weightCallback P beta (s.map fun a => min 1 (1.15 * a))).getD 0 ≤ 0) (v : ℝ) (fuel : ℕ) :
    ocUpdate (densityOC P v) fuel s e.f e.dfds e.g e.dgds (fun _ y => (weightCallback P beta y).getD 0) = .running := by
  refine C146_never (densityOC_ok hs hS v) (by norm_num [OC.mk']) (fun a ha => ⟨(hx a ha).1.le, (hx a ha).2⟩) rfl
    (by norm_num [OC.mk']) (by norm_num [OC.mk']) (fun _ t ht => (weightCallback_mono h hb ht.1 ?_).trans hw) _ _ _
  refine List.forall₂_iff_get.2 ⟨by rw [ht.1, List.length_map, hs]; rfl, fun i k1 k2 => ?_⟩
  obtain ⟨xi, yi, e1, e2, -, k3, -, k4⟩ := ht.2 i (by rw [ht.1] at k1; exact k1)
  obtain ⟨k5, e1⟩ := List.getElem?_eq_some_iff.1 e1
  obtain ⟨k6, e2⟩ := List.getElem?_eq_some_iff.1 e2
  simp only [List.get_eq_getElem, List.getElem_map, e1, e2]
  refine le_min k4 (k3.trans_eq ?_)
  norm_num [OC.mk']

/-- If all elements are strained the filtered derivatives of the compliance are negative. -/
theorem density_dfneg (h : P.Ok) (hb : 0 < beta) (hs : s.length = P.elements.length) (hx : ∀ a ∈ s, 0 < a ∧ a ≤ 1)
    (hS : e.Sound P beta s) (hp : 0 < P.p) (hE : P.E0 < P.E1) (hen : ∀ k, 0 < P.unitEnergy e.u k) :
    ∀ a ∈ e.dfds, a < 0 := by
  have hw : ∀ i < P.elements.length, weightSum P.neighbors P.w i ≠ 0 := fun i hi => (h.weights.pos i hi).ne'
  set σ : Fin P.elements.length → ℝ := fun k => s[(k : ℕ)]'(by have := k.2; omega) with hσ
  have hl : List.ofFn σ = s := by
    refine List.ext_getElem (by simp [hs]) fun i h1 h2 => ?_
    simp [hσ]
  have hσp : ∀ k, 0 < σ k := fun k => (hx _ (List.getElem_mem _)).1
  have hshare : ∀ i : Fin P.elements.length, ∃ k : Fin P.elements.length, 0 < share P.neighbors P.w i k := by
    intro i
    by_contra hno
    push Not at hno
    have h1 := C43_shares h.weights.toTableOk i.2 (hw i i.2)
    have h2 : ∑ k : Fin P.elements.length, share P.neighbors P.w i k ≤ 0 := sum_nonpos fun k _ => hno k
    linarith
  have hrho : ∀ i : Fin P.elements.length, 0 < e.rho[(i : ℕ)]?.getD 0 := by
    intro i
    have hf := hS.filtered
    rw [← hl, heaviside_eq h.weights.toTableOk hw hb, Option.some.injEq] at hf
    rw [← hf, List.getElem?_ofFn, dif_pos i.2, Option.getD_some]
    refine C45_strictMono hb ?_ (C45_zero hb) (project_eq hb _)
    rw [meanMap_apply]
    obtain ⟨k, hk⟩ := hshare i
    exact sum_pos' (fun j _ => mul_nonneg (C43_share_nonneg h.weights i.2 j) (hσp j).le)
      ⟨k, mem_univ _, mul_pos hk (hσp k)⟩
  have hd := hS.dcompliance
  rw [← hl, heavisideSensitivities_eq h.weights.toTableOk hw hb, Option.some.injEq] at hd
  intro a ha
  rw [← hd, List.mem_ofFn] at ha
  obtain ⟨i, rfl⟩ := ha
  have hslope : ∀ k, 0 < slopes beta P.neighbors P.w σ k := fun k => by
    have ht := tanh_pos (half_pos hb)
    have h1 := Real.tanh_lt_one (beta * (meanMap P.elements.length P.neighbors P.w σ k - 1 / 2))
    have h2 := Real.neg_one_lt_tanh (beta * (meanMap P.elements.length P.neighbors P.w σ k - 1 / 2))
    rw [slopes]
    refine div_pos (mul_pos hb ?_) (by linarith)
    nlinarith
  have hterm : ∀ k : Fin P.elements.length, 0 < P.scale0 * ((P.E1 - P.E0) *
      (P.p * (e.rho[(k : ℕ)]?.getD 0) ^ (P.p - 1)) * P.unitEnergy e.u k) * slopes beta P.neighbors P.w σ k := fun k => by
    have h1 := h.scales.1
    have h2 : 0 < P.E1 - P.E0 := by linarith
    have h3 := Real.rpow_pos_of_pos (hrho k) (P.p - 1)
    have h4 := hen k
    have h5 := hslope k
    positivity
  obtain ⟨k, hk⟩ := hshare i
  refine Finset.sum_neg' (fun j _ => ?_) ⟨k, mem_univ _, ?_⟩
  · have := mul_nonneg (C43_share_nonneg h.weights i.2 j) (hterm j).le
    linarith
  · have := mul_pos hk (hterm k)
    linarith

/-- **C146 (a pass with densities)**: if all elements are strained, `UpdateVariables` returns from a design exactly if the
callback is positive for the design with all variables raised by 15 per cent, at most to 1. -/
theorem C146_density_pass (h : P.Ok) (hb : 0 < beta) (hs : s.length = P.elements.length) (hx : ∀ a ∈ s, 0 < a ∧ a ≤ 1)
    (he : evaluate P beta s = some e) (hp : 0 < P.p) (hE : P.E0 < P.E1) (hen : ∀ k, 0 < P.unitEnergy e.u k) (v : ℝ) :
    (∃ fuel r, ocUpdate (densityOC P v) fuel s e.f e.dfds e.g e.dgds (fun _ y => (weightCallback P beta y).getD 0) =
      .done r) ↔ 0 < (weightCallback P beta (s.map fun a => min 1 (1.15 * a))).getD 0 := by
  have hx' : ∀ a ∈ s, 0 ≤ a ∧ a ≤ 1 := fun a ha => ⟨(hx a ha).1.le, (hx a ha).2⟩
  obtain ⟨e', he', hS⟩ := C123_evaluation h hb ⟨hs, hx'⟩
  rw [he, Option.some.injEq] at he'
  subst he'
  constructor
  · rintro ⟨fuel, r, hr⟩
    by_contra hle
    rw [density_running h hb hs hx hS (not_lt.1 hle)] at hr
    exact nomatch hr
  · intro hw
    have hm : (1 : ℝ) + 0.15 = 1.15 := by norm_num
    obtain ⟨N, hN⟩ := C47_raised (g := fun _ y => (weightCallback P beta y).getD 0) (densityOC_ok hs hS v)
      (by norm_num [OC.mk']) (by norm_num [OC.mk']) hx' (density_dfneg h hb hs hx hS hp hE hen) rfl (by norm_num [OC.mk']) (by norm_num [OC.mk'])
      (fun _ => by simp only [OC.mk', hm]; exact hw) e.f e.g
    obtain ⟨r, hr⟩ := hN N le_rfl
    exact ⟨N, r, hr⟩

/-- The callback for a design that is the same everywhere. -/
theorem weightCallback_const (h : P.Ok) (hb : 0 < beta) {c rho : ℝ} (hr : project beta c = some rho) :
    weightCallback P beta (List.replicate P.elements.length c) = some (P.scale1 * (rho / P.weightlimit - 1)) := by
  obtain ⟨r, a, b⟩ := C123_callback h hb (s := List.replicate P.elements.length c) (by simp)
  have e := heaviside_eq h.weights.toTableOk (fun i hi => (h.weights.pos i hi).ne') hb
    fun _ : Fin P.elements.length => c
  rw [List.ofFn_const, a, Option.some.injEq] at e
  have hc : ∀ i : Fin P.elements.length, meanMap P.elements.length P.neighbors P.w (fun _ => c) i = c := fun i => by
    rw [meanMap_apply]
    exact le_antisymm (mean_le h.weights i.2 fun _ => le_rfl) (le_mean h.weights i.2 fun _ => le_rfl)
  have hp : projected beta c = rho := by
    rw [project_eq hb, Option.some.injEq] at hr
    exact hr
  have h3 : (P.elements.length : ℝ) ≠ 0 := by exact_mod_cast h.nonempty.ne'
  rw [b, e]
  simp only [hc, hp, List.sum_ofFn, sum_const, card_univ, Fintype.card_fin, nsmul_eq_mul]
  rw [mul_div_cancel_left₀ _ h3]

theorem densityLoop_stuck {O : Optimiser} {left k : ℕ} {beta beta' : ℝ} {s : List ℝ} {o : O.State} {e : Evaluation}
    (hβ : nextBeta k beta = beta') (he : evaluate P beta' s = some e)
    (hc : isConvergence (O.previous o) (O.eps o) e.f = false)
    (hu : O.update o s e.f e.dfds e.g e.dgds (weightCallback P beta') = .running) :
    densityLoop P O (left + 1) k beta s o = ([⟨k, beta', s, e⟩], .stuck) := by
  unfold densityLoop
  rw [hβ, he]
  simp only [hc, hu]
  rw [if_neg (by simp)]

/-- **C146 (stuck with densities)**: if the limit of the weight is at least the projection of `0.575` with the parameter 1, the
density program with OC never gets past its first pass, however long the bisection runs. -/
theorem C146_density_stuck (h : P.Ok) {rho : ℝ} (hr : project 1 0.575 = some rho) (hlim : rho ≤ P.weightlimit) (fuel : ℕ) :
    ∃ e, runOC P fuel = ([⟨0, 1, List.replicate P.elements.length 0.5, e⟩], .stuck) := by
  have hb : ∀ a ∈ List.replicate P.elements.length (0.5 : ℝ), 0 < a ∧ a ≤ 1 := fun a ha => by
    rw [List.eq_of_mem_replicate ha]; norm_num
  obtain ⟨e, he, hS⟩ := C123_evaluation h one_pos (s := List.replicate P.elements.length 0.5)
    ⟨by simp, fun a ha => ⟨(hb a ha).1.le, (hb a ha).2⟩⟩
  refine ⟨e, ?_⟩
  have hraise : ((List.replicate P.elements.length (0.5 : ℝ)).map fun a => min 1 (1.15 * a)) =
      List.replicate P.elements.length 0.575 := by
    rw [List.map_replicate]
    norm_num
  have hw : (weightCallback P 1 ((List.replicate P.elements.length 0.5).map fun a => min 1 (1.15 * a))).getD 0 ≤ 0 := by
    rw [hraise, weightCallback_const h one_pos hr, Option.getD_some]
    have h1 : rho / P.weightlimit ≤ 1 := (div_le_one h.limit).2 hlim
    have h2 := h.scales.2
    nlinarith
  have hu : (ocOptimiser fuel).update (densityOC P 0) (List.replicate P.elements.length 0.5) e.f e.dfds e.g e.dgds
      (weightCallback P 1) = .running := density_running h one_pos (by simp) hb hS hw 0 fuel
  have hβ : nextBeta 0 0.5 = 1 := by norm_num [nextBeta]
  have hc : isConvergence ((ocOptimiser fuel).previous (densityOC P 0)) ((ocOptimiser fuel).eps (densityOC P 0)) e.f =
    false := isConvergence_first hS.objective
  exact densityLoop_stuck (P := P) (O := ocOptimiser fuel) (left := 499) hβ he hc hu

theorem densityLoop_next {O : Optimiser} {left k : ℕ} {beta beta' : ℝ} {s : List ℝ} {o : O.State} {e : Evaluation}
    {r : List ℝ × O.State} (hβ : nextBeta k beta = beta') (he : evaluate P beta' s = some e)
    (hc : isConvergence (O.previous o) (O.eps o) e.f = false)
    (hu : O.update o s e.f e.dfds e.g e.dgds (weightCallback P beta') = .done r) :
    densityLoop P O (left + 1) k beta s o = (⟨k, beta', s, e⟩ :: (densityLoop P O left (k + 1) beta' r.1 r.2).1,
      (densityLoop P O left (k + 1) beta' r.1 r.2).2) := by
  rw [densityLoop.eq_def]
  simp only [hβ, he, hc, hu]
  rw [if_neg (by simp)]

theorem densityLoop_nonempty {O : Optimiser} {left k : ℕ} {beta : ℝ} {s : List ℝ} {o : O.State}
    (h : (densityLoop P O (left + 1) k beta s o).2 ≠ .undefined) :
    1 ≤ (densityLoop P O (left + 1) k beta s o).1.length := by
  unfold densityLoop at h ⊢
  cases he : evaluate P (nextBeta k beta) s with
  | none => rw [he] at h; exact absurd rfl h
  | some e =>
    simp only
    split_ifs
    · simp
    · split <;> simp

/-- **C146 (second pass with densities)**: if all elements are strained in the first design, the program gets to a second pass
exactly if the limit of the weight is less than the projection of `0.575` with the parameter 1. -/
theorem C146_density_second_iff (h : P.Ok) (hp : 0 < P.p) (hE : P.E0 < P.E1)
    (he : evaluate P 1 (List.replicate P.elements.length 0.5) = some e) (hen : ∀ k, 0 < P.unitEnergy e.u k) {rho : ℝ}
    (hr : project 1 0.575 = some rho) : (∃ fuel, 2 ≤ (runOC P fuel).1.length) ↔ P.weightlimit < rho := by
  have hb : ∀ a ∈ List.replicate P.elements.length (0.5 : ℝ), 0 < a ∧ a ≤ 1 := fun a ha => by
    rw [List.eq_of_mem_replicate ha]; norm_num
  constructor
  · rintro ⟨fuel, hf⟩
    by_contra hlim
    obtain ⟨e', hr⟩ := C146_density_stuck h hr (not_lt.1 hlim) fuel
    rw [hr] at hf
    simp at hf
  · intro hlim
    obtain ⟨e', he', hS⟩ := C123_evaluation h one_pos (s := List.replicate P.elements.length 0.5)
      ⟨by simp, fun a ha => ⟨(hb a ha).1.le, (hb a ha).2⟩⟩
    rw [he, Option.some.injEq] at he'
    subst he'
    have hraise : ((List.replicate P.elements.length (0.5 : ℝ)).map fun a => min 1 (1.15 * a)) =
        List.replicate P.elements.length 0.575 := by
      rw [List.map_replicate]
      norm_num
    obtain ⟨fuel, r, hu⟩ := (C146_density_pass h one_pos (by simp) hb he hp hE hen 0).2 (by
      rw [hraise, weightCallback_const h one_pos hr, Option.getD_some]
      exact mul_pos h.scales.2 (by rw [sub_pos, one_lt_div h.limit]; exact hlim))
    refine ⟨fuel, ?_⟩
    have hdef := (C123_oc h fuel).1.defined
    have hβ : nextBeta 0 0.5 = 1 := by norm_num [nextBeta]
    have hc : isConvergence ((ocOptimiser fuel).previous (densityOC P 0)) ((ocOptimiser fuel).eps (densityOC P 0)) e.f =
      false := isConvergence_first hS.objective
    have hrun : runOC P fuel = _ := densityLoop_next (P := P) (O := ocOptimiser fuel) (left := 499) hβ he hc hu
    rw [hrun] at hdef ⊢
    have := densityLoop_nonempty (left := 498) hdef
    rw [List.length_cons]
    exact Nat.succ_le_succ this

/-! ### Examples: one element, held at the left and loaded at a corner -/

theorem oneElement (w : ℝ) (hw : 0 < w) : ∃ P : DensityProgram, P.Ok ∧ P.elements.length = 1 ∧ P.weightlimit = w ∧
    P.p = 3 ∧ P.E0 = 1 ∧ P.E1 = 2 := by
  obtain ⟨P, -, hP, l, -, ⟨-, -, h3, h4, h5, h6, -⟩, -⟩ := C123_problem ⟨1, 1, 1, 1⟩ (by norm_num) (by norm_num)
    (by norm_num) (by norm_num)
    (by norm_num) (held := fun r => decide (r.1 = 0)) (loaded := fun r => decide (r.1 = 1 ∧ r.2 = 1)) (by simp)
    ⟨1, by norm_num, 1, by norm_num, by norm_num⟩ (v := 3) (R := 1.5) (V := 0.3) (t := 1) (p := 3) (E0 := 1) (E1 := 2)
    (limit := w) (scale0 := 10) (scale1 := 1) (by norm_num) (by norm_num) (by norm_num) (by norm_num) (by norm_num)
    (by norm_num) hw (by norm_num)
  exact ⟨P, hP, l, h6, h3, h4, h5⟩

/-- In a problem of one element it is strained. -/
theorem oneElement_strained (h : P.Ok) (l : P.elements.length = 1) (hS : e.Sound P beta s) :
    ∀ k, 0 < P.unitEnergy e.u k := by
  intro k
  have hf := hS.objective
  have : Subsingleton (Fin P.elements.length) := by rw [l]; infer_instance
  rw [hS.compliance, sum_eq_single k (fun j _ hj => absurd (Subsingleton.elim j k) hj) (by simp)] at hf
  have hr : e.rho.length = P.elements.length := hS.densities.1
  have hk : (k : ℕ) < e.rho.length := by rw [hr]; exact k.2
  have hd := hS.densities.2 _ (List.getElem_mem hk)
  have hm := densityModulus_pos h.moduli.1 (h.moduli.1.trans_le h.moduli.2) h.power hd.1 hd.2
  rw [List.getElem?_eq_getElem hk, Option.getD_some] at hf
  exact pos_of_mul_pos_right (pos_of_mul_pos_right hf h.scales.1.le) hm.le

-- a full weight is allowed: the program does not end
example : ∃ P : DensityProgram, P.Ok ∧ ∀ fuel, (runOC P fuel).2 = .stuck := by
  obtain ⟨P, hP, -, hw, -⟩ := oneElement 1 one_pos
  obtain ⟨rho, hr, -, h1⟩ := C45_range (beta := 1) (y := 0.575) one_pos (by norm_num) (by norm_num)
  refine ⟨P, hP, fun fuel => ?_⟩
  obtain ⟨e, he⟩ := C146_density_stuck hP hr (by rw [hw]; exact h1) fuel
  rw [he]

-- with half of the weight there is a second pass, and its design is the best move from the first one
example : ∃ (P : DensityProgram) (fuel : ℕ), P.Ok ∧ ∃ h : 0 + 1 < (runOC P fuel).1.length,
    BestMove 1 1.0e4 (runOC P fuel).1[0].s (runOC P fuel).1[0].value.dfds (runOC P fuel).1[0].value.dgds
      (runOC P fuel).1[1].s := by
  obtain ⟨P, hP, l, hw, h1, h2, h3⟩ := oneElement 0.5 (by norm_num)
  obtain ⟨e, he, hS⟩ := C123_evaluation hP one_pos (s := List.replicate P.elements.length 0.5)
    ⟨by simp, fun a ha => by rw [List.eq_of_mem_replicate ha]; norm_num⟩
  obtain ⟨rho, hr, -, -⟩ := C45_range (beta := 1) (y := 0.575) one_pos (by norm_num) (by norm_num)
  have hgt := C45_strictMono one_pos (by norm_num : (1 / 2 : ℝ) < 0.575) (C45_half one_pos) hr
  obtain ⟨fuel, hf⟩ := (C146_density_second_iff hP (by rw [h1]; norm_num) (by rw [h2, h3]; norm_num) he
    (oneElement_strained hP l hS) hr).2 (by rw [hw]; norm_num at hgt ⊢; exact hgt)
  have hb := C145_density hP fuel (i := 0) (by omega)
  rw [l] at hb
  exact ⟨P, fuel, hP, by omega, hb⟩

-- with half of the weight the first update returns
example : ∃ (P : DensityProgram) (e : Evaluation) (fuel : ℕ) (r : List ℝ × OC), P.Ok ∧ evaluate P 1 [0.5] = some e ∧
    ocUpdate (densityOC P 0) fuel [0.5] e.f e.dfds e.g e.dgds (fun _ y => (weightCallback P 1 y).getD 0) = .done r := by
  obtain ⟨P, hP, l, hw, h1, h2, h3⟩ := oneElement 0.5 (by norm_num)
  obtain ⟨e, he, hS⟩ := C123_evaluation hP one_pos (s := [0.5]) ⟨by rw [l]; rfl, by norm_num⟩
  obtain ⟨fuel, r, hr⟩ := (C146_density_pass hP one_pos (by rw [l]; rfl) (by norm_num) he (by rw [h1]; norm_num)
    (by rw [h2, h3]; norm_num) (oneElement_strained hP l hS) 0).2 (by
      have hc : ([0.5] : List ℝ).map (fun a => min 1 (1.15 * a)) = List.replicate P.elements.length 0.575 := by
        rw [l]
        norm_num
      obtain ⟨rho, hr, -, -⟩ := C45_range (beta := 1) (y := 0.575) one_pos (by norm_num) (by norm_num)
      have hgt := C45_strictMono one_pos (by norm_num : (1 / 2 : ℝ) < 0.575) (C45_half one_pos) hr
      rw [hc, weightCallback_const hP one_pos hr, Option.getD_some]
      refine mul_pos hP.scales.2 ?_
      rw [sub_pos, one_lt_div hP.limit, hw]
      norm_num at hgt ⊢
      exact hgt)
  exact ⟨P, e, fuel, r, hP, he, hr⟩

end

end Pansfem
