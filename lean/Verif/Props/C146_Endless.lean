/-
C146: when the bisection of OC ends if its interval starts at zero, and which runs of the size optimisation of a truss end.
-/
import Verif.Props.C145_Programs

namespace Pansfem

noncomputable section

open Finset

section Object
variable {o : OC} {x dfdx dgdx : List ℝ} {g : ℕ → List ℝ → ℝ}

theorem ocLoop_within (h : TrialOk o x dfdx dgdx) (hm : 0 ≤ o.movelimit) (hx : ∀ v ∈ x, 0 ≤ v ∧ v ≤ 1)
    (he : o.lambdaeps < 1) (hg : ∀ k t, WithinMove o.n o.movelimit x t → g k t ≤ 0) (fuel : ℕ)
    {st : OCState} (h0 : st.lambda0 = 0) (h1 : 0 < st.lambda1) : ocLoop o x dfdx dgdx g fuel st = .running := by
  have hd : div? (st.lambda1 - st.lambda0) (st.lambda1 + st.lambda0) = some 1 := by
    rw [h0, sub_zero, add_zero]
    exact div?_eq_some.2 ⟨h1.ne', (div_self h1.ne').symm⟩
  induction fuel generalizing st with
  | zero =>
    rw [ocLoop_eq, hd]
    simp only [if_pos he]
  | succ fuel ih =>
    rw [ocLoop_eq, hd]
    simp only [if_pos he]
    cases hb : ocBody o x dfdx dgdx g st with
    | none =>
      have e : (0.5 : ℝ) * (st.lambda1 + st.lambda0) = (st.lambda0 + st.lambda1) / 2 := by ring
      obtain ⟨t, ht⟩ := ocTrial_defined h (lambda := (st.lambda0 + st.lambda1) / 2) (by linarith)
      rw [ocBody, e, ht] at hb
      simp at hb
    | some st' =>
      dsimp only
      obtain ⟨t, ht, _, ⟨hpos, e0, e1⟩ | ⟨_, e0, e1⟩⟩ := ocBody_eq hb
      · exact absurd hpos (not_lt.2 (hg _ _ (ocTrial_within hm hx ht)))
      · have k0 : st'.lambda0 = 0 := by rw [e0, h0]
        have k1 : 0 < st'.lambda1 := by rw [e1]; linarith
        refine ih k0 k1 ?_
        rw [k0, sub_zero, add_zero]
        exact div?_eq_some.2 ⟨k1.ne', (div_self k1.ne').symm⟩

/-- A bound on the passes that was not reached makes no difference. -/
theorem ocLoop_more {fuel : ℕ} {st : OCState} (h : ocLoop o x dfdx dgdx g fuel st ≠ .running) {fuel' : ℕ}
    (hf : fuel ≤ fuel') : ocLoop o x dfdx dgdx g fuel' st = ocLoop o x dfdx dgdx g fuel st := by
  induction fuel generalizing st fuel' with
  | zero =>
    rw [ocLoop_eq] at h ⊢
    rw [ocLoop_eq]
    cases hd : div? (st.lambda1 - st.lambda0) (st.lambda1 + st.lambda0) with
    | none => rfl
    | some q =>
      simp only [hd] at h ⊢
      split_ifs at h ⊢ with hq
      · exact absurd rfl h
      · rfl
  | succ fuel ih =>
    obtain ⟨m, rfl⟩ : ∃ m, fuel' = m + 1 := ⟨fuel' - 1, by omega⟩
    rw [ocLoop_eq] at h ⊢
    rw [ocLoop_eq o x dfdx dgdx g (fuel + 1)]
    cases hd : div? (st.lambda1 - st.lambda0) (st.lambda1 + st.lambda0) with
    | none => rfl
    | some q =>
      simp only [hd] at h ⊢
      split_ifs at h ⊢ with hq
      · cases hb : ocBody o x dfdx dgdx g st with
        | none => rfl
        | some st' =>
          simp only [hb] at h ⊢
          exact ih h (by omega)
      · rfl

theorem ocUpdate_more {fuel : ℕ} {f g0 : ℝ} (h : ocUpdate o fuel x f dfdx g0 dgdx g ≠ .running) {fuel' : ℕ}
    (hf : fuel ≤ fuel') : ocUpdate o fuel' x f dfdx g0 dgdx g = ocUpdate o fuel x f dfdx g0 dgdx g := by
  have k : ocLoop o x dfdx dgdx g fuel (ocStart o) ≠ .running := fun e => h (by rw [ocUpdate, e])
  rw [ocUpdate, ocUpdate, ocLoop_more k hf]

/-- **C146 (never)**: from an interval that starts at zero `UpdateVariables` never returns when no design within the move
limits violates the constraint, whatever the callback says about other designs. -/
theorem C146_never (h : TrialOk o x dfdx dgdx) (hm : 0 ≤ o.movelimit) (hx : ∀ v ∈ x, 0 ≤ v ∧ v ≤ 1)
    (h0 : o.lambdamin = 0) (h1 : 0 < o.lambdamax) (he : o.lambdaeps < 1)
    (hg : ∀ k t, WithinMove o.n o.movelimit x t → g k t ≤ 0) (f g0 : ℝ) (fuel : ℕ) :
    ocUpdate o fuel x f dfdx g0 dgdx g = .running := by
  rw [ocUpdate, ocLoop_within h hm hx he hg fuel (st := ocStart o) h0 h1]

/-- **C146 (exactly when)**: from an interval that starts at zero, with an objective that falls with every variable and a
constraint that does not fall when variables rise, `UpdateVariables` returns exactly if the design with all variables at
their upper limits violates the constraint. -/
theorem C146_returns_iff {G : List ℝ → ℝ} (h : TrialOk o x dfdx dgdx) (hi : 0 < o.iota) (hm : 0 ≤ o.movelimit)
    (hx : ∀ v ∈ x, 0 ≤ v ∧ v ≤ 1) (hneg : ∀ v ∈ dfdx, v < 0) (h0 : o.lambdamin = 0) (h1 : 0 < o.lambdamax)
    (he : 0 < o.lambdaeps) (he1 : o.lambdaeps < 1) (hG : ∀ s t, List.Forall₂ (· ≤ ·) s t → G s ≤ G t) (f g0 : ℝ) :
    (∃ fuel r, ocUpdate o fuel x f dfdx g0 dgdx (fun _ => G) = .done r) ↔
      0 < G (x.map fun v => min 1 ((1 + o.movelimit) * v)) := by
  constructor
  · rintro ⟨fuel, r, hr⟩
    by_contra hle
    have := C146_never (g := fun _ => G) h hm hx h0 h1 he1 (fun _ t ht => (hG _ _ ?_).trans (not_lt.1 hle)) f g0 fuel
    · rw [this] at hr
      exact nomatch hr
    · obtain ⟨hl, hw⟩ := ht
      refine List.forall₂_iff_get.2 ⟨by simp [hl, h.len.1], fun i k1 k2 => ?_⟩
      obtain ⟨xi, yi, e1, e2, -, k3, -, k4⟩ := hw i (by omega)
      obtain ⟨k5, e1⟩ := List.getElem?_eq_some_iff.1 e1
      obtain ⟨k6, e2⟩ := List.getElem?_eq_some_iff.1 e2
      simp only [List.get_eq_getElem, List.getElem_map, e1, e2]
      exact le_min k4 k3
  · intro hp
    obtain ⟨N, hN⟩ := C47_raised (g := fun _ => G) h hi hm hx hneg h0 h1 he (fun _ => hp) f g0
    obtain ⟨r, hr⟩ := hN N le_rfl
    exact ⟨N, r, hr⟩

end Object

/-! ### The truss -/

/-- The weight, in the unit of the lengths, of the design with all variables of `s` raised by 15 per cent, but not over 1. -/
def TrussProgram.raised (P : TrussProgram) (s : List ℝ) : ℝ :=
  ∑ k : Fin P.elements.length, min 1 (1.15 * s[(k : ℕ)]?.getD 0) * P.len k

/-- The object of the program with some previous value. -/
abbrev trussOC (P : TrussProgram) (v : ℝ) : OC :=
  { OC.mk' P.elements.length 0.5 0 1.0e3 1.0e-3 0.15 (List.replicate P.elements.length 0.01)
      (List.replicate P.elements.length 1) with previousvalue := v }

section Truss
variable {P : TrussProgram} {s : List ℝ} {e : TrussEvaluation}

theorem trussOC_ok (hs : s.length = P.elements.length) (hS : e.Sound P s) (v : ℝ) :
    TrialOk (trussOC P v) s e.dfds e.dgds :=
  ⟨by norm_num [OC.mk'], ⟨hs, by rw [hS.dcompliance]; simp [OC.mk'], by rw [hS.dweight]; simp [OC.mk']⟩, hS.dfsign,
    hS.dgsign⟩

theorem truss_running (h : P.Ok) (hs : s.length = P.elements.length) (hb : ∀ a ∈ s, 0 < a ∧ a ≤ 1) (hS : e.Sound P s)
    (hw : P.raised s ≤ P.weightlimit * ∑ k, P.len k) (v : ℝ) (fuel : ℕ) :
    ocUpdate (trussOC P v) fuel s e.f e.dfds e.g e.dgds (fun _ y => (trussWeight P y).getD 0) = .running := by
  refine C146_never (trussOC_ok hs hS v) (by norm_num [OC.mk']) (fun a ha => ⟨(hb a ha).1.le, (hb a ha).2⟩) rfl
    (by norm_num [OC.mk']) (by norm_num [OC.mk']) (fun _ t ht => ?_) _ _ _
  have hpos := mul_pos h.limit (total_pos h)
  rw [trussWeight_eq h ht.1, Option.getD_some, sub_nonpos, div_le_one hpos]
  refine le_trans (sum_le_sum fun k _ => mul_le_mul_of_nonneg_right ?_ (Real.sqrt_nonneg _)) hw
  obtain ⟨a, b, e1, e2, -, k3, -, k4⟩ := ht.2 k k.2
  rw [e1, e2, Option.getD_some, Option.getD_some]
  refine le_min k4 (k3.trans_eq ?_)
  norm_num [OC.mk']

theorem truss_dfneg (h : P.Ok) (hS : e.Sound P s) (hA : P.A0 < P.A1) (hst : ∀ k, P.stretch e.u k ≠ 0) :
    ∀ a ∈ e.dfds, a < 0 := by
  intro a ha
  rw [hS.dcompliance, List.mem_ofFn] at ha
  obtain ⟨k, rfl⟩ := ha
  have h1 := h.scale
  have h2 := h.modulus
  have h3 : 0 < P.len k := by
    refine lt_of_le_of_ne (Real.sqrt_nonneg _) fun hz => ?_
    have hd := hS.dgsign (P.len k / (P.weightlimit * ∑ j, P.len j)) (by rw [hS.dweight]; exact List.mem_ofFn.2 ⟨k, rfl⟩)
    rw [show P.len k = 0 from hz.symm, zero_div] at hd
    exact lt_irrefl _ hd
  have h4 : 0 < P.stretch e.u k ^ 2 := by
    have := hst k
    positivity
  have h5 : 0 < P.A1 - P.A0 := by linarith
  have : 0 < P.scale0 * ((P.A1 - P.A0) * (P.E / P.len k * P.stretch e.u k ^ 2)) := by positivity
  linarith

theorem truss_returns (h : P.Ok) (hA : P.A0 < P.A1) (hs : s.length = P.elements.length) (hb : ∀ a ∈ s, 0 < a ∧ a ≤ 1)
    (hS : e.Sound P s) (hst : ∀ k, P.stretch e.u k ≠ 0) (hw : P.weightlimit * ∑ k, P.len k < P.raised s) (v : ℝ) :
    ∃ N, ∀ fuel, N ≤ fuel → ∃ r, ocUpdate (trussOC P v) fuel s e.f e.dfds e.g e.dgds
      (fun _ y => (trussWeight P y).getD 0) = .done r := by
  refine C47_raised (trussOC_ok hs hS v) (by norm_num [OC.mk']) (by norm_num [OC.mk'])
    (fun a ha => ⟨(hb a ha).1.le, (hb a ha).2⟩) (truss_dfneg h hS hA hst) rfl (by norm_num [OC.mk'])
    (by norm_num [OC.mk']) (fun _ => ?_) _ _
  have hpos := mul_pos h.limit (total_pos h)
  rw [trussWeight_eq h (by simp [hs]), Option.getD_some, sub_pos, one_lt_div hpos]
  refine hw.trans_eq (sum_congr rfl fun k _ => ?_)
  have hk : (k : ℕ) < s.length := by rw [hs]; exact k.2
  rw [List.getElem?_map, List.getElem?_eq_getElem hk]
  simp only [Option.map_some, Option.getD_some, OC.mk']
  norm_num

/-- **C146 (a pass)**: in a truss with all bars under force, `UpdateVariables` returns from a design exactly if raising all
variables by 15 per cent, at most to 1, exceeds the limit of the weight. -/
theorem C146_pass (h : P.Ok) (hA : P.A0 < P.A1) (hs : s.length = P.elements.length) (hb : ∀ a ∈ s, 0 < a ∧ a ≤ 1)
    (he : evaluateTruss P s = some e) (hst : ∀ k, P.stretch e.u k ≠ 0) (v : ℝ) :
    (∃ fuel r, ocUpdate (trussOC P v) fuel s e.f e.dfds e.g e.dgds (fun _ y => (trussWeight P y).getD 0) = .done r) ↔
      P.weightlimit * ∑ k, P.len k < P.raised s := by
  obtain ⟨e', he', hS⟩ := evaluateTruss_sound h hs fun a ha => ⟨(hb a ha).1.le, (hb a ha).2⟩
  rw [he, Option.some.injEq] at he'
  subst he'
  constructor
  · rintro ⟨fuel, r, hr⟩
    by_contra hle
    rw [truss_running h hs hb hS (not_lt.1 hle)] at hr
    exact nomatch hr
  · intro hw
    obtain ⟨N, hN⟩ := truss_returns h hA hs hb hS hst hw v
    obtain ⟨r, hr⟩ := hN N le_rfl
    exact ⟨N, r, hr⟩

theorem isConvergence_first {f : ℝ} (hf : 0 < f) : isConvergence 0 1.0e-5 f = false := by
  have hd : div? |f - 0| (f + 0) = some 1 := by
    rw [sub_zero, add_zero, abs_of_pos hf]
    exact div?_eq_some.2 ⟨hf.ne', (div_self hf.ne').symm⟩
  unfold isConvergence
  rw [hd]
  norm_num

/-- **C146 (stuck)**: if the limit of the weight is at least `0.575` of that of the full sections, the program never gets
past its first pass: OC does not return, however long it runs. -/
theorem C146_stuck (h : P.Ok) (hlim : 0.575 ≤ P.weightlimit) (fuel : ℕ) :
    ∃ e, runTruss P fuel = ([⟨List.replicate P.elements.length 0.5, e⟩], .stuck) := by
  have hb : ∀ a ∈ List.replicate P.elements.length (0.5 : ℝ), 0 < a ∧ a ≤ 1 := fun a ha => by
    rw [List.eq_of_mem_replicate ha]; norm_num
  obtain ⟨e, he, hS⟩ := evaluateTruss_sound h (s := List.replicate P.elements.length 0.5) (by simp)
    fun a ha => ⟨(hb a ha).1.le, (hb a ha).2⟩
  refine ⟨e, ?_⟩
  have hw : P.raised (List.replicate P.elements.length 0.5) ≤ P.weightlimit * ∑ k, P.len k := by
    rw [TrussProgram.raised, mul_sum]
    refine sum_le_sum fun k _ => mul_le_mul_of_nonneg_right ?_ (Real.sqrt_nonneg _)
    rw [List.getElem?_replicate, if_pos k.2, Option.getD_some]
    refine (min_le_right _ _).trans ?_
    norm_num at hlim ⊢
    linarith
  have hr : (ocOptimiser fuel).update (trussOC P 0) (List.replicate P.elements.length 0.5) e.f e.dfds e.g e.dgds
      (trussWeight P) = .running := truss_running h (by simp) hb hS hw 0 fuel
  have hc : isConvergence (trussOC P 0).previousvalue (trussOC P 0).epsvalue e.f = false := isConvergence_first hS.objective
  show trussLoop P fuel 50 (List.replicate P.elements.length 0.5) (trussOC P 0) = _
  rw [show (50 : ℕ) = 49 + 1 from rfl, trussLoop.eq_def]
  simp only [he, hc, hr]
  rw [if_neg (by simp)]

theorem within_next {n : ℕ} {s y : List ℝ} (hb : ∀ a ∈ s, 0 < a ∧ a ≤ 1) (h : WithinMove n 0.15 s y) :
    y.length = n ∧ ∀ a ∈ y, 0 < a ∧ a ≤ 1 := by
  refine ⟨h.1, fun a ha => ?_⟩
  obtain ⟨i, hi, rfl⟩ := List.getElem_of_mem ha
  obtain ⟨xi, yi, e1, e2, k1, -, -, k4⟩ := h.2 i (h.1 ▸ hi)
  obtain ⟨_, e2⟩ := List.getElem?_eq_some_iff.1 e2
  rw [e2]
  have := (hb xi (List.mem_of_getElem? e1)).1
  norm_num at k1
  exact ⟨by linarith, k4⟩

theorem trussLoop_ends (h : P.Ok) (hA : P.A0 < P.A1) (left M : ℕ) {s : List ℝ} {v : ℝ}
    (hs : s.length = P.elements.length) (hb : ∀ a ∈ s, 0 < a ∧ a ≤ 1)
    (hall : ∀ fuel, M ≤ fuel → ∀ q ∈ (trussLoop P fuel left s (trussOC P v)).1,
      (∀ k, P.stretch q.value.u k ≠ 0) ∧ P.weightlimit * ∑ k, P.len k < P.raised q.s) :
    ∃ N, ∀ fuel, N ≤ fuel → trussLoop P fuel left s (trussOC P v) = trussLoop P N left s (trussOC P v) ∧
      (trussLoop P fuel left s (trussOC P v)).2 ≠ .stuck := by
  induction left generalizing s v M with
  | zero => exact ⟨0, fun fuel _ => by simp [trussLoop]⟩
  | succ left ih =>
    obtain ⟨e, he, hS⟩ := evaluateTruss_sound h hs fun a ha => ⟨(hb a ha).1.le, (hb a ha).2⟩
    have hunf : ∀ fuel, trussLoop P fuel (left + 1) s (trussOC P v) =
        if isConvergence v 1.0e-5 e.f then ([⟨s, e⟩], .optimised)
        else match ocUpdate (trussOC P v) fuel s e.f e.dfds e.g e.dgds (fun _ y => (trussWeight P y).getD 0) with
          | .undefined => ([⟨s, e⟩], .undefined)
          | .running => ([⟨s, e⟩], .stuck)
          | .done r => (⟨s, e⟩ :: (trussLoop P fuel left r.1 r.2).1, (trussLoop P fuel left r.1 r.2).2) := fun fuel => by
      have hu : (ocOptimiser fuel).update (trussOC P v) s e.f e.dfds e.g e.dgds (trussWeight P) =
        ocUpdate (trussOC P v) fuel s e.f e.dfds e.g e.dgds (fun _ y => (trussWeight P y).getD 0) := rfl
      have hk : isConvergence (trussOC P v).previousvalue (trussOC P v).epsvalue e.f = isConvergence v 1.0e-5 e.f := rfl
      rw [trussLoop.eq_def]
      simp only [he, hu, hk]
      cases ocUpdate (trussOC P v) fuel s e.f e.dfds e.g e.dgds (fun _ y => (trussWeight P y).getD 0) <;> rfl
    by_cases hc : isConvergence v 1.0e-5 e.f = true
    · refine ⟨0, fun fuel _ => ?_⟩
      rw [hunf, hunf, if_pos hc, if_pos hc]
      simp
    · have hmem : ∀ fuel, (⟨s, e⟩ : TrussPass) ∈ (trussLoop P fuel (left + 1) s (trussOC P v)).1 := fun fuel => by
        rw [hunf, if_neg hc]
        split <;> simp
      obtain ⟨hst, hw⟩ := hall M le_rfl _ (hmem M)
      obtain ⟨N1, hN1⟩ := truss_returns h hA hs hb hS hst hw v
      obtain ⟨r, hr⟩ := hN1 N1 le_rfl
      have hsame : ∀ fuel, N1 ≤ fuel → ocUpdate (trussOC P v) fuel s e.f e.dfds e.g e.dgds
          (fun _ y => (trussWeight P y).getD 0) = .done r := fun fuel hf => by
        rw [ocUpdate_more (by rw [hr]; exact fun k => nomatch k) hf, hr]
      have hobj : r.2 = trussOC P e.f := by
        have := ocUpdate_object hr
        rw [this]
      have hmove : WithinMove P.elements.length 0.15 s r.1 := C46_move_partial (o := trussOC P v)
        (by norm_num [OC.mk']) (fun a ha => ⟨(hb a ha).1.le, (hb a ha).2⟩) (by norm_num [OC.mk']) hr
      obtain ⟨l1, l2⟩ := within_next hb hmove
      obtain ⟨N2, hN2⟩ := ih (max M N1) (s := r.1) (v := e.f) l1 l2 fun fuel hf q hq => by
        refine hall fuel ((le_max_left _ _).trans hf) q ?_
        rw [hunf, if_neg hc, hsame fuel ((le_max_right _ _).trans hf)]
        simp only [hobj, List.mem_cons]
        exact Or.inr hq
      refine ⟨max N1 N2, fun fuel hf => ?_⟩
      have a1 := hN2 fuel ((le_max_right _ _).trans hf)
      have a2 := hN2 (max N1 N2) (le_max_right _ _)
      rw [hunf, hunf, if_neg hc, if_neg hc, hsame fuel ((le_max_left _ _).trans hf), hsame _ (le_max_left _ _)]
      simp only [hobj]
      exact ⟨by rw [a1.1, a2.1], a1.2⟩

/-- **C146 (end)**: if in all passes every bar carries a force and raising all variables by 15 per cent, at most to 1, exceeds
the limit of the weight, the program ends: from some bound on the bisections on all runs are the same, and they end because
the objective has settled or after 50 passes. -/
theorem C146_ends (h : P.Ok) (hA : P.A0 < P.A1)
    (hall : ∀ fuel, ∀ q ∈ (runTruss P fuel).1,
      (∀ k, P.stretch q.value.u k ≠ 0) ∧ P.weightlimit * ∑ k, P.len k < P.raised q.s) :
    ∃ N, ∀ fuel, N ≤ fuel → runTruss P fuel = runTruss P N ∧
      ((runTruss P fuel).2 = .optimised ∨ (runTruss P fuel).2 = .exhausted) := by
  obtain ⟨N, hN⟩ := trussLoop_ends h hA 50 0 (s := List.replicate P.elements.length 0.5) (v := 0) (by simp)
    (fun a ha => by rw [List.eq_of_mem_replicate ha]; norm_num) fun fuel _ => hall fuel
  refine ⟨N, fun fuel hf => ⟨(hN fuel hf).1, ?_⟩⟩
  have h1 : (runTruss P fuel).2 ≠ .stuck := (hN fuel hf).2
  have h2 := (C126_run h fuel).1.defined
  cases hE : (runTruss P fuel).2 with
  | optimised => exact Or.inl rfl
  | exhausted => exact Or.inr rfl
  | stuck => exact absurd hE h1
  | undefined => exact absurd hE h2

/-- **C146 (second pass)**: if all bars carry a force in the first design, the program gets to a second pass exactly if the limit
of the weight is less than `0.575` of that of the full sections. -/
theorem C146_second_iff (h : P.Ok) (hA : P.A0 < P.A1)
    (he : evaluateTruss P (List.replicate P.elements.length 0.5) = some e) (hst : ∀ k, P.stretch e.u k ≠ 0) :
    (∃ fuel, 2 ≤ (runTruss P fuel).1.length) ↔ P.weightlimit < 0.575 := by
  constructor
  · rintro ⟨fuel, hf⟩
    by_contra hlim
    obtain ⟨e', hr⟩ := C146_stuck h (not_lt.1 hlim) fuel
    rw [hr] at hf
    simp at hf
  · intro hlim
    obtain ⟨e', he', hS⟩ := evaluateTruss_sound h (s := List.replicate P.elements.length 0.5) (by simp)
      fun a ha => by rw [List.eq_of_mem_replicate ha]; norm_num
    rw [he, Option.some.injEq] at he'
    subst he'
    obtain ⟨N, hN⟩ := C145_second h he (truss_dfneg h hS hA hst) hlim
    exact ⟨N, hN N le_rfl⟩

theorem truss_lower (h : P.Ok) (fuel i : ℕ) (hi : i < (runTruss P fuel).1.length) :
    ∀ a ∈ (runTruss P fuel).1[i].s, 0.5 * 0.85 ^ i ≤ a := by
  have hrun := (C126_run h fuel).1
  induction i with
  | zero =>
    intro a ha
    have h0 := hrun.start
    rw [List.head?_eq_getElem?, List.getElem?_eq_getElem hi, Option.map_some, Option.some.injEq] at h0
    rw [h0] at ha
    rw [List.eq_of_mem_replicate ha]
    norm_num
  | succ i ih =>
    have hm := List.isChain_iff_getElem.1 hrun.moves i (by simpa using hi)
    simp only [List.getElem_map] at hm
    intro a ha
    obtain ⟨k, hk, rfl⟩ := List.getElem_of_mem ha
    have hl := List.forall₂_iff_get.1 hm
    have hk' : k < (runTruss P fuel).1[i].s.length := by rw [hl.1]; exact hk
    have h1 := (hl.2 k hk' hk).1
    have h2 := ih (by omega) _ (List.getElem_mem hk')
    simp only [List.get_eq_getElem] at h1
    rw [pow_succ]
    norm_num at h1 h2 ⊢
    linarith

/-- **C146 (small limits)**: with a limit of at most `1e-4` of the weight of the full sections the program ends, if every bar
carries a force in all passes. -/
theorem C146_small (h : P.Ok) (hA : P.A0 < P.A1) (hlim : P.weightlimit ≤ 1.0e-4)
    (hst : ∀ fuel, ∀ q ∈ (runTruss P fuel).1, ∀ k, P.stretch q.value.u k ≠ 0) :
    ∃ N, ∀ fuel, N ≤ fuel → runTruss P fuel = runTruss P N ∧
      ((runTruss P fuel).2 = .optimised ∨ (runTruss P fuel).2 = .exhausted) := by
  refine C146_ends h hA fun fuel q hq => ⟨hst fuel q hq, ?_⟩
  have hrun := (C126_run h fuel).1
  obtain ⟨hl, -, -⟩ := hrun.design q hq
  obtain ⟨i, hi, rfl⟩ := List.getElem_of_mem hq
  have hlow := truss_lower h fuel i hi
  have hc := hrun.count
  have hp : (0.85 : ℝ) ^ 49 ≤ 0.85 ^ i := pow_le_pow_of_le_one (by norm_num) (by norm_num) (by omega)
  have hn : (2.0e-4 : ℝ) < 0.85 ^ 49 := by norm_num
  have hmin : ∀ k : Fin P.elements.length, 1.1e-4 ≤ min 1 (1.15 * (runTruss P fuel).1[i].s[(k : ℕ)]?.getD 0) := by
    intro k
    have hk : (k : ℕ) < (runTruss P fuel).1[i].s.length := by rw [hl]; exact k.2
    rw [List.getElem?_eq_getElem hk, Option.getD_some]
    have := hlow _ (List.getElem_mem hk)
    refine le_min (by norm_num) ?_
    norm_num at this hn hp ⊢
    linarith
  have ht := total_pos h
  calc P.weightlimit * ∑ k, P.len k ≤ 1.0e-4 * ∑ k, P.len k := mul_le_mul_of_nonneg_right hlim ht.le
    _ < 1.1e-4 * ∑ k, P.len k := by
        have : (1.0e-4 : ℝ) < 1.1e-4 := by norm_num
        exact mul_lt_mul_of_pos_right this ht
    _ ≤ P.raised (runTruss P fuel).1[i].s := by
        rw [TrussProgram.raised, mul_sum]
        exact sum_le_sum fun k _ => mul_le_mul_of_nonneg_right (hmin k) (Real.sqrt_nonneg _)

end Truss

/-! ### Examples: a bar that is pulled, with several limits -/

/-- The bar of C145 with another limit. -/
def limitedBar (w : ℝ) : TrussProgram := { pulledBar with weightlimit := w }

theorem limitedBar_ok {w : ℝ} (hw : 0 < w) : (limitedBar w).Ok :=
  ⟨pulledBar_ok.truss, pulledBar_ok.lengths, pulledBar_ok.total, pulledBar_ok.modulus, pulledBar_ok.sections, hw,
    pulledBar_ok.scale⟩

theorem limitedBar_stretch {w : ℝ} {s : List ℝ} {e : TrussEvaluation} (hS : e.Sound (limitedBar w) s) :
    ∀ k, (limitedBar w).stretch e.u k ≠ 0 := by
  intro k hz
  have hf := hS.objective
  rw [hS.compliance] at hf
  have : ∑ i : Fin (limitedBar w).elements.length, axialForce (limitedBar w).E ((limitedBar w).area s i) (limitedBar w).x
      (limitedBar w).elements[i] (valOf e.u) * (limitedBar w).stretch e.u i = 0 := by
    refine Finset.sum_eq_zero fun i _ => ?_
    have hi : i = k := Subsingleton.elim (α := Fin 1) i k
    rw [hi, hz, mul_zero]
  rw [this, mul_zero] at hf
  exact lt_irrefl _ hf

-- a limit of 60 per cent: the program does not end
example (fuel : ℕ) : (runTruss (limitedBar 0.6) fuel).2 = .stuck := by
  obtain ⟨e, he⟩ := C146_stuck (limitedBar_ok (w := 0.6) (by norm_num)) (by norm_num [limitedBar]) fuel
  rw [he]

-- a limit of 0.01 per cent: it ends
example : ∃ N, ∀ fuel, N ≤ fuel → runTruss (limitedBar 1.0e-4) fuel = runTruss (limitedBar 1.0e-4) N ∧
    ((runTruss (limitedBar 1.0e-4) fuel).2 = .optimised ∨ (runTruss (limitedBar 1.0e-4) fuel).2 = .exhausted) :=
  C146_small (limitedBar_ok (by norm_num)) (by norm_num [limitedBar, pulledBar]) (by norm_num [limitedBar])
    fun fuel q hq => limitedBar_stretch ((C126_run (limitedBar_ok (by norm_num)) fuel).1.design q hq).2.2

-- the second pass, for all limits
example {w : ℝ} (hw : 0 < w) : (∃ fuel, 2 ≤ (runTruss (limitedBar w) fuel).1.length) ↔ w < 0.575 := by
  obtain ⟨e, he, hS⟩ := C126_evaluation (limitedBar_ok hw) (s := List.replicate (limitedBar w).elements.length 0.5)
    ⟨by simp, fun a ha => by rw [List.eq_of_mem_replicate ha]; norm_num⟩
  exact C146_second_iff (limitedBar_ok hw) (by norm_num [limitedBar, pulledBar]) he (limitedBar_stretch hS)

-- an update of one variable, with the parameters of the samples
example (c : ℝ) : (∃ fuel r, ocUpdate ocSample fuel [1 / 2] 0 [-1] 0 [1] (fun _ t => t.sum - c) = .done r) ↔ c < 0.575 := by
  have h : TrialOk ocSample [1 / 2] [-1] [1] :=
    ⟨by norm_num [ocSample, OC.mk'], ⟨rfl, rfl, rfl⟩, by simp, by simp⟩
  rw [C146_returns_iff (G := fun t => t.sum - c) h (by norm_num [ocSample, OC.mk']) (by norm_num [ocSample, OC.mk'])
    (by norm_num) (by norm_num) (by norm_num [ocSample, OC.mk']) (by norm_num [ocSample, OC.mk'])
    (by norm_num [ocSample, OC.mk']) (by norm_num [ocSample, OC.mk'])
    (fun s t hst => sub_le_sub_right (List.Forall₂.sum_le_sum hst) c)]
  norm_num [ocSample, OC.mk']

end

end Pansfem
