/-
The loop of the truss size optimisation.
-/
import Verif.Lemmas.Truss

noncomputable section

open Finset

namespace Pansfem

section
variable {P : TrussProgram}

theorem total_pos (h : P.Ok) : 0 < ∑ i : Fin P.elements.length, P.len i := by
  have hn := truss_nonempty h.truss
  refine Finset.sum_pos (fun i _ => barLen_pos h.truss.bars (List.getElem_mem i.2)) ⟨⟨0, hn⟩, mem_univ _⟩

theorem lengths_at (h : P.Ok) (i : Fin P.elements.length) : P.l[(i : ℕ)]? = some (P.len i) := by
  rw [h.lengths, List.getElem?_map, List.getElem?_eq_getElem i.2]
  rfl

theorem lsum_eq (h : P.Ok) : P.lsum = ∑ i : Fin P.elements.length, P.len i := by
  rw [h.total, h.lengths, ← List.sum_ofFn]
  congr 1
  refine List.ext_getElem (by simp) fun i h1 h2 => ?_
  simp [TrussProgram.len]

theorem foldlM_range {n : ℕ} {f : ℕ → Option ℝ} {g : Fin n → ℝ} (h : ∀ i : Fin n, f i = some (g i)) (a : ℝ) :
    (List.range n).foldlM (fun s i => do return s + (← f i)) a = some (a + ∑ i, g i) := by
  induction n with
  | zero => simp
  | succ n ih =>
    rw [List.range_succ, List.foldlM_append, ih (g := fun i => g i.castSucc) (fun i => h i.castSucc)]
    have := h (Fin.last n)
    rw [Fin.val_last] at this
    simp only [Option.bind_eq_bind, Option.bind_some, List.foldlM_cons, List.foldlM_nil, this, Option.pure_def,
      Option.some.injEq, Fin.sum_univ_castSucc]
    ring

theorem trussWeight_eq (h : P.Ok) {s : List ℝ} (hs : s.length = P.elements.length) :
    trussWeight P s = some ((∑ i : Fin P.elements.length, s[(i : ℕ)]?.getD 0 * P.len i) /
      (P.weightlimit * ∑ i, P.len i) - 1) := by
  have hne := (mul_pos h.limit (total_pos h)).ne'
  unfold trussWeight
  have := foldlM_range (n := P.elements.length) (a := 0)
    (f := fun i => do div? ((← s[i]?) * (← P.l[i]?)) (P.weightlimit * P.lsum))
    (g := fun i => s[(i : ℕ)]?.getD 0 * P.len i / (P.weightlimit * ∑ i, P.len i)) fun i => by
      have hi : (i : ℕ) < s.length := by rw [hs]; exact i.2
      simp [List.getElem?_eq_getElem hi, lengths_at h, lsum_eq h, div?, hne]
  simp only [Option.bind_eq_bind, Option.bind_assoc, Option.pure_def] at this ⊢
  rw [this]
  simp only [Option.bind_some, zero_add, Finset.sum_div]

theorem trussWeightSensitivities_eq (h : P.Ok) : trussWeightSensitivities P =
    some (List.ofFn fun i : Fin P.elements.length => P.len i / (P.weightlimit * ∑ i, P.len i)) := by
  have hne := (mul_pos h.limit (total_pos h)).ne'
  refine range_mapM fun i => ?_
  simp [lengths_at h, lsum_eq h, div?, hne]

/-- Compliance and sensitivities of any field with the right shape. -/
theorem trussCompliance_field {x : List (Vec ℝ)} {elements : List (List ℕ)} {ntg : List (List ℤ)} {E A0 A1 scale : ℝ}
    (hE : 0 ≤ E) (hB : Bars x elements) (hn : ntg.map List.length = (freeTable x.length 2).map List.length)
    {u : List (Vec ℝ)} (hu : Shaped u (freeTable x.length 2)) {s : List ℝ} (hs : s.length = elements.length) :
    trussCompliance x elements E A0 A1 scale ntg s u =
      some (scale * ∑ i : Fin elements.length, coeff (trussArea A0 A1) s i *
          baseForm (trussCore E) [0, 1] x elements[i] (valOf u) (valOf u),
        List.ofFn fun i : Fin elements.length => -scale * ((-A0 + A1) *
          baseForm (trussCore E) [0, 1] x elements[i] (valOf u) (valOf u))) := by
  have h := linear_truss hE hB
  have hi : trussItems x elements E A0 A1 s =
      some (baseItems (trussCore E) [0, 1] x elements fun i => coeff (trussArea A0 A1) s i) :=
    designItems_eq h (c := s.map (trussArea A0 A1)) (by rw [List.length_map, hs])
  have hc := complianceOf_eq h scale hn (fun i => coeff (trussArea A0 A1) s i) hu
  unfold trussCompliance
  simp only [hi, hc, Option.bind_eq_bind, Option.bind_some, Option.pure_def]
  rw [designItems_eq h (by rw [List.length_map]), Option.bind_some]
  rw [mapM_some (g := fun it => -scale * callEnergy it.call (valOf u) (valOf u))]
  · rw [Option.bind_some, List.map_ofFn]
    congr 3
    funext i
    simp only [Function.comp_apply, Fin.getElem_fin]
    rw [baseItem_energy h (List.getElem_mem i.2)]
    simp
  · intro it hit
    obtain ⟨i, rfl⟩ := List.mem_ofFn.1 hit
    exact trussSensitivity_eq (baseItem_call h (List.getElem_mem i.2) _).1
      (baseItem_fits h (List.getElem_mem i.2) _ hu) _

theorem trussArea_pos (h : P.Ok) {s : List ℝ} (hb : ∀ a ∈ s, 0 ≤ a ∧ a ≤ 1) (i : Fin P.elements.length) : 0 < P.area s i := by
  unfold TrussProgram.area
  have h0 : 0 ≤ s[(i : ℕ)]?.getD 0 := by
    cases hi : s[(i : ℕ)]? with
    | none => simp
    | some a => exact (hb a (List.mem_of_getElem? hi)).1
  nlinarith [h.sections.1, h.sections.2]

theorem trussArea_eq {s : List ℝ} (hs : s.length = P.elements.length) (i : Fin P.elements.length) :
    coeff (trussArea P.A0 P.A1) s i = P.area s i := by
  have hi : (i : ℕ) < s.length := by rw [hs]; exact i.2
  simp only [coeff, List.getElem?_map, List.getElem?_eq_getElem hi, Option.map_some, Option.getD_some,
    TrussProgram.area, trussArea]
  ring

theorem evaluateTruss_sound (h : P.Ok) {s : List ℝ} (hs : s.length = P.elements.length)
    (hb : ∀ a ∈ s, 0 ≤ a ∧ a ≤ 1) : ∃ e, evaluateTruss P s = some e ∧ e.Sound P s := by
  obtain ⟨u, a1, a2, a3, a4⟩ := truss_analysis useScalingCG_finds useScalingCG_certifies h.modulus h.truss
    (c := fun i => P.area s i) (trussArea_pos h hb)
  have hL := linear_truss h.modulus.le h.truss.bars
  have hi : trussItems P.x P.elements P.E P.A0 P.A1 s =
      some (baseItems (trussCore P.E) [0, 1] P.x P.elements fun i => P.area s i) := by
    have := designItems_eq hL (c := s.map (trussArea P.A0 P.A1)) (by rw [List.length_map, hs])
    refine Eq.trans this (congrArg some (congrArg List.ofFn (funext fun i => ?_)))
    exact congrArg _ (trussArea_eq hs i)
  have ha : trussAnalysis P s = some (u, true) := by
    unfold trussAnalysis
    rw [hi]
    exact a1
  obtain ⟨v, t, h7, h8⟩ := setDirichlet_defined a1
  have h9 := trussCompliance_field (A0 := P.A0) (A1 := P.A1) (scale := P.scale0) h.modulus.le h.truss.bars h8 a2 hs
  have henergy : ∀ i : Fin P.elements.length, baseForm (trussCore P.E) [0, 1] P.x P.elements[i] (valOf u) (valOf u) =
      P.E / P.len i * P.stretch u i ^ 2 := fun i => by
    simp only [Fin.getElem_fin]
    rw [bar_form h.modulus.le h.truss.bars (List.getElem_mem i.2), sq]
    rfl
  have hf : ∑ i : Fin P.elements.length, coeff (trussArea P.A0 P.A1) s i *
      baseForm (trussCore P.E) [0, 1] P.x P.elements[i] (valOf u) (valOf u) =
      ∑ i : Fin P.elements.length, axialForce P.E (P.area s i) P.x P.elements[i] (valOf u) * P.stretch u i := by
    refine Finset.sum_congr rfl fun i _ => ?_
    rw [henergy i, trussArea_eq hs i, axialForce, TrussProgram.stretch, TrussProgram.len]
    ring
  have hev : ∀ g dg f df, trussWeight P s = some g → trussWeightSensitivities P = some dg →
      trussCompliance P.x P.elements P.E P.A0 P.A1 P.scale0 (renumbering t).1 s u = some (f, df) →
      evaluateTruss P s = some ⟨g, dg, u, true, f, df⟩ := by
    intro g dg f df e1 e2 e3
    unfold evaluateTruss
    simp only [e1, e2, ha, h7, e3, Option.bind_eq_bind, Option.bind_some, Option.pure_def]
  refine ⟨_, hev _ _ _ _ (trussWeight_eq h hs) (trussWeightSensitivities_eq h) h9, rfl, a3, rfl, ?_, ?_, ?_, rfl, ?_, ?_⟩
  · dsimp only
    rw [hf]
  · dsimp only
    rw [hf]
    exact mul_pos h.scale a4
  · dsimp only
    congr 1
    funext i
    rw [henergy i]
    ring
  · intro a ha
    obtain ⟨i, rfl⟩ := List.mem_ofFn.1 ha
    rw [henergy i]
    have h1 : 0 ≤ P.E / P.len i * P.stretch u i ^ 2 :=
      mul_nonneg (div_pos h.modulus (barLen_pos h.truss.bars (List.getElem_mem i.2))).le (sq_nonneg _)
    have h2 : 0 ≤ P.scale0 * (-P.A0 + P.A1) := mul_nonneg h.scale.le (by linarith [h.sections.2])
    nlinarith [mul_nonneg h2 h1]
  · intro a ha
    obtain ⟨i, rfl⟩ := List.mem_ofFn.1 ha
    exact div_pos (barLen_pos h.truss.bars (List.getElem_mem i.2)) (mul_pos h.limit (total_pos h))

/-! ### The loop -/

theorem trussLoop_sound (hP : P.Ok) {fuel : ℕ} {eps move : ℝ} (hm : 0 ≤ move) (hm1 : move < 1)
    (left : ℕ) (s : List ℝ) (o : OC) (ho : OCSettings P.elements.length move eps o)
    (hs : s.length = P.elements.length ∧ ∀ a ∈ s, 0 < a ∧ a ≤ 1)
    {r : List TrussPass × Ending} (hr : trussLoop P fuel left s o = r) :
    r.2 ≠ .undefined ∧ r.1.length ≤ left ∧ (r.1 = [] → r.2 = .exhausted) ∧
    (0 < left → r.1.head?.map TrussPass.s = some s) ∧
    (∀ q ∈ r.1, q.s.length = P.elements.length ∧ (∀ a ∈ q.s, 0 < a ∧ a ≤ 1) ∧ q.value.Sound P q.s) ∧
    List.IsChain (List.Forall₂ fun a b => (1 - move) * a ≤ b ∧ b ≤ (1 + move) * a) (r.1.map TrussPass.s) ∧
    (r.2 = .exhausted → r.1.length = left) ∧
    ∀ i (h : i < r.1.length), isConvergence ((o.previousvalue :: r.1.map fun q => q.value.f)[i]?.getD 0) eps r.1[i].value.f
      = true ↔ i + 1 = r.1.length ∧ r.2 = .optimised := by
  have hO := oc_keeps P.elements.length fuel (eps := eps) hm hm1
  induction left generalizing s o r with
  | zero =>
    subst hr
    simp [trussLoop]
  | succ left ih =>
    obtain ⟨b1, b2⟩ := hs
    obtain ⟨e, e1, e2⟩ := evaluateTruss_sound hP b1 fun a ha => ⟨(b2 a ha).1.le, (b2 a ha).2⟩
    unfold trussLoop at hr
    rw [e1] at hr
    dsimp only at hr
    rw [ho.eps] at hr
    obtain ⟨u1, u2⟩ := hO.update o s ⟨ho, b1, b2⟩ e.f e.g e.dfds e.dgds (trussWeight P) (by rw [e2.dcompliance]; simp)
      (by rw [e2.dweight]; simp) e2.dfsign e2.dgsign
    by_cases hc : isConvergence o.previousvalue eps e.f = true
    · rw [if_pos hc] at hr
      subst hr
      refine ⟨by simp, by simp, by simp, by simp, ?_, by simp, by simp, ?_⟩
      · simpa using ⟨b1, b2, e2⟩
      · intro i h
        obtain rfl : i = 0 := by simpa using h
        simpa using hc
    · rw [if_neg hc] at hr
      cases hu : (ocOptimiser fuel).update o s e.f e.dfds e.g e.dgds (trussWeight P) with
      | undefined => exact absurd hu u1
      | running =>
        rw [hu] at hr
        dsimp only at hr
        subst hr
        refine ⟨by simp, by simp, by simp, by simp, ?_, by simp, by simp, ?_⟩
        · simpa using ⟨b1, b2, e2⟩
        · intro i h
          obtain rfl : i = 0 := by simpa using h
          simpa using hc
      | done q =>
        rw [hu] at hr
        dsimp only at hr
        obtain ⟨v1, v2, v3⟩ := u2 q hu
        obtain ⟨i1, i2, i3, i5, i6, i7, i8, i9⟩ := ih q.1 q.2 v1.1 v1.2 rfl
        generalize hR : trussLoop P fuel left q.1 q.2 = R at *
        subst hr
        dsimp only
        refine ⟨i1, by simpa using i2, by simp, by simp, ?_, ?_, fun h => by simpa using i8 h, ?_⟩
        · intro q' hq'
          rcases List.mem_cons.1 hq' with rfl | hq'
          · exact ⟨b1, b2, e2⟩
          · exact i6 q' hq'
        · rw [List.map_cons, List.isChain_cons]
          refine ⟨fun y hy => ?_, i7⟩
          rw [List.head?_map] at hy
          cases left with
          | zero =>
            have : R.1 = [] := List.length_eq_zero_iff.1 (by omega)
            simp [this] at hy
          | succ left =>
            rw [i5 (by omega)] at hy
            obtain rfl := Option.some.inj hy
            exact v3
        · intro i h
          cases i with
          | zero =>
            simp only [List.getElem?_cons_zero, Option.getD_some, List.getElem_cons_zero, List.length_cons]
            refine ⟨fun h => absurd h hc, fun ⟨h, h'⟩ => ?_⟩
            have := i3 (List.length_eq_zero_iff.1 (by omega))
            rw [this] at h'
            exact absurd h' (by simp)
          | succ i =>
            have := i9 i (by simpa using h)
            rw [show OC.previousvalue q.2 = e.f from v2] at this
            simpa using this

/-- The designs of a run come from OC. -/
theorem trussLoop_updates (P : TrussProgram) (fuel left : ℕ) (s : List ℝ) (o : OC) :
    TrussUpdatedBy (fun st q => (ocOptimiser fuel).update st q.s q.value.f q.value.dfds q.value.g q.value.dgds
        (trussWeight P)) o (trussLoop P fuel left s o) ∧
      ∀ q, (trussLoop P fuel left s o).1.head? = some q → q.s = s := by
  induction left generalizing s o with
  | zero => exact ⟨⟨fun _ => o, rfl, by simp [trussLoop], by simp [trussLoop]⟩, by simp [trussLoop]⟩
  | succ left ih =>
    unfold trussLoop
    cases he : evaluateTruss P s with
    | none => exact ⟨⟨fun _ => o, rfl, by simp, by simp⟩, by simp⟩
    | some e =>
      dsimp only
      by_cases hc : isConvergence o.previousvalue o.epsvalue e.f = true
      · rw [if_pos hc]
        exact ⟨⟨fun _ => o, rfl, by simp, by simp⟩, by simp⟩
      · rw [if_neg hc]
        cases hu : (ocOptimiser fuel).update o s e.f e.dfds e.g e.dgds (trussWeight P) with
        | undefined => exact ⟨⟨fun _ => o, rfl, by simp, by simp⟩, by simp⟩
        | running => exact ⟨⟨fun _ => o, rfl, by simp, by simp [hu]⟩, by simp⟩
        | done q =>
          obtain ⟨s', o'⟩ := q
          dsimp only
          obtain ⟨⟨st, st0, i1, i2⟩, i3⟩ := ih s' o'
          generalize trussLoop P fuel left s' o' = R at *
          obtain ⟨l, en⟩ := R
          refine ⟨⟨fun i => if i = 0 then o else st (i - 1), rfl, ?_, ?_⟩, by simp⟩
          · intro i h
            cases i with
            | zero =>
              cases l with
              | nil => simp at h
              | cons q l =>
                have := i3 q (by simp)
                simp [this, hu, st0]
            | succ i => simpa using i1 i (by simpa using h)
          · intro hs
            obtain ⟨q, q1, q2⟩ := i2 hs
            cases l with
            | nil => simp at q1
            | cons q' l => exact ⟨q, by simpa using q1, by simpa using q2⟩

/-- Every run is sound. -/
theorem trussLoop_run (hP : P.Ok) {fuel : ℕ} {eps move : ℝ} (hm : 0 ≤ move) (hm1 : move < 1)
    (he : eps ≤ 1) (left : ℕ) (hl : 0 < left) (o : OC) (ho : OCSettings P.elements.length move eps o)
    (hz : o.previousvalue = 0) :
    SoundTrussRun P eps (fun a => 0 < a ∧ a ≤ 1) (fun a b => (1 - move) * a ≤ b ∧ b ≤ (1 + move) * a) left
      (trussLoop P fuel left (List.replicate P.elements.length 0.5) o) := by
  obtain ⟨i1, i2, i3, i5, i6, i7, i8, i9⟩ := trussLoop_sound hP hm hm1 left
    (List.replicate P.elements.length 0.5) o ho
    ⟨by simp, fun a ha => by rw [List.eq_of_mem_replicate ha]; norm_num⟩ (fuel := fuel) rfl
  generalize trussLoop P fuel left (List.replicate P.elements.length 0.5) o = r at *
  refine ⟨i1, i2, i5 hl, i6, i7, i8, ?_, ?_⟩
  · intro i h
    have := i9 (i + 1) h
    rw [List.getElem?_cons_succ, List.getElem?_map, List.getElem?_eq_getElem (by omega)] at this
    simp only [Option.map_some, Option.getD_some] at this
    rw [← isConvergence_iff, this]
    exact add_pos (i6 _ (List.getElem_mem h)).2.2.objective (i6 _ (List.getElem_mem (by omega))).2.2.objective
  · intro h
    by_contra hc
    have hne : r.1 ≠ [] := fun h' => by rw [i3 h'] at h; exact absurd h (by simp)
    have h0 : 0 < r.1.length := List.length_pos_of_ne_nil hne
    have := (i9 0 h0).2 ⟨by omega, h⟩
    have hf := (i6 _ (List.getElem_mem h0)).2.2.objective
    rw [List.getElem?_cons_zero, Option.getD_some, hz, isConvergence_iff (by simpa using hf)] at this
    unfold Settled at this
    rw [sub_zero, add_zero, abs_of_pos hf] at this
    nlinarith

end

end Pansfem
