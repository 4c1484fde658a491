/-
C145: the passes of the two programs that use OC.
-/
import Verif.Props.C145_OCOptimal
import Verif.Props.C123_Optimisation
import Verif.Props.C126_Truss
import Verif.Props.C47_Zero

namespace Pansfem

noncomputable section

open Finset

/-- `UpdateVariables` changes nothing but the previous value. -/
theorem ocUpdate_object {o : OC} {fuel : ℕ} {x df dg : List ℝ} {f g0 : ℝ} {g : ℕ → List ℝ → ℝ} {r : List ℝ × OC}
    (h : ocUpdate o fuel x f df g0 dg g = .done r) : r.2 = { o with previousvalue := f } := by
  rw [ocUpdate] at h
  cases hl : ocLoop o x df dg g fuel (ocStart o) with
  | undefined => simp [hl] at h
  | running => simp [hl] at h
  | done fin =>
    simp only [hl] at h
    injection h with h
    rw [← h]

/-- The objects of a run differ in the previous value only. -/
theorem states_same {o : OC} {st : ℕ → OC} {N : ℕ} (h0 : st 0 = o)
    (hstep : ∀ i, i + 1 < N → ∃ f, st (i + 1) = { st i with previousvalue := f }) {i : ℕ} (hi : i < N) :
    ∃ f, st i = { o with previousvalue := f } := by
  induction i with
  | zero => exact ⟨o.previousvalue, by rw [h0]⟩
  | succ i ih =>
    obtain ⟨f, e⟩ := ih (by omega)
    obtain ⟨f', e'⟩ := hstep i hi
    exact ⟨f', by rw [e', e]⟩

/-- What a pass makes of a design: for the derivatives `df` and `dg` at `x` the new design `y` is the best one within a move
limit of 15 per cent, for the reciprocal approximation, among those with no larger linear part of the constraint. -/
def BestMove (n : ℕ) (lambdamax : ℝ) (x df dg y : List ℝ) : Prop :=
  WithinMove n 0.15 x y ∧ ∃ lambda, 0 < lambda ∧ lambda ≤ lambdamax ∧ ∀ z, WithinMove n 0.15 x z →
    reciprocalCost n df x y ≤ reciprocalCost n df x z + lambda * (linearPart n dg z - linearPart n dg y) ∧
    (linearPart n dg z ≤ linearPart n dg y → reciprocalCost n df x y ≤ reciprocalCost n df x z)

theorem oc_bestMove {n fuel : ℕ} {L v : ℝ} {lo hi x df dg : List ℝ} {f g0 : ℝ} {g : ℕ → List ℝ → ℝ} {r : List ℝ × OC}
    (hL : 0 < L) (hx : ∀ a ∈ x, 0 < a ∧ a ≤ 1) (hdf : ∀ a ∈ df, a ≤ 0) (hdg : ∀ a ∈ dg, 0 < a)
    (h : ocUpdate { OC.mk' n 0.5 0 L 1.0e-3 0.15 lo hi with previousvalue := v } fuel x f df g0 dg g = .done r) :
    BestMove n L x df dg r.1 := by
  have hd : OCData { OC.mk' n 0.5 0 L 1.0e-3 0.15 lo hi with previousvalue := v } x df dg :=
    ⟨hx, hdf, hdg, by norm_num [OC.mk'], by norm_num [OC.mk']⟩
  obtain ⟨k1, l, k2, -, k3, k4⟩ := C145_update hd (by norm_num [OC.mk']) le_rfl hL.le hL
    (by simp only [OC.mk', sub_zero, add_zero, div_self hL.ne']; norm_num) h
  refine ⟨k1, l, k2, k3, fun z hz => k4 z hz fun i hi' => ?_⟩
  obtain ⟨a, b, h1, h2, h3, -⟩ := hz.2 i hi'
  rw [entry_of h2]
  have := (hx a (List.mem_of_getElem? h1)).1
  norm_num at h3
  linarith

/-- **C145 (densities)**: in every run of the density program with OC, every design is the best move from the one before,
for the filtered derivatives of compliance and weight at it. -/
theorem C145_density {P : DensityProgram} (h : P.Ok) (fuel : ℕ) {i : ℕ} (hi : i + 1 < (runOC P fuel).1.length) :
    BestMove P.elements.length 1.0e4 (runOC P fuel).1[i].s (runOC P fuel).1[i].value.dfds
      (runOC P fuel).1[i].value.dgds (runOC P fuel).1[i + 1].s := by
  obtain ⟨hrun, st, h0, h1, -⟩ := C123_oc h fuel
  obtain ⟨v, hv⟩ := states_same h0 (N := (runOC P fuel).1.length)
    (fun j hj => ⟨_, ocUpdate_object (h1 j hj)⟩) (i := i) (by omega)
  have hu := h1 i hi
  rw [hv] at hu
  obtain ⟨d1, d2, d3⟩ := hrun.design _ (List.getElem_mem (by omega : i < (runOC P fuel).1.length))
  exact oc_bestMove (by norm_num) d2 d3.dfsign d3.dgsign hu

theorem linearPart_truss {P : TrussProgram} {c : ℝ} {dg : List ℝ}
    (hdg : dg = List.ofFn fun i : Fin P.elements.length => P.len i / c) (z : List ℝ) :
    linearPart P.elements.length dg z = (∑ i : Fin P.elements.length, z[(i : ℕ)]?.getD 0 * P.len i) / c := by
  rw [linearPart, ← Fin.sum_univ_eq_sum_range (fun i => entry dg i * entry z i), Finset.sum_div]
  refine sum_congr rfl fun i _ => ?_
  rw [hdg]
  simp only [entry, List.getD_eq_getElem?_getD]
  rw [List.getElem?_ofFn, dif_pos i.2]
  simp only [Option.getD_some]
  ring

/-- **C145 (truss)**: in every run of the size optimisation of a truss every design is the best move from the one before:
no design that changes the variables by at most 15 per cent, keeps them at most 1 and has no larger weight has a smaller
value of the sum of `E (A1 - A0) e ^ 2 / l * x ^ 2 / y` over the bars, with the stretches `e` of the design before. -/
theorem C145_truss {P : TrussProgram} (h : P.Ok) (fuel : ℕ) {i : ℕ} (hi : i + 1 < (runTruss P fuel).1.length) :
    BestMove P.elements.length 1.0e3 (runTruss P fuel).1[i].s (runTruss P fuel).1[i].value.dfds
      (runTruss P fuel).1[i].value.dgds (runTruss P fuel).1[i + 1].s ∧
    ∀ z, WithinMove P.elements.length 0.15 (runTruss P fuel).1[i].s z →
      ∑ k : Fin P.elements.length, z[(k : ℕ)]?.getD 0 * P.len k ≤
        ∑ k : Fin P.elements.length, (runTruss P fuel).1[i + 1].s[(k : ℕ)]?.getD 0 * P.len k →
      ∑ k : Fin P.elements.length, P.E * (P.A1 - P.A0) * P.stretch (runTruss P fuel).1[i].value.u k ^ 2 / P.len k *
          (runTruss P fuel).1[i].s[(k : ℕ)]?.getD 0 ^ 2 / (runTruss P fuel).1[i + 1].s[(k : ℕ)]?.getD 0 ≤
        ∑ k : Fin P.elements.length, P.E * (P.A1 - P.A0) * P.stretch (runTruss P fuel).1[i].value.u k ^ 2 / P.len k *
          (runTruss P fuel).1[i].s[(k : ℕ)]?.getD 0 ^ 2 / z[(k : ℕ)]?.getD 0 := by
  obtain ⟨hrun, st, h0, h1, -⟩ := C126_run h fuel
  obtain ⟨v, hv⟩ := states_same h0 (N := (runTruss P fuel).1.length)
    (fun j hj => ⟨_, ocUpdate_object (h1 j hj)⟩) (i := i) (by omega)
  have hu := h1 i hi
  rw [hv] at hu
  obtain ⟨d1, d2, d3⟩ := hrun.design _ (List.getElem_mem (by omega : i < (runTruss P fuel).1.length))
  have hb := oc_bestMove (by norm_num) d2 d3.dfsign d3.dgsign hu
  refine ⟨hb, fun z hz hw => ?_⟩
  obtain ⟨-, l, -, -, hbest⟩ := hb
  have k := (hbest z hz).2
  rw [linearPart_truss d3.dweight, linearPart_truss d3.dweight] at k
  have hc : ∀ y : List ℝ, reciprocalCost P.elements.length (runTruss P fuel).1[i].value.dfds (runTruss P fuel).1[i].s y =
      P.scale0 * ∑ k : Fin P.elements.length, P.E * (P.A1 - P.A0) *
        P.stretch (runTruss P fuel).1[i].value.u k ^ 2 / P.len k * (runTruss P fuel).1[i].s[(k : ℕ)]?.getD 0 ^ 2 /
          y[(k : ℕ)]?.getD 0 := by
    intro y
    rw [reciprocalCost, ← Fin.sum_univ_eq_sum_range (fun j => -entry (runTruss P fuel).1[i].value.dfds j *
      entry (runTruss P fuel).1[i].s j ^ 2 / entry y j), Finset.mul_sum]
    refine sum_congr rfl fun j _ => ?_
    rw [d3.dcompliance]
    simp only [entry, List.getD_eq_getElem?_getD]
    rw [List.getElem?_ofFn, dif_pos j.2]
    simp only [Option.getD_some]
    ring
  rw [hc, hc] at k
  have hpos : 0 ≤ P.weightlimit * ∑ j, P.len j := by
    have hlim := h.limit
    have : 0 ≤ ∑ j, P.len j := Finset.sum_nonneg fun j _ => Real.sqrt_nonneg _
    positivity
  exact le_of_mul_le_mul_left (k (div_le_div_of_nonneg_right hw hpos)) h.scale

theorem trussLoop_nonempty {P : TrussProgram} {fuel left : ℕ} {s : List ℝ} {o : OC}
    (h : (trussLoop P fuel (left + 1) s o).2 ≠ .undefined) : 1 ≤ (trussLoop P fuel (left + 1) s o).1.length := by
  unfold trussLoop at h ⊢
  cases he : evaluateTruss P s with
  | none => rw [he] at h; exact absurd rfl h
  | some e =>
    simp only
    split_ifs
    · simp
    · split <;> simp

/-- **C145 (second pass)**: if all bars carry a force in the first design and the limit of the weight is less than `0.575` of
that of the full sections, OC returns from the first pass, and the run of the size optimisation goes on to a second one. -/
theorem C145_second {P : TrussProgram} (h : P.Ok) {e : TrussEvaluation}
    (he : evaluateTruss P (List.replicate P.elements.length 0.5) = some e) (hneg : ∀ v ∈ e.dfds, v < 0)
    (hlim : P.weightlimit < 0.575) : ∃ N, ∀ fuel, N ≤ fuel → 2 ≤ (runTruss P fuel).1.length := by
  have hs : ∀ a ∈ List.replicate P.elements.length (0.5 : ℝ), 0 ≤ a ∧ a ≤ 1 := fun a ha => by
    rw [List.eq_of_mem_replicate ha]; norm_num
  obtain ⟨e', he', hS⟩ := evaluateTruss_sound h (s := List.replicate P.elements.length 0.5) (by simp) hs
  rw [he, Option.some.injEq] at he'
  subst he'
  set o := OC.mk' P.elements.length 0.5 0 1.0e3 1.0e-3 0.15 (List.replicate P.elements.length 0.01)
      (List.replicate P.elements.length 1) with ho
  have hT : TrialOk o (List.replicate P.elements.length 0.5) e.dfds e.dgds :=
    ⟨by norm_num [ho, OC.mk'], ⟨by simp [ho, OC.mk'], by rw [hS.dcompliance]; simp [ho, OC.mk'],
      by rw [hS.dweight]; simp [ho, OC.mk']⟩, hS.dfsign, hS.dgsign⟩
  obtain ⟨N, hN⟩ := C47_raised (g := fun _ y => (trussWeight P y).getD 0) hT (by norm_num [ho, OC.mk'])
    (by norm_num [ho, OC.mk']) hs hneg rfl (by norm_num [ho, OC.mk']) (by norm_num [ho, OC.mk']) (fun _ => by
      rw [trussWeight_eq h (by simp), Option.getD_some]
      have hm : min 1 ((1 + o.movelimit) * 0.5) = (0.575 : ℝ) := by norm_num [ho, OC.mk']
      have hsum : ∑ i : Fin P.elements.length, ((List.replicate P.elements.length (0.5 : ℝ)).map
          fun v => min 1 ((1 + o.movelimit) * v))[(i : ℕ)]?.getD 0 * P.len i = 0.575 * ∑ i, P.len i := by
        rw [Finset.mul_sum]
        refine sum_congr rfl fun i _ => ?_
        rw [List.map_replicate, List.getElem?_replicate, if_pos i.2, Option.getD_some, hm]
      rw [hsum]
      have ht := total_pos h
      have hl := h.limit
      have : 1 < 0.575 * (∑ i, P.len i) / (P.weightlimit * ∑ i, P.len i) := by
        rw [mul_div_mul_right _ _ ht.ne', lt_div_iff₀ hl]
        linarith
      linarith) e.f e.g
  refine ⟨N, fun fuel hf => ?_⟩
  obtain ⟨r, hr⟩ := hN fuel hf
  have hdef := (C126_run h fuel).1.defined
  have hc : isConvergence o.previousvalue o.epsvalue e.f = false := by
    have hd : div? |e.f - 0| (e.f + 0) = some 1 := by
      rw [sub_zero, add_zero, abs_of_pos hS.objective]
      exact div?_eq_some.2 ⟨hS.objective.ne', (div_self hS.objective.ne').symm⟩
    show (match div? |e.f - 0| (e.f + 0) with
      | some q => decide (q < o.epsvalue)
      | none => false) = false
    rw [hd]
    norm_num [ho, OC.mk']
  have hr' : (ocOptimiser fuel).update o (List.replicate P.elements.length 0.5) e.f e.dfds e.g e.dgds (trussWeight P) =
      .done r := hr
  have hrun : runTruss P fuel = (⟨List.replicate P.elements.length 0.5, e⟩ :: (trussLoop P fuel 49 r.1 r.2).1,
      (trussLoop P fuel 49 r.1 r.2).2) := by
    unfold runTruss
    rw [← ho]
    rw [show (50 : ℕ) = 49 + 1 from rfl, trussLoop.eq_def]
    simp only [he, hc]
    rw [if_neg (by simp)]
    simp only [hr']
  rw [hrun] at hdef ⊢
  have := trussLoop_nonempty (left := 48) hdef
  rw [List.length_cons]
  exact Nat.succ_le_succ this

/-! ### Example: a bar that is pulled -/

/-- A bar from the origin to `(1, 0)`, which can only move along the bar and is pulled with a force 1. -/
def pulledBar : TrussProgram where
  x := [⟨[0, 0]⟩, ⟨[1, 0]⟩]
  elements := [[0, 1]]
  ufixed := [((0, 0), 0), ((0, 1), 0), ((1, 1), 0)]
  qfixed := [((1, 0), 1)]
  l := [1]
  lsum := 1
  E := 1
  A0 := 1
  A1 := 2
  weightlimit := 0.5
  scale0 := 1

theorem pulledBar_len : barLen pulledBar.x [0, 1] = 1 := by
  norm_num [barLen, barSpan, coord, nodal, pulledBar, Vec.at?, Vec.size]

theorem pulledBar_ok : pulledBar.Ok := by
  refine ⟨⟨?_, ?_, ?_, ?_, ?_, ?_, ?_⟩, ?_, ?_, ?_, ?_, ?_, ?_⟩
  · intro e he
    have he : e = [0, 1] := by simpa [pulledBar] using he
    subst he
    refine ⟨?_, 0, 1, rfl, Or.inl ?_⟩
    · intro n hn
      have hn : n = 0 ∨ n = 1 := by simpa using hn
      rcases hn with rfl | rfl
      · exact ⟨rfl, rfl⟩
      · exact ⟨rfl, rfl⟩
    · norm_num [coord, nodal, pulledBar, Vec.at?, Vec.size]
  · intro v hv he
    have k := he [0, 1] (by simp [pulledBar])
    rw [elongation, pulledBar_len] at k
    norm_num [barSpan, coord, nodal, pulledBar, Vec.at?, Vec.size] at k
    have z : v 0 0 = 0 := hv 0 0 (by simp [pulledBar])
    funext m j
    by_cases hm : m = 1 ∧ j = 0
    · obtain ⟨rfl, rfl⟩ := hm
      simp only [Pi.zero_apply]
      linarith
    · refine hv m j ?_
      simp only [pulledBar, List.length_cons, List.length_nil, List.map_cons, List.map_nil, List.mem_cons, Prod.mk.injEq,
        List.not_mem_nil, or_false]
      omega
  · intro r hr
    simp only [pulledBar, List.mem_cons, List.not_mem_nil, or_false] at hr
    rcases hr with rfl | rfl | rfl <;> norm_num [pulledBar]
  · intro r hr
    simp only [pulledBar, List.mem_cons, List.not_mem_nil, or_false] at hr
    rcases hr with rfl | rfl | rfl <;> rfl
  · intro r hr
    simp only [pulledBar, List.mem_cons, List.not_mem_nil, or_false] at hr
    subst hr
    norm_num [pulledBar]
  · exact ⟨1, by norm_num [pulledBar], 0, by norm_num, by simp [pulledBar], by simp [nodalLoad, pulledBar]⟩
  · norm_num [pulledBar]
  · have := pulledBar_len
    simp only [pulledBar] at this ⊢
    simp [this]
  · simp [pulledBar]
  · norm_num [pulledBar]
  · norm_num [pulledBar]
  · norm_num [pulledBar]
  · norm_num [pulledBar]

-- the run has a second pass, and its design is the best move from the first one
example : ∃ fuel, ∃ h : 0 + 1 < (runTruss pulledBar fuel).1.length,
    BestMove 1 1.0e3 (runTruss pulledBar fuel).1[0].s (runTruss pulledBar fuel).1[0].value.dfds
      (runTruss pulledBar fuel).1[0].value.dgds (runTruss pulledBar fuel).1[1].s := by
  obtain ⟨e, he, hS⟩ := C126_evaluation pulledBar_ok (s := List.replicate pulledBar.elements.length 0.5)
    ⟨by simp, fun a ha => by rw [List.eq_of_mem_replicate ha]; norm_num⟩
  have hn : pulledBar.elements.length = 1 := rfl
  obtain ⟨N, hN⟩ := C145_second pulledBar_ok he (by
    intro v hv
    rw [hS.dcompliance, List.mem_ofFn] at hv
    obtain ⟨i, rfl⟩ := hv
    have hi : i = (0 : Fin 1) := Subsingleton.elim (α := Fin 1) i 0
    subst hi
    have hlen : pulledBar.len (0 : Fin 1) = 1 := pulledBar_len
    have hne : pulledBar.stretch e.u (0 : Fin 1) ≠ 0 := by
      intro hz
      have hf := hS.objective
      rw [hS.compliance] at hf
      have : ∑ i : Fin pulledBar.elements.length, axialForce pulledBar.E (pulledBar.area
          (List.replicate pulledBar.elements.length 0.5) i) pulledBar.x pulledBar.elements[i] (valOf e.u) *
          pulledBar.stretch e.u i = 0 := by
        refine Finset.sum_eq_zero fun i _ => ?_
        have hi : i = (0 : Fin 1) := Subsingleton.elim (α := Fin 1) i 0
        rw [hi, hz, mul_zero]
      rw [this, mul_zero] at hf
      exact lt_irrefl _ hf
    have := pow_pos (abs_pos.2 hne) 2
    rw [sq_abs] at this
    rw [hlen]
    norm_num [pulledBar] at this ⊢
    exact this) (by norm_num [pulledBar])
  have h2 := hN N le_rfl
  exact ⟨N, by omega, (C145_truss pulledBar_ok N (i := 0) (by omega)).1⟩

end

end Pansfem
