/-
The optimisers of the density programs: they are never undefined and keep the designs in their boxes.
-/
import Verif.Lemmas.ProgramOptimize

noncomputable section

namespace Pansfem

theorem sized_eq {n : ℕ} {l : List ℝ} (h : l.length = n) :
    sized n l = some fun i : Fin n => l[(i : ℕ)]'(by have := i.2; omega) := by rw [sized, dif_pos h]

theorem forall₂_ofFn {n : ℕ} {l : List ℝ} (h : l.length = n) {R : ℝ → ℝ → Prop} {f : Fin n → ℝ}
    (hR : ∀ i : Fin n, R (l[(i : ℕ)]'(by have := i.2; omega)) (f i)) : List.Forall₂ R l (List.ofFn f) := by
  rw [List.forall₂_iff_get]
  refine ⟨by simp [h], fun i h1 h2 => ?_⟩
  simp only [List.get_eq_getElem, List.getElem_ofFn]
  exact hR ⟨i, by omega⟩

/-- Parameters and box of the optimisers MMA of the density programs. -/
structure MMASettings {n : ℕ} (lo move eps : ℝ) (o : MMA n 1) : Prop where
  xmin : ∀ j, o.xmin j = lo
  xmax : ∀ j, o.xmax j = 1
  albefa : o.albefa = 0.1
  raa0 : 0 ≤ o.raa0
  d : ∀ i, 0 ≤ o.d i
  move : o.move = move
  eps : o.epsvalue = eps

theorem mma_keeps (n fuel : ℕ) {lo move eps : ℝ} (h0 : 0 ≤ lo) (h1 : lo < 1) (hm : 0 < move) :
    (mmaOptimiser n fuel).Keeps n eps (fun a => lo ≤ a ∧ a ≤ 1) (fun a b => |b - a| < move * (1 - lo))
      (fun o s => MMASettings lo move eps (n := n) o ∧ s.length = n ∧ ∀ a ∈ s, lo ≤ a ∧ a ≤ 1) where
  box01 a h := ⟨h0.trans h.1, h.2⟩
  eps o s h := h.1.eps
  box o s h := h.2
  update := by
    rintro o s ⟨ho, hs, hb⟩ f g df dg weight hdf hdg - -
    have hok : MMAOk o fun i : Fin n => s[(i : ℕ)]'(by have := i.2; omega) := by
      refine ⟨fun j => ?_, fun j => ?_, fun j => ?_, ?_, ?_, ?_⟩
      · rw [ho.xmin, ho.xmax]; exact h1
      · rw [ho.xmin]; exact (hb _ (List.getElem_mem _)).1
      · rw [ho.xmax]; exact (hb _ (List.getElem_mem _)).2
      · rw [ho.albefa]; norm_num
      · rw [ho.albefa]; norm_num
      · rw [ho.move]; exact hm
    simp only [mmaOptimiser, sized_eq hs, sized_eq hdf, sized_eq hdg]
    have hu := C83_mma hok (by rw [ho.albefa]; norm_num) ho.raa0 ho.d fuel f
      (fun i => df[(i : ℕ)]'(by have := i.2; omega)) (fun _ => g) fun _ i => dg[(i : ℕ)]'(by have := i.2; omega)
    cases hq : mmaUpdate o fuel (fun i : Fin n => s[(i : ℕ)]'(by have := i.2; omega)) f
      (fun i => df[(i : ℕ)]'(by have := i.2; omega)) (fun _ => g)
      fun _ i => dg[(i : ℕ)]'(by have := i.2; omega) with
    | undefined => exact absurd hq hu
    | running => exact ⟨by simp, fun r hr => by simp at hr⟩
    | done q =>
      refine ⟨by simp, fun r hr => ?_⟩
      obtain rfl := Run.done.inj hr
      have hc := C48_mma hok hq
      obtain ⟨P, st, -, -, -, e⟩ := mmaUpdate_done hq
      refine ⟨⟨?_, by simp, ?_⟩, ?_, ?_⟩
      · dsimp only
        rw [e]
        exact ⟨ho.xmin, ho.xmax, ho.albefa, ho.raa0, ho.d, ho.move, ho.eps⟩
      · intro a ha
        obtain ⟨i, rfl⟩ := List.mem_ofFn.1 ha
        have := (hc i).1
        rw [ho.xmin, ho.xmax] at this
        exact ⟨this.1.le, this.2.le⟩
      · show q.2.previousvalue = f
        rw [e]
      · refine forall₂_ofFn hs fun i => ?_
        have := (hc i).2.1
        rw [ho.xmin, ho.xmax, ho.move] at this
        exact this

/-- Parameters and box of the optimiser CONLIN of the density programs. -/
structure CONLINSettings {n : ℕ} (lo move eps : ℝ) (o : CONLIN n 1) : Prop where
  xmin : ∀ j, o.xmin j = lo
  xmax : ∀ j, o.xmax j = 1
  d : ∀ i, 0 ≤ o.d i
  move : o.move = move
  eps : o.epsvalue = eps

theorem conlin_keeps (n fuel : ℕ) {lo move eps : ℝ} (h0 : 0 < lo) (h1 : lo < 1) (hm : 0 < move) :
    (conlinOptimiser n fuel).Keeps n eps (fun a => lo ≤ a ∧ a ≤ 1) (fun a b => |b - a| < move * (1 - lo))
      (fun o s => CONLINSettings lo move eps (n := n) o ∧ s.length = n ∧ ∀ a ∈ s, lo ≤ a ∧ a ≤ 1) where
  box01 a h := ⟨h0.le.trans h.1, h.2⟩
  eps o s h := h.1.eps
  box o s h := h.2
  update := by
    rintro o s ⟨ho, hs, hb⟩ f g df dg weight hdf hdg - -
    have hok : CONLINOk o fun i : Fin n => s[(i : ℕ)]'(by have := i.2; omega) := by
      refine ⟨fun j => ?_, fun j => ?_, fun j => ?_, ?_⟩
      · rw [ho.xmin, ho.xmax]; exact h1
      · rw [ho.xmin]; exact (hb _ (List.getElem_mem _)).1
      · rw [ho.xmax]; exact (hb _ (List.getElem_mem _)).2
      · rw [ho.move]; exact hm
    simp only [conlinOptimiser, sized_eq hs, sized_eq hdf, sized_eq hdg]
    have hu := C83_conlin hok (fun j => by rw [ho.xmin]; exact h0) ho.d fuel f
      (fun i => df[(i : ℕ)]'(by have := i.2; omega)) (fun _ => g) fun _ i => dg[(i : ℕ)]'(by have := i.2; omega)
    cases hq : conlinUpdate o fuel (fun i : Fin n => s[(i : ℕ)]'(by have := i.2; omega)) f
      (fun i => df[(i : ℕ)]'(by have := i.2; omega)) (fun _ => g)
      fun _ i => dg[(i : ℕ)]'(by have := i.2; omega) with
    | undefined => exact absurd hq hu
    | running => exact ⟨by simp, fun r hr => by simp at hr⟩
    | done q =>
      refine ⟨by simp, fun r hr => ?_⟩
      obtain rfl := Run.done.inj hr
      have hc := C51_conlin hok hq
      obtain ⟨P, st, -, -, -, e⟩ := conlinUpdate_done hq
      refine ⟨⟨?_, by simp, ?_⟩, ?_, ?_⟩
      · dsimp only
        rw [e]
        exact ⟨ho.xmin, ho.xmax, ho.d, ho.move, ho.eps⟩
      · intro a ha
        obtain ⟨i, rfl⟩ := List.mem_ofFn.1 ha
        have := (hc i).1
        rw [ho.xmin, ho.xmax] at this
        exact ⟨this.1.le, this.2.le⟩
      · show q.2.previousvalue = f
        rw [e]
      · refine forall₂_ofFn hs fun i => ?_
        have := (hc i).2
        rw [ho.xmin, ho.xmax, ho.move] at this
        exact this

/-! ### OC -/

/-- The bisection is defined from every interval that starts at zero or above and ends above zero. -/
theorem ocLoop_defined' {o : OC} {x dfdx dgdx : List ℝ} {g : ℕ → List ℝ → ℝ} (h : TrialOk o x dfdx dgdx) {fuel : ℕ}
    {st : OCState} (h0 : 0 ≤ st.lambda0) (h1 : 0 < st.lambda1) :
    ocLoop o x dfdx dgdx g fuel st ≠ .undefined := by
  induction fuel generalizing st with
  | zero =>
    have hd : div? (st.lambda1 - st.lambda0) (st.lambda1 + st.lambda0)
        = some ((st.lambda1 - st.lambda0) / (st.lambda1 + st.lambda0)) :=
      div?_eq_some.2 ⟨by linarith, rfl⟩
    rw [ocLoop_eq, hd]
    simp only
    split_ifs <;> exact fun h => nomatch h
  | succ fuel ih =>
    have hd : div? (st.lambda1 - st.lambda0) (st.lambda1 + st.lambda0)
        = some ((st.lambda1 - st.lambda0) / (st.lambda1 + st.lambda0)) :=
      div?_eq_some.2 ⟨by linarith, rfl⟩
    rw [ocLoop_eq, hd]
    simp only
    split_ifs
    · cases hb : ocBody o x dfdx dgdx g st with
      | none =>
        have e : (0.5 : ℝ) * (st.lambda1 + st.lambda0) = (st.lambda0 + st.lambda1) / 2 := by ring
        obtain ⟨t, ht⟩ := ocTrial_defined h (lambda := (st.lambda0 + st.lambda1) / 2) (by linarith)
        rw [ocBody, e, ht] at hb
        simp at hb
      | some st' =>
        dsimp only
        obtain ⟨t, _, _, ⟨_, e0, e1⟩ | ⟨_, e0, e1⟩⟩ := ocBody_eq hb
        · exact ih (by rw [e0]; linarith) (by rw [e1]; linarith)
        · exact ih (by rw [e0]; linarith) (by rw [e1]; linarith)
    · exact fun h => nomatch h

/-- Parameters of the optimiser OC of the density programs. -/
structure OCSettings (n : ℕ) (move eps : ℝ) (o : OC) : Prop where
  n : o.n = n
  iota : 0 ≤ o.iota
  lambdamin : o.lambdamin = 0
  lambdamax : 0 < o.lambdamax
  lambdaeps : o.lambdaeps < 1
  move : o.movelimit = move
  eps : o.epsvalue = eps

theorem oc_keeps (n fuel : ℕ) {move eps : ℝ} (hm : 0 ≤ move) (h1 : move < 1) :
    (ocOptimiser fuel).Keeps n eps (fun a => 0 < a ∧ a ≤ 1) (fun a b => (1 - move) * a ≤ b ∧ b ≤ (1 + move) * a)
      (fun o s => OCSettings n move eps o ∧ s.length = n ∧ ∀ a ∈ s, 0 < a ∧ a ≤ 1) where
  box01 a h := ⟨h.1.le, h.2⟩
  eps o s h := h.1.eps
  box o s h := h.2
  update := by
    rintro o s ⟨ho, hs, hb⟩ f g df dg weight hdf hdg h2 h3
    change OC at o
    have hT : TrialOk o s df dg := ⟨ho.iota, by rw [ho.n]; exact ⟨hs, hdf, hdg⟩, h2, h3⟩
    show ocUpdate o fuel s f df g dg (fun _ y => (weight y).getD 0) ≠ .undefined ∧
      ∀ r, ocUpdate o fuel s f df g dg (fun _ y => (weight y).getD 0) = .done r → _
    have hL := ocLoop_defined' (g := fun _ y => (weight y).getD 0) hT (fuel := fuel) (st := ocStart o)
      ho.lambdamin.ge ho.lambdamax
    constructor
    · unfold ocUpdate
      cases hl : ocLoop o s df dg (fun _ y => (weight y).getD 0) fuel (ocStart o) with
      | undefined => exact absurd hl hL
      | running => simp
      | done st => simp
    · intro r hr
      have hw := C46_move_partial (by rw [ho.move]; exact hm) (fun v hv => ⟨(hb v hv).1.le, (hb v hv).2⟩)
        (by rw [ho.lambdamin, sub_zero, add_zero, div_self ho.lambdamax.ne']; exact ho.lambdaeps) hr
      have hp : r.2 = { o with previousvalue := f } := by
        unfold ocUpdate at hr
        cases hl : ocLoop o s df dg (fun _ y => (weight y).getD 0) fuel (ocStart o) with
        | undefined => rw [hl] at hr; exact nomatch hr
        | running => rw [hl] at hr; exact nomatch hr
        | done st =>
          rw [hl] at hr
          rw [← Run.done.inj hr]
      obtain ⟨w1, w2⟩ := hw
      rw [ho.n] at w1 w2
      rw [ho.move] at w2
      refine ⟨⟨?_, w1, ?_⟩, ?_, ?_⟩
      · rw [hp]
        exact ⟨ho.n, ho.iota, ho.lambdamin, ho.lambdamax, ho.lambdaeps, ho.move, ho.eps⟩
      · intro a ha
        obtain ⟨i, hi, rfl⟩ := List.getElem_of_mem ha
        obtain ⟨xi, yi, c1, c2, c3, -, -, c6⟩ := w2 i (by omega)
        rw [List.getElem?_eq_getElem hi, Option.some.injEq] at c2
        rw [c2]
        exact ⟨(mul_pos (by linarith) (hb xi (List.mem_of_getElem? c1)).1).trans_le c3, c6⟩
      · show r.2.previousvalue = f
        rw [hp]
      · rw [List.forall₂_iff_get]
        refine ⟨by omega, fun i h1 h2 => ?_⟩
        obtain ⟨xi, yi, c1, c2, c3, c4, -⟩ := w2 i (by omega)
        rw [List.getElem?_eq_getElem h1, Option.some.injEq] at c1
        rw [List.getElem?_eq_getElem h2, Option.some.injEq] at c2
        simp only [List.get_eq_getElem]
        rw [c1, c2]
        exact ⟨c3, c4⟩

end Pansfem
