/-
Linear analyses with element matrices, nodal loads and supports at rest.
-/
import Verif.Props.C109_Solvable
import Verif.Lemmas.ProgramPost
import Verif.Spec.ProgramSquare


namespace Pansfem

theorem given_zero {N k : ℕ} {bc : List ((ℕ × ℕ) × ℝ)} (h : ∀ p ∈ bc, p.2 = 0) (n d : ℕ) :
    given (zeroField N k) (freeTable N k) bc n d = 0 := by
  unfold given
  split_ifs
  · rfl
  · cases hl : lastValue bc n d with
    | none => rw [Option.none_or]; exact zeroField_val N k n d
    | some v =>
      rw [Option.some_or, Option.getD_some]
      unfold lastValue at hl
      obtain ⟨p, hp, rfl⟩ := Option.map_eq_some_iff.1 hl
      exact h _ (List.mem_reverse.1 (List.mem_of_find?_eq_some hp))

theorem residual_items_zero (items : List (ElemData ℝ)) {v : ℕ → ℕ → ℝ} (hv : ∀ n d, v n d = 0) (n d : ℕ) :
    residual (items.map ElemData.call) v n d = 0 := by
  unfold residual
  apply List.sum_eq_zero
  intro a ha
  simp only [List.map_map, List.mem_map] at ha
  obtain ⟨it, -, rfl⟩ := ha
  apply List.sum_eq_zero
  intro b hb
  obtain ⟨p, -, rfl⟩ := List.mem_map.1 hb
  simp [hv, AsmCall.rhs, ElemData.call]

theorem residual_nodal (loads : List ((ℕ × ℕ) × ℝ)) (v : ℕ → ℕ → ℝ) (n d : ℕ) :
    residual [.nodal loads] v n d = -nodalLoad loads n d := by
  unfold residual nodalLoad
  simp only [List.map_cons, List.map_nil, List.sum_cons, List.sum_nil, add_zero, AsmCall.dofs, AsmCall.mat, zero_mul,
    List.map_map]
  have key : ∀ (l : List ((ℕ × ℕ) × ℝ)) (pre : List ((ℕ × ℕ) × ℝ)),
      ((l.zipIdx pre.length).map fun p => if p.1.1.1 = n ∧ p.1.1.2 = d then
        (0 : ℝ) - AsmCall.rhs (.nodal (pre ++ l)) p.2 else 0).sum =
      -((l.filter fun r => decide (r.1 = (n, d))).map Prod.snd).sum := by
    intro l
    induction l with
    | nil => simp
    | cons r l ih =>
      intro pre
      have := ih (pre ++ [r])
      simp only [List.length_append, List.length_singleton, List.append_assoc, List.singleton_append] at this
      rw [List.zipIdx_cons, List.map_cons, List.sum_cons, this, List.filter_cons]
      by_cases hc : r.1 = (n, d)
      · have h1 : r.1.1 = n ∧ r.1.2 = d := by rw [hc]; exact ⟨rfl, rfl⟩
        simp [hc, AsmCall.rhs]
        ring
      · have h1 : ¬ (r.1.1 = n ∧ r.1.2 = d) := fun h => hc (Prod.ext h.1 h.2)
        simp [hc, h1]
  have := key loads []
  simp only [List.length_nil, List.nil_append] at this
  rw [← this]
  congr 1
  apply List.map_congr_left
  intro p hp
  have e : (loads.zipIdx.map ((fun _ => (0 : ℝ)) ∘ fun p : ((ℕ × ℕ) × ℝ) × ℕ => (p.1.1.1, p.1.1.2, p.2))).sum = 0 :=
    List.sum_eq_zero fun a ha => by
      obtain ⟨_, _, rfl⟩ := List.mem_map.1 ha
      rfl
  simp only [Function.comp_apply] at e ⊢
  rw [show (List.map ((fun q : ℕ × ℕ × ℕ => (0 : ℝ)) ∘ fun p : ((ℕ × ℕ) × ℝ) × ℕ => (p.1.1.1, p.1.1.2, p.2)) loads.zipIdx).sum = 0 from e]

theorem loads_fit {N k : ℕ} {loads : List ((ℕ × ℕ) × ℝ)} (hl : ∀ r ∈ loads, r.1.1 < N ∧ r.1.2 < k) :
    (AsmCall.nodal loads).Fits (freeTable N k) (zeroField N k) := by
  refine ⟨?_, trivial⟩
  intro p hp
  simp only [AsmCall.dofs, List.mem_map] at hp
  obtain ⟨r, hr, rfl⟩ := hp
  obtain ⟨b1, b2⟩ := hl _ (List.fst_mem_of_mem_zipIdx hr)
  exact ⟨by simp only [dofNum_freeTable b1 b2]; rfl, by simp only [nodal_zeroField b1 b2]; rfl⟩

/-- The analysis succeeds if the energy is definite and some free dof is loaded. -/
theorem loaded_succeeds {N k : ℕ} {bc loads : List ((ℕ × ℕ) × ℝ)} {items : List (ElemData ℝ)} {s : LinSolver}
    (hs : s.Finds) (hfit : ∀ it ∈ items, it.call.Fits (freeTable N k) (zeroField N k))
    (hbc : ∀ p ∈ bc, p.1.1 < N ∧ p.1.2 < k) (hb0 : ∀ p ∈ bc, p.2 = 0)
    (hl : ∀ r ∈ loads, r.1.1 < N ∧ r.1.2 < k) (hsym : SymmetricCalls (items.map ElemData.call))
    (hnn : ∀ it ∈ items, ∀ v : ℕ → ℕ → ℝ, 0 ≤ callEnergy it.call v v)
    (hz : ∀ v : ℕ → ℕ → ℝ, (∀ m j, ¬ (m < N ∧ j < k ∧ (m, j) ∉ bc.map Prod.fst) → v m j = 0) →
      energy (items.map ElemData.call) v v = 0 → v = 0)
    (hload : ∃ n < N, ∃ d < k, (n, d) ∉ bc.map Prod.fst ∧ nodalLoad loads n d ≠ 0) (hN : N * k ≤ 100000) :
    ∃ u, staticAnalysis s (zeroField N k) (freeTable N k) bc (items.map ElemData.call ++ [.nodal loads]) = some (u, true) := by
  have hall : ∀ {P : AsmCall ℝ → Prop}, (∀ it ∈ items, P it.call) → P (.nodal loads) →
      ∀ c ∈ items.map ElemData.call ++ [.nodal loads], P c := by
    intro P p1 p2 c hc
    rcases List.mem_append.1 hc with hc | hc
    · obtain ⟨it, hit, rfl⟩ := List.mem_map.1 hc
      exact p1 it hit
    · rw [List.mem_singleton] at hc
      subst hc
      exact p2
  refine program_succeeds hs (hall hfit (loads_fit hl)) hbc ?_ (hall hnn fun v => (nodal_energy loads v v).ge) ?_ ?_ hN
  · exact hall (P := fun c => ∀ p ∈ c.dofs, ∀ q ∈ c.dofs, c.mat p.2.2 q.2.2 = c.mat q.2.2 p.2.2)
      (fun it hit => hsym _ (List.mem_map_of_mem hit)) (fun p _ q _ => rfl)
  · intro v hv h0 m j
    have := hz v hv (by
      rw [energy_eq]
      apply List.sum_eq_zero
      intro a ha
      obtain ⟨c, hc, rfl⟩ := List.mem_map.1 ha
      exact h0 c (List.mem_append_left _ hc))
    rw [this]; rfl
  · obtain ⟨n, hn, d, hd, hf, hne⟩ := hload
    refine ⟨(n, d), ?_, ?_⟩
    · refine List.mem_filter.2 ⟨?_, decide_eq_true (free_table.2 ⟨hn, hd, hf⟩)⟩
      simp only [allDofs, freeTable, List.mem_flatMap, List.mem_range, List.mem_map, List.length_replicate]
      exact ⟨n, hn, d, by simp [hn, hd], rfl⟩
    · rw [residual_append, residual_items_zero _ (given_zero hb0), residual_nodal, zero_add]
      exact neg_ne_zero.2 hne

/-- An analysis returns a field with the same nodes and dofs. -/
theorem analysis_shaped {s : LinSolver} {u₀ u : List (Vec ℝ)} {t₀ t : List (List ℤ)} {bc : List ((ℕ × ℕ) × ℝ)}
    {calls : List (AsmCall ℝ)} {conv : Bool} (h₀ : Shaped u₀ t) (h : staticAnalysis s u₀ t₀ bc calls = some (u, conv)) :
    Shaped u t := by
  unfold staticAnalysis at h
  simp only [Option.bind_eq_bind, Option.bind_eq_some_iff] at h
  obtain ⟨⟨v, t₁⟩, h1, h2⟩ := h
  unfold solveStep at h2
  simp only [Option.bind_eq_bind, Option.bind_eq_some_iff] at h2
  obtain ⟨_, _, _, _, ⟨y, b⟩, _, w, hw, he⟩ := h2
  obtain ⟨rfl, rfl⟩ := Prod.mk.inj (Option.some.inj he)
  have l1 := (C21_setDirichlet _ _ _ _ _ h1).2.1
  have l2 := (C25_disassembling _ _ _ _ hw).1
  refine ⟨by rw [l2, l1, h₀.1], fun n d => ?_⟩
  rw [← h₀.2 n d]
  have e1 := setDirichlet_same h1 n d
  have e2 := disassembling_same hw n d
  rw [← e2, ← e1]

end Pansfem
