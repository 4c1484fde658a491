/-
C113: the Newton passes, and the loop over the boundary values of the flow program.
-/
import Verif.Props.C113_Newton
import Verif.Lemmas.ProgramNewtonSolve

namespace Pansfem

section
variable {s : LinSolver} {own : Bool} {test : ℝ → Option Bool} {loop : List (Vec ℝ) → Option (List (AsmCall ℝ))}
  {z w u : List (Vec ℝ)} {t t₁ : List (List ℤ)} {bc : List ((ℕ × ℕ) × ℝ)} {calls : List (AsmCall ℝ)}

/-- The residual is affine. -/
theorem residual_affine {K : Type} [Field K] (calls : List (AsmCall K)) (a b : ℕ → ℕ → K) (n d : ℕ) :
    residual calls (fun n d => a n d + b n d) n d + residual calls (fun _ _ => 0) n d =
      residual calls a n d + residual calls b n d := by
  unfold residual
  rw [← List.sum_map_add, ← List.sum_map_add]
  refine congrArg List.sum (List.map_congr_left fun c _ => ?_)
  rw [← List.sum_map_add, ← List.sum_map_add]
  refine congrArg List.sum (List.map_congr_left fun p _ => ?_)
  split_ifs
  · have : (c.dofs.map fun q => c.mat p.2.2 q.2.2 * (a q.1 q.2.1 + b q.1 q.2.1)).sum =
        (c.dofs.map fun q => c.mat p.2.2 q.2.2 * a q.1 q.2.1).sum +
          (c.dofs.map fun q => c.mat p.2.2 q.2.2 * b q.1 q.2.1).sum := by
      rw [← List.sum_map_add]
      exact congrArg List.sum (List.map_congr_left fun q _ => mul_add _ _ _)
    rw [this]
    simp
    ring
  · simp

theorem passBase_zero (h : own = true → ∀ n d, ¬ IsFree t bc (n, d) → valOf u n d = 0) :
    passBase own t bc (valOf u) = fun _ _ => 0 := by
  funext n d
  unfold passBase held
  cases own with
  | false => rfl
  | true =>
    by_cases hf : IsFree t bc (n, d)
    · simp [hf]
    · simp [hf, h rfl n d hf]

/-- **C113**: a pass.  If `Assembling` is given the increment, or all dofs that are not free have the value zero, the
test is applied to the square of the norm of the out-of-balance forces; if it fails, the values of the free dofs change by
an increment `v`, and the solver reports convergence exactly if the linearised out-of-balance forces `K v - R` are
below `1e-10` times the out-of-balance forces. -/
theorem C113_pass (hs : s.Certifies) (hset : setDirichlet z t bc = some (w, t₁)) (hu : SameDofs z u)
    (hl : loop u = some calls) (hfit : ∀ c ∈ calls, c.Fits t z) (hz : ∀ n d, valOf z n d = 0)
    (h0 : own = true → ∀ n d, ¬ IsFree t bc (n, d) → valOf u n d = 0) {r : Option (List (Vec ℝ) × Bool)}
    (h : newtonIter s own test loop (renumbering t₁).1 (renumbering t₁).2 z u = some r) :
    (r = none ∧ test (outNorm t bc calls ^ 2) = some true) ∨
    ∃ u' conv, r = some (u', conv) ∧ test (outNorm t bc calls ^ 2) = some false ∧ SameDofs z u' ∧
      (∀ n d, ¬ IsFree t bc (n, d) → nodal u' n d = nodal u n d) ∧
      (conv = true ↔ dofNorm (freeDofs t bc) (residual calls fun n d => valOf u' n d - valOf u n d)
        < 1 / 10 ^ 10 * outNorm t bc calls) := by
  have hb := passBase_zero (t := t) (bc := bc) h0
  have hp : passNorm own t bc calls (valOf u) = outNorm t bc calls := by
    unfold passNorm outNorm
    rw [hb]
    exact dofNorm_congr fun p _ => by rw [residual_zero, neg_sq]
  have := newtonIter_spec hs hset hu hl hfit hz h
  rw [hp, hb] at this
  simpa only [zero_add] using this

/-- **C113**: if the element vectors are those of a linear problem, `Fe = -(Ke u - F)`, a pass whose solver reports
convergence reduces the out-of-balance forces below `1e-10` times what they were. -/
theorem C113_linear (hs : s.Certifies) (hset : setDirichlet z t bc = some (w, t₁)) (hu : SameDofs z u)
    (hl : loop u = some calls) (hfit : ∀ c ∈ calls, c.Fits t z) (hz : ∀ n d, valOf z n d = 0)
    (h0 : own = true → ∀ n d, ¬ IsFree t bc (n, d) → valOf u n d = 0) (calls₀ : List (AsmCall ℝ))
    (hlin : ∀ u calls, loop u = some calls → ∀ n d, loadAt calls n d = - residual calls₀ (valOf u) n d)
    (hmat : ∀ u calls, loop u = some calls → ∀ v n d, residual calls v n d + loadAt calls n d =
      residual calls₀ v n d + loadAt calls₀ n d) {u' : List (Vec ℝ)}
    (h : newtonIter s own test loop (renumbering t₁).1 (renumbering t₁).2 z u = some (some (u', true)))
    (calls' : List (AsmCall ℝ)) (hl' : loop u' = some calls') :
    outNorm t bc calls' < 1 / 10 ^ 10 * outNorm t bc calls := by
  rcases C113_pass hs hset hu hl hfit hz h0 h with ⟨h1, -⟩ | ⟨v, conv, h1, -, -, -, h2⟩
  · simp at h1
  · obtain ⟨rfl, rfl⟩ := Prod.mk.inj (Option.some.inj h1)
    have h3 := h2.1 rfl
    have h4 : outNorm t bc calls' = dofNorm (freeDofs t bc) (residual calls fun n d => valOf u' n d - valOf u n d) := by
      refine dofNorm_congr fun p _ => ?_
      have e1 := hlin u' calls' hl' p.1 p.2
      have e2 := hlin u calls hl p.1 p.2
      have e3 := hmat u calls hl (fun n d => valOf u' n d - valOf u n d) p.1 p.2
      have e4 := residual_affine calls₀ (valOf u) (fun n d => valOf u' n d - valOf u n d) p.1 p.2
      have e5 : (fun n d => valOf u n d + (valOf u' n d - valOf u n d)) = valOf u' := by
        funext n d; ring
      rw [e5, residual_zero] at e4
      rw [show loadAt calls' p.1 p.2 = - residual calls (fun n d => valOf u' n d - valOf u n d) p.1 p.2 by linarith,
        neg_sq]
    rw [h4]
    exact h3

/-- **C113**: a pass solves its system if the tangent is symmetric and positive on the fields that vanish at the dofs
that are not free, the test fails and the forces are not in balance. -/
theorem C113_solves (hs : s.Finds) (hset : setDirichlet z t bc = some (w, t₁)) (hu : SameDofs z u)
    (hlen : u.length = z.length) (hl : loop u = some calls) (hfit : ∀ c ∈ calls, c.Fits t z)
    (hz : ∀ n d, valOf z n d = 0) (h0 : own = true → ∀ n d, ¬ IsFree t bc (n, d) → valOf u n d = 0)
    (hfree : ∀ p ∈ freeDofs t bc, (nodal z p.1 p.2).isSome) (hsym : SymmetricCalls calls)
    (hpos : ∀ v : ℕ → ℕ → ℝ, (∀ n d, ¬ IsFree t bc (n, d) → v n d = 0) → (∃ n d, v n d ≠ 0) → 0 < energy calls v v)
    (ht : test (outNorm t bc calls ^ 2) = some false) (hne : outNorm t bc calls ≠ 0)
    (hn : (freeDofs t bc).length ≤ 100000) :
    ∃ u', newtonIter s own test loop (renumbering t₁).1 (renumbering t₁).2 z u = some (some (u', true)) ∧
      u'.length = z.length := by
  have hp : passNorm own t bc calls (valOf u) = outNorm t bc calls := by
    unfold passNorm outNorm
    rw [passBase_zero h0]
    exact dofNorm_congr fun p _ => by rw [residual_zero, neg_sq]
  exact newtonIter_finds hs hset hu hlen hl hfit hz hfree hsym hpos (by rw [hp]; exact ht) (by rw [hp]; exact hne) hn

/-- **C113**: for a linear problem with a symmetric positive definite matrix two passes are enough, if the square of
`1e-10` times the out-of-balance forces passes the test. -/
theorem C113_two_passes (hs : s.Finds) (hs' : s.Certifies) (hset : setDirichlet z t bc = some (w, t₁))
    (hu : SameDofs z u) (hlen : u.length = z.length) (hl : loop u = some calls) (hfit : LoopFits loop t z)
    (htot : ∀ u, SameDofs z u → ∃ calls, loop u = some calls) (hz : ∀ n d, valOf z n d = 0)
    (h0 : own = true → ∀ n d, ¬ IsFree t bc (n, d) → valOf u n d = 0)
    (hfree : ∀ p ∈ freeDofs t bc, (nodal z p.1 p.2).isSome) (hsym : SymmetricCalls calls)
    (hpos : ∀ v : ℕ → ℕ → ℝ, (∀ n d, ¬ IsFree t bc (n, d) → v n d = 0) → (∃ n d, v n d ≠ 0) → 0 < energy calls v v)
    (hn : (freeDofs t bc).length ≤ 100000) (calls₀ : List (AsmCall ℝ))
    (hlin : ∀ u calls, loop u = some calls → ∀ n d, loadAt calls n d = - residual calls₀ (valOf u) n d)
    (hmat : ∀ u calls, loop u = some calls → ∀ v n d, residual calls v n d + loadAt calls n d =
      residual calls₀ v n d + loadAt calls₀ n d)
    {τ : ℝ} (htest : ∀ r, test r = some (decide (r < τ))) (hτ : 0 < τ)
    (hout : (1 / 10 ^ 10 * outNorm t bc calls) ^ 2 ≤ τ) (k : ℕ) :
    ∃ u', newtonLoop s own test loop (renumbering t₁).1 (renumbering t₁).2 z (k + 2) u = some (u', true) := by
  have hp : ∀ u calls, loop u = some calls → (own = true → ∀ n d, ¬ IsFree t bc (n, d) → valOf u n d = 0) →
      passNorm own t bc calls (valOf u) = outNorm t bc calls := by
    intro u calls _ h
    unfold passNorm outNorm
    rw [passBase_zero h]
    exact dofNorm_congr fun p _ => by rw [residual_zero, neg_sq]
  by_cases ht : outNorm t bc calls ^ 2 < τ
  · refine ⟨u, ?_⟩
    have h1 := newtonIter_left (s := s) (own := own) (test := test) hset hu hl (hfit u calls hu hl) hz
      (by rw [hp u calls hl h0, htest, decide_eq_true ht])
    simp only [newtonLoop, h1, Option.bind_eq_bind, Option.bind_some]
    rfl
  · have hne : outNorm t bc calls ≠ 0 := by
      intro h
      rw [h] at ht
      exact ht (by simpa using hτ)
    obtain ⟨u', h1, -⟩ := C113_solves (own := own) (test := test) hs hset hu hlen hl (hfit u calls hu hl) hz h0 hfree hsym
      hpos (by rw [htest, decide_eq_false ht]) hne hn
    rcases C113_pass hs' hset hu hl (hfit u calls hu hl) hz h0 h1 with ⟨h2, -⟩ | ⟨v, conv, h2, -, h3, h4, -⟩
    · simp at h2
    · obtain ⟨rfl, rfl⟩ := Prod.mk.inj (Option.some.inj h2)
      obtain ⟨calls', hl'⟩ := htot u' h3
      have h5 := C113_linear hs' hset hu hl (hfit u calls hu hl) hz h0 calls₀ hlin hmat h1 calls' hl'
      have h0' : own = true → ∀ n d, ¬ IsFree t bc (n, d) → valOf u' n d = 0 := fun ho n d hnf => by
        rw [← h0 ho n d hnf]
        exact congrArg (fun o => o.getD 0) (h4 n d hnf)
      have hnn : 0 ≤ outNorm t bc calls' := Real.sqrt_nonneg _
      have h6 := newtonIter_left (s := s) (own := own) (test := test) hset h3 hl' (hfit u' calls' h3 hl') hz
        (by
          rw [hp u' calls' hl' h0', htest, decide_eq_true]
          exact lt_of_lt_of_le (by nlinarith) hout)
      refine ⟨u', ?_⟩
      simp only [newtonLoop, h1, h6, Option.bind_eq_bind, Option.bind_some]
      rfl

/-! ### Boundary values in steps -/

theorem dofNum_inj {t t' : List (List ℤ)} (hlen : t'.map List.length = t.map List.length)
    (h : ∀ n d, dofNum t' n d = dofNum t n d) : t' = t := by
  have h1 : t'.length = t.length := by simpa using congrArg List.length hlen
  refine List.ext_getElem h1 fun n hn hn' => ?_
  have h2 : t'[n].length = t[n].length := by
    have := congrArg (fun l => l[n]?) hlen
    simpa [hn, hn'] using this
  refine List.ext_getElem h2 fun d hd hd' => ?_
  have h3 := h n d
  unfold dofNum at h3
  simpa [hn, hn', hd, hd'] using h3

theorem scaleValues_keys (c : ℝ) (bc : List ((ℕ × ℕ) × ℝ)) : (scaleValues c bc).map Prod.fst = bc.map Prod.fst := by
  simp [scaleValues]

theorem isFree_scale (c : ℝ) (p : ℕ × ℕ) : IsFree t (scaleValues c bc) p ↔ IsFree t bc p := by
  unfold IsFree
  rw [scaleValues_keys]

theorem freeDofs_scale (c : ℝ) : freeDofs t (scaleValues c bc) = freeDofs t bc := by
  unfold freeDofs
  refine List.filter_congr fun p _ => ?_
  simp only [isFree_scale]

theorem lastValue_scale (c : ℝ) (bc : List ((ℕ × ℕ) × ℝ)) (n d : ℕ) :
    lastValue (scaleValues c bc) n d = (lastValue bc n d).map (· * c) := by
  unfold lastValue scaleValues
  rw [← List.map_reverse, List.find?_map, Option.map_map, Option.map_map]
  rfl

/-- Setting boundary values at dofs that are marked already does not change the table. -/
theorem setDirichlet_marked {u w : List (Vec ℝ)} {t t' : List (List ℤ)} {bc : List ((ℕ × ℕ) × ℝ)}
    (h : setDirichlet u t bc = some (w, t')) (hm : ∀ p ∈ bc.map Prod.fst, numOf t p.1 p.2 = -1) : t' = t := by
  obtain ⟨h1, -, h3⟩ := C21_setDirichlet u w t t' bc h
  refine dofNum_inj h1 fun n d => ?_
  rw [(h3 n d).1]
  split_ifs with hk
  · have h4 := hm _ hk
    have h5 : (dofNum t' n d).isSome := by rw [(h3 n d).1, if_pos hk]; rfl
    rw [isSome_of_lengths h1] at h5
    obtain ⟨g, hg⟩ := Option.isSome_iff_exists.1 h5
    simp only [numOf, hg, Option.getD_some] at h4
    rw [hg, h4]
  · rfl

/-- **C113**: the steps of the boundary values.  If every Newton loop is left through `break`, the result has the
boundary values of the last step, and the square of the norm of the out-of-balance forces at the free dofs is below
`1e-10`. -/
theorem C113_boundarySteps (hs : s.Certifies) {c₀ : ℝ} (hset : setDirichlet z t (scaleValues c₀ bc) = some (w, t₁))
    (hfit : LoopFits loop t z)
    (hz : ∀ n d, valOf z n d = 0) (itr : ℕ) : ∀ (incs : List ℝ) (u u' : List (Vec ℝ)) (left : Bool), SameDofs z u →
    boundarySteps s loop bc (renumbering t₁).2 z itr incs (renumbering t₁).1 u = some (u', left) →
    SameDofs z u' ∧ ∀ c, incs.getLast? = some c →
    (∀ n d, ¬ IsFree t bc (n, d) → nodal u' n d = ((lastValue bc n d).map (· * c)).or (nodal u n d)) ∧
    (left = true → ∃ calls, loop u' = some calls ∧ outNorm t bc calls ^ 2 < 1 / 10 ^ 10) := by
  intro incs
  induction incs with
  | nil =>
    intro u u' left hu h
    simp only [boundarySteps, Option.some.injEq, Prod.mk.injEq] at h
    obtain ⟨rfl, rfl⟩ := h
    exact ⟨hu, by simp⟩
  | cons c incs ih =>
    intro u u' left hu h
    simp only [boundarySteps, Option.bind_eq_bind, Option.bind_eq_some_iff, Option.pure_def, Option.some.injEq,
      Prod.mk.injEq, Prod.exists] at h
    obtain ⟨v, t', hv, v', b, hl, y, b', hy, rfl, rfl⟩ := h
    have ht : t' = (renumbering t₁).1 := by
      refine setDirichlet_marked hv fun p hp => ?_
      by_contra hne
      rw [scaleValues_keys] at hp
      exact ((isFree_scale _ _).1 ((numOf_renumbered hset p.1 p.2).1 hne)).2 hp
    subst ht
    have hsv : SameDofs z v := fun n d => (hu n d).trans (setDirichlet_same hv n d)
    obtain ⟨a1, a2, a3⟩ := C113_loop hs hset hfit hz itr v v' b hsv hl
    simp only [isFree_scale] at a2
    obtain ⟨b1, b2⟩ := ih v' y b' a1 hy
    have hset' : ∀ n d, nodal v n d = ((lastValue bc n d).map (· * c)).or (nodal u n d) := fun n d => by
      rw [((C21_setDirichlet _ _ _ _ _ hv).2.2 n d).2, lastValue_scale]
    refine ⟨b1, fun c' hc' => ?_⟩
    cases incs with
    | nil =>
      simp only [boundarySteps, Option.some.injEq, Prod.mk.injEq] at hy
      obtain ⟨rfl, rfl⟩ := hy
      simp only [List.getLast?_singleton, Option.some.injEq] at hc'
      subst hc'
      refine ⟨fun n d hn => (a2 n d hn).trans (hset' n d), fun hb => ?_⟩
      rw [Bool.and_true] at hb
      obtain ⟨calls, h1, h2⟩ := a3 hb
      refine ⟨calls, h1, ?_⟩
      rw [show passNorm false t (scaleValues c₀ bc) calls (valOf v') = outNorm t bc calls by
        unfold passNorm outNorm
        rw [freeDofs_scale]
        exact dofNorm_congr fun p _ => by
          show residual calls (fun _ _ => 0) p.1 p.2 ^ 2 = _
          rw [residual_zero, neg_sq]] at h2
      simpa [plainTest] using h2
    | cons c₂ incs =>
      obtain ⟨d1, d2⟩ := b2 c' (by simpa using hc')
      refine ⟨fun n d hn => ?_, fun hb => d2 (by simp_all)⟩
      rw [d1 n d hn, a2 n d hn, hset' n d]
      cases lastValue bc n d <;> rfl

theorem boundaryFactors_last {n : ℕ} (h : 2 ≤ n) : (boundaryFactors n).getLast? = some 1 := by
  obtain ⟨m, rfl⟩ := Nat.exists_eq_add_of_le' h
  have : ((m : ℝ) + 2) ≠ 0 := by positivity
  simp [boundaryFactors, List.range_succ, this]

/-- **C113**: the flow program.  If all Newton loops are left through `break`, the result has the prescribed values and
the square of the norm of the out-of-balance forces at the free dofs is below `1e-10`. -/
theorem C113_boundary (first : LinSolver) (hs : s.Certifies) (calls₀ : List (AsmCall ℝ)) (hfit : LoopFits loop t z)
    (hz : ∀ n d, valOf z n d = 0) (kmax itr : ℕ) (hk : 2 ≤ kmax) {u : List (Vec ℝ)} {left : Bool}
    (h : boundaryAnalysis first s calls₀ loop z t bc kmax itr = some (u, left)) :
    (∀ p ∈ bc, nodal u p.1.1 p.1.2 = lastValue bc p.1.1 p.1.2) ∧
    (left = true → ∃ calls, loop u = some calls ∧ outNorm t bc calls ^ 2 < 1 / 10 ^ 10) := by
  unfold boundaryAnalysis at h
  simp only [Option.bind_eq_bind, Option.bind_eq_some_iff, Prod.exists] at h
  obtain ⟨w, t₁, hset, v, b, hv, h⟩ := h
  have hsv : SameDofs z v := by
    have h1 := setDirichlet_same hset
    unfold solveStep at hv
    simp only [Option.bind_eq_bind, Option.bind_eq_some_iff, Prod.exists, Option.pure_def, Option.some.injEq,
      Prod.mk.injEq] at hv
    obtain ⟨A, F, -, m, s', -, x, c, -, v', hd, rfl, -⟩ := hv
    exact fun n d => (h1 n d).trans (disassembling_same hd n d)
  have hinc : boundarySteps s loop bc (renumbering t₁).2 z itr (boundaryFactors kmax) (renumbering t₁).1 v =
      some (u, left) := h
  obtain ⟨-, h2⟩ := C113_boundarySteps hs hset hfit hz itr _ v u left hsv hinc
  obtain ⟨a1, a2⟩ := h2 1 (boundaryFactors_last hk)
  refine ⟨fun p hp => ?_, a2⟩
  rw [a1 p.1.1 p.1.2 fun hf => hf.2 (List.mem_map.2 ⟨p, hp, rfl⟩)]
  cases hl : lastValue bc p.1.1 p.1.2 with
  | none =>
    exfalso
    unfold lastValue at hl
    rw [Option.map_eq_none_iff, List.find?_eq_none] at hl
    exact hl p (List.mem_reverse.2 hp) (by simp)
  | some y => simp

end

/-! ### Springs -/

section
variable {N : ℕ} {springs : List (ℕ × ℕ)}

theorem springLoop_linear (q : List ((ℕ × ℕ) × ℝ)) (u : List (Vec ℝ)) (n d : ℕ) :
    loadAt (springCalls springs u ++ [.nodal q]) n d =
      - residual (springCalls springs (zeroField N 1) ++ [.nodal q]) (valOf u) n d := by
  rw [loadAt_append, residual_append]
  have h1 : residual [.nodal q] (valOf u) n d = - loadAt [.nodal q] n d := by
    rw [← residual_zero]
    simp [residual, AsmCall.mat]
  have h2 : loadAt (springCalls springs u) n d = - residual (springCalls springs (zeroField N 1)) (valOf u) n d := by
    unfold loadAt residual springCalls
    rw [← list_sum_neg, List.map_map, List.map_map]
    refine congrArg List.sum (List.map_congr_left fun e _ => ?_)
    simp [AsmCall.dofs, AsmCall.rhs, localDofs, valOf_zeroField, Vec.at?, Vec.size, AsmCall.mat, Mat.at?]
    split_ifs <;> ring
  rw [h1, h2]
  ring

theorem springLoop_matrix (q : List ((ℕ × ℕ) × ℝ)) (u : List (Vec ℝ)) (v : ℕ → ℕ → ℝ) (n d : ℕ) :
    residual (springCalls springs u ++ [.nodal q]) v n d + loadAt (springCalls springs u ++ [.nodal q]) n d =
      residual (springCalls springs (zeroField N 1) ++ [.nodal q]) v n d +
        loadAt (springCalls springs (zeroField N 1) ++ [.nodal q]) n d := by
  rw [residual_append, residual_append, loadAt_append, loadAt_append]
  have : residual (springCalls springs u) v n d + loadAt (springCalls springs u) n d =
      residual (springCalls springs (zeroField N 1)) v n d + loadAt (springCalls springs (zeroField N 1)) n d := by
    unfold loadAt residual springCalls
    rw [List.map_map, List.map_map, List.map_map, List.map_map, ← List.sum_map_add, ← List.sum_map_add]
    refine congrArg List.sum (List.map_congr_left fun e _ => ?_)
    simp [AsmCall.dofs, AsmCall.rhs, localDofs, valOf_zeroField, Vec.at?, Vec.size, AsmCall.mat, Mat.at?]
    split_ifs <;> ring
  linarith

theorem springLoop_symm (q : List ((ℕ × ℕ) × ℝ)) (u : List (Vec ℝ)) :
    SymmetricCalls (springCalls springs u ++ [.nodal q]) := by
  intro c hc
  rcases List.mem_append.1 hc with h | h
  · obtain ⟨e, -, rfl⟩ := List.mem_map.1 h
    simp [AsmCall.dofs, localDofs, AsmCall.mat, Mat.at?]
  · rw [List.mem_singleton.1 h]
    simp [AsmCall.mat]

theorem springLoop_energy (q : List ((ℕ × ℕ) × ℝ)) (u : List (Vec ℝ)) (v : ℕ → ℕ → ℝ) :
    energy (springCalls springs u ++ [.nodal q]) v v = (springs.map fun e => (v e.2 0 - v e.1 0) ^ 2).sum := by
  unfold energy springCalls
  rw [List.map_append, List.sum_append, List.map_map]
  have h1 : ([AsmCall.nodal q].map fun c => (c.dofs.map fun p => v p.1 p.2.1 *
    (c.dofs.map fun q => c.mat p.2.2 q.2.2 * v q.1 q.2.1).sum).sum).sum = 0 := by
    simp [AsmCall.mat]
  rw [h1, add_zero]
  refine congrArg List.sum (List.map_congr_left fun e _ => ?_)
  simp [AsmCall.dofs, localDofs, AsmCall.mat, Mat.at?]
  ring

end

/-- A spring with load one: the analysis succeeds and every Newton loop is left through `break`. -/
theorem spring_analysis : ∃ u, loadAnalysis useCG (springLoop [(0, 1)]) (zeroField 2 1) (freeTable 2 1) [((0, 0), 0)]
    [((1, 0), 1)] 1 2 = some (u, true) := by
  have hset : setDirichlet (zeroField 2 1) (freeTable 2 1) [((0, 0), 0)] = some (zeroField 2 1, [[-1], [0]]) := rfl
  have hfree : freeDofs (freeTable 2 1) [((0, 0), (0 : ℝ))] = [(1, 0)] := rfl
  have hload : loadNorm [((1, 0), (1 : ℝ))] = 1 := by simp [loadNorm]
  have hq : NodalFits [((1, 0), (1 : ℝ))] (freeTable 2 1) (zeroField 2 1) := by
    intro p hp
    rw [List.mem_singleton.1 hp]
    simp [dofNum, nodal, freeTable, zeroField, Vec.at?, Vec.size]
  have hfit := loaded_fits (springLoop_fits (springs := [(0, 1)]) (N := 2) (by simp)) hq 1
  rw [scaleValues_one] at hfit
  have hl : loaded (springLoop [(0, 1)]) [((1, 0), (1 : ℝ))] (zeroField 2 1) =
    some (springCalls [(0, 1)] (zeroField 2 1) ++ [.nodal [((1, 0), 1)]]) := rfl
  have hout : outNorm (freeTable 2 1) [((0, 0), 0)] (springCalls [(0, 1)] (zeroField 2 1) ++ [.nodal [((1, 0), 1)]])
      = 1 := by
    unfold outNorm dofNorm
    rw [hfree]
    simp [loadAt, AsmCall.dofs, AsmCall.rhs, localDofs, valOf_zeroField, Vec.at?, Vec.size, springCalls]
  obtain ⟨u, h1⟩ := C113_two_passes (own := true) (test := loadTest [((1, 0), 1)]) (τ := 1 / 10 ^ 10) useCG_finds
    useCG_certifies hset (fun _ _ => rfl) rfl hl hfit (fun _ _ => ⟨_, rfl⟩) (valOf_zeroField 2 1)
    (fun _ n d _ => valOf_zeroField 2 1 n d) (by rw [hfree]; simp [nodal, zeroField, Vec.at?, Vec.size])
    (springLoop_symm _ _)
    (by
      intro v hv ⟨n, d, hne⟩
      have hf : IsFree (freeTable 2 1) [((0, 0), (0 : ℝ))] (n, d) := by
        by_contra h; exact hne (hv n d h)
      have h10 : (n, d) ∈ freeDofs (freeTable 2 1) [((0, 0), (0 : ℝ))] :=
        List.mem_filter.2 ⟨mem_allDofs (by rw [dofNum_of_numOf hf.1]; rfl), decide_eq_true hf⟩
      rw [hfree, List.mem_singleton] at h10
      obtain ⟨rfl, rfl⟩ := Prod.mk.inj h10
      have h00 : v 0 0 = 0 := hv 0 0 (by simp [IsFree])
      rw [springLoop_energy]
      simp only [List.map_cons, List.map_nil, List.sum_cons, List.sum_nil, h00, sub_zero, add_zero]
      positivity) (by rw [hfree]; simp) (springCalls [(0, 1)] (zeroField 2 1) ++ [.nodal [((1, 0), 1)]])
    (fun u calls hc => by
      obtain rfl := Option.some.inj hc
      exact springLoop_linear _ u)
    (fun u calls hc => by
      obtain rfl := Option.some.inj hc
      exact springLoop_matrix _ u)
    (fun r => by
      rw [loadTest_eq, hload, div_one, decide_eq_true_iff]
      exact ⟨one_ne_zero, Iff.rfl⟩) (by norm_num) (by rw [hout]; norm_num) 0
  refine ⟨u, ?_⟩
  have h3 : loadFactors 1 = [1] := by simp [loadFactors]
  unfold loadAnalysis
  simp only [hset, Option.bind_eq_bind, Option.bind_some, h3]
  have h4 : loadSteps useCG (springLoop [(0, 1)]) [((1, 0), 1)] (renumbering [[-1], [0]]).1
      (renumbering [[-1], [0]]).2 (zeroField 2 1) 2 [1] (zeroField 2 1) =
      (newtonLoop useCG true (loadTest (scaleValues 1 [((1, 0), 1)]))
        (loaded (springLoop [(0, 1)]) (scaleValues 1 [((1, 0), 1)])) (renumbering [[-1], [0]]).1
        (renumbering [[-1], [0]]).2 (zeroField 2 1) 2 (zeroField 2 1)).bind fun r => some (r.1, r.2 && true) := rfl
  rw [h4, scaleValues_one, h1]
  rfl

/-- The end of the spring is displaced by one up to `1e-5`. -/
example : ∃ u, loadAnalysis useCG (springLoop [(0, 1)]) (zeroField 2 1) (freeTable 2 1) [((0, 0), 0)]
    [((1, 0), 1)] 1 2 = some (u, true) ∧ nodal u 0 0 = some 0 ∧ |valOf u 1 0 - 1| < 1 / 10 ^ 5 := by
  obtain ⟨u, hu⟩ := spring_analysis
  have hq : NodalFits [((1, 0), (1 : ℝ))] (freeTable 2 1) (zeroField 2 1) := by
    intro p hp
    rw [List.mem_singleton.1 hp]
    simp [dofNum, nodal, freeTable, zeroField, Vec.at?, Vec.size]
  obtain ⟨h1, calls, h2, -, -, h3⟩ := C113_analysis_partial useCG_certifies
    (springLoop_fits (springs := [(0, 1)]) (N := 2) (by simp)) (valOf_zeroField 2 1) _ hq 1 2 one_ne_zero u hu
  have h4 := h1 0 0 (by simp [IsFree])
  refine ⟨u, hu, h4, ?_⟩
  have h5 := h3 (by simp)
  obtain rfl := Option.some.inj h2
  have hload : loadNorm [((1, 0), (1 : ℝ))] = 1 := by simp [loadNorm]
  have h00 : valOf u 0 0 = 0 := by
    show (nodal u 0 0).getD 0 = 0
    rw [h4]
    rfl
  rw [hload, outNorm, dofNorm_sq, show freeDofs (freeTable 2 1) [((0, 0), (0 : ℝ))] = [(1, 0)] from rfl] at h5
  simp [loadAt, AsmCall.dofs, AsmCall.rhs, localDofs, Vec.at?, Vec.size, h00] at h5
  rw [abs_lt]
  constructor <;> nlinarith

/-- Two springs, the first end held, the second displaced by one in two steps, with a load at the node between: the
program succeeds, both ends have their values and the node between is where it belongs up to `1e-5`. -/
example : ∃ u, boundaryAnalysis useCG useCG
    (springCalls [(0, 1), (1, 2)] (zeroField 3 1) ++ [.nodal [((1, 0), 1)]])
    (loaded (springLoop [(0, 1), (1, 2)]) [((1, 0), 1)]) (zeroField 3 1) (freeTable 3 1) [((0, 0), 0), ((2, 0), 1)] 2 2
      = some (u, true) ∧ nodal u 0 0 = some 0 ∧ nodal u 2 0 = some 1 ∧ |valOf u 1 0 - 1| < 1 / 10 ^ 5 := by
  set bc : List ((ℕ × ℕ) × ℝ) := [((0, 0), 0), ((2, 0), 1)] with hbc
  set bc₂ := scaleValues (1 / ((2 : ℕ) : ℝ)) bc with hbc₂
  set calls := springCalls [(0, 1), (1, 2)] (zeroField 3 1) ++ [.nodal [((1, 0), (1 : ℝ))]] with hcalls
  have hfree : freeDofs (freeTable 3 1) bc = [(1, 0)] := rfl
  have hfree₂ : freeDofs (freeTable 3 1) bc₂ = [(1, 0)] := by rw [hbc₂, freeDofs_scale, hfree]
  have hq : NodalFits [((1, 0), (1 : ℝ))] (freeTable 3 1) (zeroField 3 1) := by
    intro p hp
    rw [List.mem_singleton.1 hp]
    simp [dofNum, nodal, freeTable, zeroField, Vec.at?, Vec.size]
  have hfit := loaded_fits (springLoop_fits (springs := [(0, 1), (1, 2)]) (N := 3) (by simp)) hq 1
  rw [scaleValues_one] at hfit
  have hfits := hfit (zeroField 3 1) calls (fun _ _ => rfl) rfl
  have hpos : ∀ (u : List (Vec ℝ)) (v : ℕ → ℕ → ℝ), (∀ n d, ¬ IsFree (freeTable 3 1) bc₂ (n, d) → v n d = 0) →
      (∃ n d, v n d ≠ 0) → 0 < energy (springCalls [(0, 1), (1, 2)] u ++ [.nodal [((1, 0), (1 : ℝ))]]) v v := by
    intro u v hv ⟨n, d, hne⟩
    have hf : IsFree (freeTable 3 1) bc₂ (n, d) := by
      by_contra h; exact hne (hv n d h)
    have h10 : (n, d) ∈ freeDofs (freeTable 3 1) bc₂ :=
      List.mem_filter.2 ⟨mem_allDofs (by rw [dofNum_of_numOf hf.1]; rfl), decide_eq_true hf⟩
    rw [hfree₂, List.mem_singleton] at h10
    obtain ⟨rfl, rfl⟩ := Prod.mk.inj h10
    have h00 : v 0 0 = 0 := hv 0 0 (by rw [hbc₂, isFree_scale]; simp [IsFree, hbc])
    have h20 : v 2 0 = 0 := hv 2 0 (by rw [hbc₂, isFree_scale]; simp [IsFree, hbc])
    rw [springLoop_energy]
    simp only [List.map_cons, List.map_nil, List.sum_cons, List.sum_nil, h00, h20, sub_zero, add_zero]
    positivity
  have hgiven : ∀ n d, given (zeroField 3 1) (freeTable 3 1) bc₂ n d = if n = 2 ∧ d = 0 then 1 / 2 else 0 := by
    intro n d
    unfold given
    rw [hbc₂]
    simp only [isFree_scale, lastValue_scale]
    have hz : (nodal (zeroField 3 1) n d).getD 0 = (0 : ℝ) := valOf_zeroField 3 1 n d
    by_cases h2 : n = 2 ∧ d = 0
    · obtain ⟨rfl, rfl⟩ := h2
      simp [IsFree, hbc, lastValue]
    · by_cases h0 : n = 0 ∧ d = 0
      · obtain ⟨rfl, rfl⟩ := h0
        simp [IsFree, hbc, lastValue]
      · have hl : lastValue bc n d = none := by
          simp only [lastValue, hbc]
          simp
          exact ⟨fun h h' => h2 ⟨h.symm, h'.symm⟩, fun h h' => h0 ⟨h.symm, h'.symm⟩⟩
        simp [hl, hz, h2]
  have hres : ∀ x : ℕ → ℕ → ℝ, residual calls x 1 0 = 2 * x 1 0 - x 0 0 - x 2 0 - 1 := by
    intro x
    simp [residual, hcalls, AsmCall.dofs, AsmCall.rhs, localDofs, valOf_zeroField, Vec.at?, Vec.size, springCalls,
      AsmCall.mat, Mat.at?]
    ring
  have habs : ∀ f : ℕ → ℕ → ℝ, dofNorm [(1, 0)] f = |f 1 0| := by
    intro f
    simp [dofNorm, Real.sqrt_sq_eq_abs]
  obtain ⟨v, hv⟩ := C108_succeeds useCG useCG_finds (zeroField 3 1) (freeTable 3 1) bc₂ calls hfits
    (by simp [hbc₂, hbc, scaleValues, dofNum, nodal, freeTable, zeroField, Vec.at?, Vec.size])
    (by rw [hfree₂]; simp [nodal, zeroField, Vec.at?, Vec.size]) (springLoop_symm _ _) (hpos _)
    ⟨(1, 0), by rw [hfree₂]; simp, by
      rw [hres, hgiven, hgiven, hgiven]
      norm_num⟩ (by rw [hfree₂]; simp)
  obtain ⟨a1, -, a2⟩ := C108_result useCG useCG_certifies _ v _ bc₂ calls true hfits hv
  have a3 := a2.1 rfl
  rw [hfree₂, habs, habs, hres, hres, hgiven, hgiven, hgiven] at a3
  have v0 : valOf v 0 0 = 0 := by
    show (nodal v 0 0).getD 0 = 0
    rw [a1 0 0 0 (by rw [hbc₂, lastValue_scale]; simp [hbc, lastValue])]
    rfl
  have v2 : valOf v 2 0 = 1 / 2 := by
    show (nodal v 2 0).getD 0 = 1 / 2
    rw [a1 2 0 (1 / 2) (by rw [hbc₂, lastValue_scale]; simp [hbc, lastValue])]
    rfl
  rw [v0, v2] at a3
  norm_num at a3
  rw [abs_lt] at a3
  have hset : setDirichlet (zeroField 3 1) (freeTable 3 1) bc₂ =
      some ([⟨[0 * (1 / ((2 : ℕ) : ℝ))]⟩, ⟨[0]⟩, ⟨[1 * (1 / ((2 : ℕ) : ℝ))]⟩], [[-1], [0], [-1]]) := rfl
  unfold staticAnalysis at hv
  simp only [hset, Option.bind_eq_bind, Option.bind_some] at hv
  have hv' := hv
  have hsv : SameDofs (zeroField 3 1) v ∧ v.length = 3 := by
    unfold solveStep at hv
    simp only [Option.bind_eq_bind, Option.bind_eq_some_iff, Prod.exists, Option.pure_def, Option.some.injEq,
      Prod.mk.injEq] at hv
    obtain ⟨A, F, -, m, s', -, x, c, -, v', hd, rfl, -⟩ := hv
    exact ⟨fun n d => (setDirichlet_same hset n d).trans (disassembling_same hd n d), disassembling_length hd⟩
  obtain ⟨⟨y, t'⟩, hy⟩ := Option.isSome_iff_exists.1 ((C21_defined v (renumbering [[-1], [0], [-1]]).1 bc).2 (by
    have h0 := hsv.1 0 0
    have h2 := hsv.1 2 0
    intro p hp
    rcases List.mem_cons.1 hp with rfl | hp
    · exact ⟨by rw [← h0]; rfl, rfl⟩
    · rw [List.mem_singleton.1 hp]
      exact ⟨by rw [← h2]; rfl, rfl⟩))
  have ht' : t' = (renumbering [[-1], [0], [-1]]).1 := setDirichlet_marked hy (by simp [hbc]; exact ⟨rfl, rfl⟩)
  subst ht'
  obtain ⟨-, y1, y2⟩ := C21_setDirichlet _ _ _ _ _ hy
  have hsy : SameDofs (zeroField 3 1) y := fun n d => (hsv.1 n d).trans (setDirichlet_same hy n d)
  have e0 : valOf y 0 0 = 0 := by
    show (nodal y 0 0).getD 0 = 0
    rw [(y2 0 0).2]
    simp [hbc, lastValue]
  have e1 : valOf y 1 0 = valOf v 1 0 := by
    show (nodal y 1 0).getD 0 = _
    rw [(y2 1 0).2]
    simp [hbc, lastValue, valOf]
  have e2 : valOf y 2 0 = 1 := by
    show (nodal y 2 0).getD 0 = 1
    rw [(y2 2 0).2]
    simp [hbc, lastValue]
  have hout : outNorm (freeTable 3 1) bc₂ (springCalls [(0, 1), (1, 2)] y ++ [.nodal [((1, 0), (1 : ℝ))]]) ≤ 1 := by
    rw [outNorm, hfree₂, habs, springLoop_linear (N := 3), hres, e0, e1, e2, abs_le]
    constructor <;> linarith [a3.1, a3.2]
  obtain ⟨u, hu⟩ := C113_two_passes (own := false) (test := plainTest) (τ := 1 / 10 ^ 10) (u := y) useCG_finds
    useCG_certifies hset hsy (by rw [y1, hsv.2]; rfl)
    (show loaded (springLoop [(0, 1), (1, 2)]) [((1, 0), (1 : ℝ))] y =
      some (springCalls [(0, 1), (1, 2)] y ++ [.nodal [((1, 0), 1)]]) from rfl) hfit (fun _ _ => ⟨_, rfl⟩)
    (valOf_zeroField 3 1) (by simp) (by rw [hfree₂]; simp [nodal, zeroField, Vec.at?, Vec.size])
    (springLoop_symm _ _) (hpos y) (by rw [hfree₂]; simp) calls
    (fun u calls hc => by
      obtain rfl := Option.some.inj hc
      exact springLoop_linear _ u)
    (fun u calls hc => by
      obtain rfl := Option.some.inj hc
      exact springLoop_matrix _ u)
    (fun r => rfl) (by norm_num) (by
      have : 0 ≤ outNorm (freeTable 3 1) bc₂ (springCalls [(0, 1), (1, 2)] y ++ [.nodal [((1, 0), (1 : ℝ))]]) :=
        Real.sqrt_nonneg _
      nlinarith) 0
  have hmain : boundaryAnalysis useCG useCG calls (loaded (springLoop [(0, 1), (1, 2)]) [((1, 0), 1)]) (zeroField 3 1)
      (freeTable 3 1) bc 2 2 = some (u, true) := by
    have h3 : boundaryFactors 2 = [1] := by simp [boundaryFactors]
    unfold boundaryAnalysis
    rw [← hbc₂]
    simp only [hset, hv', Option.bind_eq_bind, Option.bind_some, h3, boundarySteps]
    rw [show scaleValues 1 bc = bc from scaleValues_one bc, hy]
    simp only [Option.bind_some, hu]
    rfl
  obtain ⟨b1, b2⟩ := C113_boundary useCG useCG_certifies calls hfit (valOf_zeroField 3 1) 2 2 le_rfl hmain
  obtain ⟨cs, h1, h2⟩ := b2 rfl
  obtain rfl := Option.some.inj h1
  have u0 := b1 ((0, 0), 0) (by simp [hbc])
  have u2 := b1 ((2, 0), 1) (by simp [hbc])
  simp only [hbc, lastValue] at u0 u2
  have u0' : nodal u 0 0 = some 0 := by simpa using u0
  have u2' : nodal u 2 0 = some 1 := by simpa using u2
  refine ⟨u, hmain, u0', u2', ?_⟩
  have h3 : outNorm (freeTable 3 1) bc (springCalls [(0, 1), (1, 2)] u ++ [.nodal [((1, 0), (1 : ℝ))]]) ^ 2 <
    1 / 10 ^ 10 := h2
  rw [outNorm, hfree, habs, springLoop_linear (N := 3), hres, sq_abs] at h3
  rw [show valOf u 0 0 = 0 by show (nodal u 0 0).getD 0 = 0; rw [u0']; rfl,
    show valOf u 2 0 = 1 by show (nodal u 2 0).getD 0 = 1; rw [u2']; rfl] at h3
  rw [abs_lt]
  constructor <;> nlinarith

end Pansfem
