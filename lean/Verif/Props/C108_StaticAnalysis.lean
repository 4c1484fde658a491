/-
C108: linear static analysis from boundary conditions to displacements.
-/
import Verif.Lemmas.ProgramSolve
import Verif.Props.C13_BiCGSTAB

namespace Pansfem

/-! ### Solvers -/

theorem useCG_certifies : useCG.Certifies := fun _ A M b x conv hA h =>
  C11_certificate A M hA b 100000 _ x conv (by norm_num) h

theorem useScalingCG_certifies : useScalingCG.Certifies := fun _ A M b x conv hA h =>
  C14_scalingCG A M hA b 100000 _ x conv (by norm_num) h

theorem useCG_finds : useCG.Finds := by
  intro n A M b hA hM hb hn
  obtain ⟨x, conv, h1, h2⟩ := C12_converges A M hA hM b hb (1 / 10 ^ 10) (by norm_num) 100000
  exact ⟨x, by rw [← h2 hn]; exact h1⟩

theorem useScalingCG_finds : useScalingCG.Finds := by
  intro n A M b hA hM hb hn
  obtain ⟨x, conv, h1, h2⟩ := C14_scalingCG_converges A M hA hM b hb (1 / 10 ^ 10) (by norm_num) 100000
  exact ⟨x, by rw [← h2 hn]; exact h1⟩

theorem useBiCGSTAB2_certifies : useBiCGSTAB2.Certifies := fun _ A M b x conv hA h =>
  C13_bicgstab2 A M hA b 100000 _ x conv (by norm_num) h

/-- **C108**: the flags of `CG`, `ScalingCG` and `BiCGSTAB2` mean what they say, and the first two succeed on
symmetric positive definite systems. -/
theorem C108_solvers : useCG.Certifies ∧ useScalingCG.Certifies ∧ useBiCGSTAB2.Certifies ∧
    useCG.Finds ∧ useScalingCG.Finds :=
  ⟨useCG_certifies, useScalingCG_certifies, useBiCGSTAB2_certifies, useCG_finds, useScalingCG_finds⟩

/-! ### Tables after `SetDirichlet` -/

section
variable {u₀ u : List (Vec ℝ)} {t₀ t₁ : List (List ℤ)} {bc : List ((ℕ × ℕ) × ℝ)}

theorem numOf_dirichlet (h : setDirichlet u₀ t₀ bc = some (u, t₁)) (n d : ℕ) :
    numOf t₁ n d ≠ -1 ↔ IsFree t₀ bc (n, d) := by
  obtain ⟨-, -, hs⟩ := C21_setDirichlet u₀ u t₀ t₁ bc h
  unfold IsFree numOf
  rw [(hs n d).1]
  by_cases hm : (n, d) ∈ bc.map Prod.fst
  · simp [hm]
  · simp [hm]

theorem numOf_renumbered (h : setDirichlet u₀ t₀ bc = some (u, t₁)) (n d : ℕ) :
    numOf (renumbering t₁).1 n d ≠ -1 ↔ IsFree t₀ bc (n, d) := by
  rw [← numOf_dirichlet h]
  obtain ⟨r1, r2, -, -⟩ := C20_renumbering t₁
  have hs := isSome_of_lengths r1 n d
  have h2 := r2 n d
  unfold numOf
  cases h1 : dofNum t₁ n d with
  | none => rw [h1] at hs; cases h3 : dofNum (renumbering t₁).1 n d <;> simp_all
  | some g =>
    rw [h1] at hs h2
    cases h3 : dofNum (renumbering t₁).1 n d with
    | none => simp [h3] at hs
    | some g' => rw [h3] at h2; simpa using not_congr h2

theorem freeDofs_dirichlet (h : setDirichlet u₀ t₀ bc = some (u, t₁)) :
    ((allDofs t₁).filter fun p => decide (numOf t₁ p.1 p.2 ≠ -1)) = freeDofs t₀ bc := by
  obtain ⟨hl, -, -⟩ := C21_setDirichlet u₀ u t₀ t₁ bc h
  unfold freeDofs
  rw [allDofs_lengths hl]
  apply List.filter_congr
  intro p _
  rw [decide_eq_decide]
  exact numOf_dirichlet h p.1 p.2

theorem free_count (h : setDirichlet u₀ t₀ bc = some (u, t₁)) :
    (renumbering t₁).2 = (freeDofs t₀ bc).length := by
  have := congrArg List.length (free_numbers t₁)
  rw [freeDofs_dirichlet h] at this
  simpa using this.symm

theorem given_dirichlet (h : setDirichlet u₀ t₀ bc = some (u, t₁)) :
    spread (renumbering t₁).1 (valOf u) (fun _ => 0) = given u₀ t₀ bc := by
  obtain ⟨-, -, hs⟩ := C21_setDirichlet u₀ u t₀ t₁ bc h
  funext n d
  unfold spread given
  have := numOf_renumbered h n d
  by_cases hf : IsFree t₀ bc (n, d)
  · rw [if_pos hf, if_neg (this.2 hf)]
  · rw [if_neg hf, if_pos (by by_contra hc; exact hf (this.1 hc))]
    unfold valOf
    rw [(hs n d).2]

theorem fits_renumbered (h : setDirichlet u₀ t₀ bc = some (u, t₁)) {c : AsmCall ℝ} (hc : c.Fits t₀ u₀) :
    c.Fits (renumbering t₁).1 u := by
  obtain ⟨hl, -, hs⟩ := C21_setDirichlet u₀ u t₀ t₁ bc h
  obtain ⟨r1, -, -, -⟩ := C20_renumbering t₁
  refine ⟨fun p hp => ⟨?_, ?_⟩, hc.2⟩
  · rw [isSome_of_lengths (r1.trans hl)]
    exact (hc.1 p hp).1
  · rw [(hs p.1 p.2.1).2]
    cases lastValue bc p.1 p.2.1 with
    | none => exact (hc.1 p hp).2
    | some _ => rfl

theorem norm_renumbered (h : setDirichlet u₀ t₀ bc = some (u, t₁)) {calls : List (AsmCall ℝ)}
    (hc : ∀ c ∈ calls, c.Fits t₀ u₀) (v : ℕ → ℕ → ℝ) :
    Real.sqrt (∑ I ∈ Finset.range (renumbering t₁).2, eqResidual (renumbering t₁).1 calls v I ^ 2)
      = dofNorm (freeDofs t₀ bc) (residual calls v) := by
  unfold dofNorm
  congr 1
  rw [← free_sum, freeDofs_dirichlet h]
  refine congrArg List.sum (List.map_congr_left fun p hp => ?_)
  rw [eqResidual_dof (fun c hc' => fits_renumbered h (hc c hc')) v]
  have := (List.mem_filter.1 hp).2
  exact (numOf_renumbered h p.1 p.2).2 (of_decide_eq_true this)

end

/-! ### C108 -/

/-- **C108**: what a returned result means.  The listed dofs hold the last value listed for them, dofs marked
beforehand are unchanged, and the program reports convergence exactly if the norm of the residual of the
returned field over the free dofs is below `1e-10` times the norm of the residual of the given values alone. -/
theorem C108_result (s : LinSolver) (hs : s.Certifies) (u₀ u' : List (Vec ℝ)) (t₀ : List (List ℤ))
    (bc : List ((ℕ × ℕ) × ℝ)) (calls : List (AsmCall ℝ)) (conv : Bool) (hc : ∀ c ∈ calls, c.Fits t₀ u₀)
    (h : staticAnalysis s u₀ t₀ bc calls = some (u', conv)) :
    (∀ n d v, lastValue bc n d = some v → nodal u' n d = some v) ∧
    (∀ n d, dofNum t₀ n d = some (-1) → lastValue bc n d = none → nodal u' n d = nodal u₀ n d) ∧
    (conv = true ↔ dofNorm (freeDofs t₀ bc) (residual calls (valOf u'))
      < 1 / 10 ^ 10 * dofNorm (freeDofs t₀ bc) (residual calls (given u₀ t₀ bc))) := by
  unfold staticAnalysis at h
  simp only [Option.bind_eq_bind, Option.bind_eq_some_iff] at h
  obtain ⟨⟨u, t₁⟩, h1, h2⟩ := h
  obtain ⟨a1, a2⟩ := solveStep_spec hs (renumbering_numbered t₁) (fun c hc' => fits_renumbered h1 (hc c hc')) h2
  obtain ⟨-, -, hset⟩ := C21_setDirichlet u₀ u t₀ t₁ bc h1
  rw [given_dirichlet h1, norm_renumbered h1 hc, norm_renumbered h1 hc] at a2
  refine ⟨?_, ?_, a2⟩
  · intro n d v hv
    have hmem : (n, d) ∈ bc.map Prod.fst := by
      unfold lastValue at hv
      obtain ⟨p, hp, -⟩ := Option.map_eq_some_iff.1 hv
      have h1 := List.mem_of_find?_eq_some hp
      have h2 := List.find?_some hp
      exact List.mem_map.2 ⟨p, List.mem_reverse.1 h1, by simpa using h2⟩
    rw [a1 n d, (hset n d).2, hv]
    · rfl
    · by_contra hne
      exact ((numOf_renumbered h1 n d).1 hne).2 hmem
  · intro n d hd hv
    rw [a1 n d, (hset n d).2, hv]
    · rfl
    · by_contra hne
      exact ((numOf_renumbered h1 n d).1 hne).1 (numOf_some hd)

/-- **C108**: the program succeeds.  The data fit, the element matrices are symmetric, together positive definite
on the fields that vanish at the fixed dofs, and something loads the free dofs: then the program returns and
reports convergence. -/
theorem C108_succeeds (s : LinSolver) (hs : s.Finds) (u₀ : List (Vec ℝ)) (t₀ : List (List ℤ))
    (bc : List ((ℕ × ℕ) × ℝ)) (calls : List (AsmCall ℝ)) (hc : ∀ c ∈ calls, c.Fits t₀ u₀)
    (hbc : ∀ p ∈ bc, (nodal u₀ p.1.1 p.1.2).isSome ∧ (dofNum t₀ p.1.1 p.1.2).isSome)
    (hu : ∀ p ∈ freeDofs t₀ bc, (nodal u₀ p.1 p.2).isSome) (hsym : SymmetricCalls calls)
    (hpos : ∀ v : ℕ → ℕ → ℝ, (∀ n d, ¬ IsFree t₀ bc (n, d) → v n d = 0) → (∃ n d, v n d ≠ 0) →
      0 < energy calls v v)
    (hload : ∃ p ∈ freeDofs t₀ bc, residual calls (given u₀ t₀ bc) p.1 p.2 ≠ 0)
    (hn : (freeDofs t₀ bc).length ≤ 100000) :
    ∃ u', staticAnalysis s u₀ t₀ bc calls = some (u', true) := by
  obtain ⟨⟨u, t₁⟩, h1⟩ := Option.isSome_iff_exists.1 ((C21_defined u₀ t₀ bc).2 hbc)
  obtain ⟨-, -, hset⟩ := C21_setDirichlet u₀ u t₀ t₁ bc h1
  obtain ⟨u', h2⟩ := solveStep_finds (u := u) (calls := calls) hs (renumbering_numbered t₁)
    (fun c hc' => fits_renumbered h1 (hc c hc'))
    (fun I hI => (C20_range t₁ I (by omega)).2 ⟨by omega, by omega⟩)
    (fun n d hnd => by
      have hf := (numOf_renumbered h1 n d).1 hnd
      have hm : (n, d) ∈ freeDofs t₀ bc :=
        List.mem_filter.2 ⟨mem_allDofs (by rw [dofNum_of_numOf hf.1]; rfl), decide_eq_true hf⟩
      rw [(hset n d).2]
      cases lastValue bc n d with
      | none => exact hu _ hm
      | some _ => rfl) hsym
    (fun v hv hne => hpos v (fun n d hnf => hv n d (by
      by_contra hc'
      exact hnf ((numOf_renumbered h1 n d).1 hc'))) hne)
    (by
      obtain ⟨p, hp, hne⟩ := hload
      have hf : IsFree t₀ bc (p.1, p.2) := of_decide_eq_true (List.mem_filter.1 hp).2
      have hnum := (numOf_renumbered h1 p.1 p.2).2 hf
      have hd := dofNum_of_numOf hnum
      refine ⟨(numOf (renumbering t₁).1 p.1 p.2).toNat, ?_, ?_⟩
      · rcases renumbering_numbered t₁ _ _ _ hd with h3 | h3
        · exact absurd h3 hnum
        · omega
      · rw [given_dirichlet h1, eqResidual_dof (fun c hc' => fits_renumbered h1 (hc c hc')) _ hnum]
        exact hne)
    (by rw [free_count h1]; exact hn)
  refine ⟨u', ?_⟩
  unfold staticAnalysis
  simp only [h1, Option.bind_eq_bind, Option.bind_some, h2]

theorem useCG_breaks : useCG.Breaks := fun _ A M hA => C12_zero_rhs A M hA 100000 (1 / 10 ^ 10) (by norm_num)

theorem useScalingCG_breaks : useScalingCG.Breaks := by
  intro n A M hA
  unfold useScalingCG scalingCG
  cases getDiagonal n A with
  | none => rfl
  | some D =>
    show pcg A (scaling D) 0 (99999 + 1) _ = none
    generalize 99999 = m
    unfold pcg
    rw [pcgInit_eq hA]
    unfold scaling
    split_ifs
    · rfl
    · simp [pcgLoop, pcgStep, csrMul_eq hA, sdivide]

/-- **C108**: without any load on the free dofs `CG` and `ScalingCG` divide zero by zero. -/
theorem C108_unloaded (s : LinSolver) (hs : s.Breaks) (u₀ : List (Vec ℝ)) (t₀ : List (List ℤ)) (bc : List ((ℕ × ℕ) × ℝ))
    (calls : List (AsmCall ℝ)) (hc : ∀ c ∈ calls, c.Fits t₀ u₀)
    (hload : ∀ p ∈ freeDofs t₀ bc, residual calls (given u₀ t₀ bc) p.1 p.2 = 0) :
    staticAnalysis s u₀ t₀ bc calls = none := by
  unfold staticAnalysis
  simp only [Option.bind_eq_bind]
  cases h1 : setDirichlet u₀ t₀ bc with
  | none => rfl
  | some st =>
    obtain ⟨u, t₁⟩ := st
    simp only [Option.bind_some]
    have hfit := fun c hc' => fits_renumbered h1 (hc c hc')
    obtain ⟨A, F, a1, a2, a3, a4, a5⟩ := asmCalls_system (renumbering_numbered t₁) hfit
    obtain ⟨m, s', h6, h7⟩ := csr_of_ok a2
    have hz : (fun i : Fin F.length => F[(i : ℕ)]) = 0 := by
      funext i
      have h2 := rhs_residual (renumbering_numbered t₁) hfit i
      rw [← a5, given_dirichlet h1] at h2
      have hF : obsF F i = F[(i : ℕ)] := by simp [obsF]
      obtain ⟨n, d, hnd⟩ := (C20_range t₁ (i : ℕ) (by omega)).2 ⟨by omega, by have := i.2; omega⟩
      have hne : numOf (renumbering t₁).1 n d ≠ -1 := by rw [numOf_some hnd]; omega
      have h3 := eqResidual_dof hfit (given u₀ t₀ bc) hne
      rw [numOf_some hnd, Int.toNat_natCast] at h3
      have hf := (numOf_renumbered h1 n d).1 hne
      rw [hF, h3, hload (n, d) (List.mem_filter.2 ⟨mem_allDofs (by rw [dofNum_of_numOf hf.1]; rfl),
        decide_eq_true hf⟩), neg_zero] at h2
      exact h2
    unfold solveStep
    simp only [a1, h6, Option.bind_eq_bind, Option.bind_some, hz]
    rw [← a3] at h7
    rw [hs _ m _ h7]
    rfl

/-! ### A bar of two springs: fixed at one end, pulled at the other -/

/-- Element matrix of a unit spring. -/
def springKe : Mat ℝ := ⟨2, 2, [1, -1, -1, 1]⟩

def springNte : List (List (ℕ × ℕ)) := [[(0, 0)], [(0, 1)]]

def springBar : List (AsmCall ℝ) :=
  [.matrix springKe springNte [0, 1], .matrix springKe springNte [1, 2], .nodal [((2, 0), 1)]]

def springU : List (Vec ℝ) := [⟨[0]⟩, ⟨[0]⟩, ⟨[0]⟩]

def springT : List (List ℤ) := [[0], [0], [0]]

theorem spring_fits : ∀ c ∈ springBar, c.Fits springT springU := by
  intro c hc
  simp only [springBar, List.mem_cons, List.not_mem_nil, or_false] at hc
  rcases hc with rfl | rfl | rfl <;>
    simp [AsmCall.Fits, AsmCall.dofs, localDofs, springNte, springT, springU, springKe, dofNum, nodal, Vec.at?, Vec.size,
      Mat.at?]

theorem spring_free : freeDofs springT [((0, 0), (0 : ℝ))] = [(1, 0), (2, 0)] := by
  simp [freeDofs, allDofs, springT, IsFree, numOf, dofNum, List.range_succ, List.filter]

example : ∃ u', staticAnalysis useCG springU springT [((0, 0), 0)] springBar = some (u', true) := by
  refine C108_succeeds useCG useCG_finds _ _ _ _ spring_fits ?_ ?_ ?_ ?_ ?_ ?_
  · simp [nodal, dofNum, springU, springT, Vec.at?, Vec.size]
  · rw [spring_free]; simp [nodal, springU, Vec.at?, Vec.size]
  · intro c hc
    simp only [springBar, List.mem_cons, List.not_mem_nil, or_false] at hc
    rcases hc with rfl | rfl | rfl <;>
      simp [AsmCall.dofs, AsmCall.mat, localDofs, springNte, springKe, Mat.at?]
  · intro v hv hne
    have he : energy springBar v v = (v 0 0 - v 1 0) ^ 2 + (v 1 0 - v 2 0) ^ 2 := by
      simp [energy, springBar, AsmCall.dofs, AsmCall.mat, localDofs, springNte, springKe, Mat.at?]
      ring
    have hz : v 0 0 = 0 := hv 0 0 (by simp [IsFree])
    rw [he, hz]
    by_contra hc
    have h1 : v 1 0 = 0 := by nlinarith [sq_nonneg (0 - v 1 0), sq_nonneg (v 1 0 - v 2 0)]
    have h2 : v 2 0 = 0 := by rw [h1] at hc; nlinarith [sq_nonneg (0 - v 2 0)]
    obtain ⟨n, d, hnd⟩ := hne
    refine hnd ?_
    by_cases hf : IsFree springT [((0, 0), (0 : ℝ))] (n, d)
    · have hm : (n, d) ∈ freeDofs springT [((0, 0), (0 : ℝ))] :=
        List.mem_filter.2 ⟨mem_allDofs (by rw [dofNum_of_numOf hf.1]; rfl), decide_eq_true hf⟩
      rw [spring_free] at hm
      simp only [List.mem_cons, Prod.mk.injEq, List.not_mem_nil, or_false] at hm
      rcases hm with ⟨rfl, rfl⟩ | ⟨rfl, rfl⟩
      · exact h1
      · exact h2
    · exact hv n d hf
  · rw [spring_free]
    refine ⟨(2, 0), by simp, ?_⟩
    simp [residual, springBar, AsmCall.dofs, AsmCall.mat, AsmCall.rhs, localDofs, springNte, springKe, Mat.at?,
      given, IsFree, numOf, dofNum, springT]
  · rw [spring_free]; norm_num

/-- Without the pull the program divides zero by zero. -/
example : staticAnalysis useCG springU springT [((0, 0), 0)] (springBar.take 2) = none := by
  refine C108_unloaded useCG useCG_breaks _ _ _ _ (fun c hc => spring_fits c (List.mem_of_mem_take hc)) ?_
  rw [spring_free]
  simp [residual, springBar, AsmCall.dofs, AsmCall.mat, AsmCall.rhs, localDofs, springNte, springKe, Mat.at?,
    given, IsFree, numOf, dofNum, springT, springU, lastValue, nodal]

end Pansfem
