/-
Symmetric forms that are only nonnegative: when the equations at the free dofs have a solution, and that conjugate
gradients then finds one.
-/
import Verif.Lemmas.StaticExact
import Verif.Props.C116_Semidefinite

namespace Pansfem

/-- A linear solver that reports convergence on every consistent symmetric positive semidefinite system of at most
100000 unknowns. -/
def LinSolver.FindsSemi (s : LinSolver) : Prop :=
  ∀ (n : ℕ) (A : CSR ℝ) (M : Matrix (Fin n) (Fin n) ℝ) (z : Fin n → ℝ), IsCSR n A M → SPSD M → M.mulVec z ≠ 0 →
    n ≤ 100000 → ∃ x, s n A (M.mulVec z) = some (x, true)

theorem useCG_findsSemi : useCG.FindsSemi := by
  intro n A M z hA hM hz hn
  obtain ⟨x, conv, h1, h2⟩ := C116_converges A M hA hM z hz (1 / 10 ^ 10) (by norm_num) 100000
  exact ⟨x, by rw [← h2 hn]; exact h1⟩

section
variable {t : List (List ℤ)} {u : List (Vec ℝ)} {N : ℕ} {calls : List (AsmCall ℝ)}

theorem solveStep_semi {s : LinSolver} (hs : s.FindsSemi) (hN : Numbered t N) (h : ∀ c ∈ calls, c.Fits t u)
    (hu : ∀ n d, numOf t n d ≠ -1 → (nodal u n d).isSome) (hsym : SymmetricCalls calls)
    (hpos : ∀ v : ℕ → ℕ → ℝ, (∀ n d, numOf t n d = -1 → v n d = 0) → 0 ≤ energy calls v v)
    (hsol : ∃ y : ℕ → ℝ, ∀ I < N, eqResidual t calls (spread t (valOf u) y) I = 0)
    (hload : ∃ I < N, eqResidual t calls (spread t (valOf u) fun _ => 0) I ≠ 0) (hn : N ≤ 100000) :
    ∃ u', solveStep s u t N calls = some (u', true) := by
  obtain ⟨A, F, h1, h2, h3, h4, h5⟩ := asmCalls_system hN h
  subst h3
  obtain ⟨m, s', h6, h7⟩ := csr_of_ok h2
  have hspd : SPSD (fun i j : Fin F.length => obsK A i j) := by
    refine ⟨fun i j => ?_, fun v => ?_⟩
    · show obsK A i j = obsK A j i
      rw [h4, h4]
      refine congrArg List.sum (List.map_congr_left fun c hc => contribK_symm _ _ _ (hsym c hc) _ _)
    · have := system_energy hN h (obsF (List.ofFn v)) (obsF (List.ofFn v))
      simp only [← h4] at this
      simp only [Finset.sum_range, obsF_ofFn] at this
      refine le_of_le_of_eq ?_ this.symm
      apply hpos
      intro n d hnd
      rw [spread, if_pos hnd]
  have hb : (fun i : Fin F.length => F[(i : ℕ)]) ≠ 0 := by
    obtain ⟨I, hI, hne⟩ := hload
    have := rhs_residual hN h I
    rw [← h5] at this
    intro hz
    apply hne
    have hF : obsF F I = F[I] := by simp [obsF, hI]
    rw [hF, show F[I] = 0 from congrFun hz ⟨I, hI⟩] at this
    exact neg_eq_zero.1 this.symm
  obtain ⟨y, hy⟩ := hsol
  have hz : (fun i : Fin F.length => F[(i : ℕ)]) =
      Matrix.mulVec (fun i j : Fin F.length => obsK A i j) fun i => y i := by
    funext i
    have := system_residual hN h y (valOf u) (fun _ _ _ => rfl) i
    rw [hy i i.2] at this
    simp only [← h4, ← h5] at this
    have hF : obsF F i = F[(i : ℕ)] := by simp [obsF]
    rw [hF, Finset.sum_range] at this
    show F[(i : ℕ)] = ∑ j : Fin F.length, obsK A i j * y j
    linarith
  rw [hz] at hb
  obtain ⟨x, hx⟩ := hs _ m _ _ h7 hspd hb hn
  rw [← hz] at hx
  obtain ⟨v, hv⟩ := C25_defined u (List.ofFn x) t (by
    intro n d g hg hne
    rcases hN n d g hg with h8 | h8
    · exact absurd h8 hne
    · exact ⟨h8.1, by simpa using h8.2, hu n d (by rw [numOf_some hg]; exact hne)⟩)
  refine ⟨v, ?_⟩
  unfold solveStep
  simp only [h1, h6, Option.bind_eq_bind, Option.bind_some, hx, hv]
  rfl

end

/-- The program returns, converged, when the element matrices are symmetric and together nonnegative on the fields that
vanish at the fixed dofs, the equations have a solution, and something loads the free dofs. -/
theorem static_semi {s : LinSolver} (hs : s.FindsSemi) {u₀ : List (Vec ℝ)} {t₀ : List (List ℤ)}
    {bc : List ((ℕ × ℕ) × ℝ)} {calls : List (AsmCall ℝ)} (hc : ∀ c ∈ calls, c.Fits t₀ u₀)
    (hbc : ∀ p ∈ bc, (nodal u₀ p.1.1 p.1.2).isSome ∧ (dofNum t₀ p.1.1 p.1.2).isSome)
    (hu : ∀ p ∈ freeDofs t₀ bc, (nodal u₀ p.1 p.2).isSome) (hsym : SymmetricCalls calls)
    (hpos : ∀ v : ℕ → ℕ → ℝ, (∀ n d, ¬ IsFree t₀ bc (n, d) → v n d = 0) → 0 ≤ energy calls v v)
    (hsol : ∃ v : ℕ → ℕ → ℝ, (∀ p ∈ freeDofs t₀ bc, residual calls v p.1 p.2 = 0) ∧
      ∀ n d, ¬ IsFree t₀ bc (n, d) → v n d = given u₀ t₀ bc n d)
    (hload : ∃ p ∈ freeDofs t₀ bc, residual calls (given u₀ t₀ bc) p.1 p.2 ≠ 0)
    (hn : (freeDofs t₀ bc).length ≤ 100000) :
    ∃ u', staticAnalysis s u₀ t₀ bc calls = some (u', true) := by
  obtain ⟨⟨u, t₁⟩, h1⟩ := Option.isSome_iff_exists.1 ((C21_defined u₀ t₀ bc).2 hbc)
  obtain ⟨-, -, hset⟩ := C21_setDirichlet u₀ u t₀ t₁ bc h1
  have hfits := fun c hc' => fits_renumbered h1 (hc c hc')
  have hmem : ∀ n d, IsFree t₀ bc (n, d) → (n, d) ∈ freeDofs t₀ bc := fun n d hf =>
    List.mem_filter.2 ⟨mem_allDofs (by rw [dofNum_of_numOf hf.1]; rfl), decide_eq_true hf⟩
  obtain ⟨u', h2⟩ := solveStep_semi (u := u) (calls := calls) hs (renumbering_numbered t₁) hfits
    (fun n d hnd => by
      have hf := (numOf_renumbered h1 n d).1 hnd
      rw [(hset n d).2]
      cases lastValue bc n d with
      | none => exact hu _ (hmem n d hf)
      | some _ => rfl) hsym
    (fun v hv => hpos v fun n d hnf => hv n d (by
      by_contra hc'
      exact hnf ((numOf_renumbered h1 n d).1 hc')))
    (by
      obtain ⟨v, hv1, hv2⟩ := hsol
      have hsurj : ∀ I, ∃ p : ℕ × ℕ, I < (renumbering t₁).2 → dofNum (renumbering t₁).1 p.1 p.2 = some (I : ℤ) := by
        intro I
        by_cases hI : I < (renumbering t₁).2
        · obtain ⟨n, d, h⟩ := (C20_range t₁ I (by omega)).2 ⟨by omega, by omega⟩
          exact ⟨(n, d), fun _ => h⟩
        · exact ⟨(0, 0), fun h => absurd h hI⟩
      choose f hf using hsurj
      refine ⟨fun I => v (f I).1 (f I).2, fun I hI => ?_⟩
      have hsp : spread (renumbering t₁).1 (valOf u) (fun I => v (f I).1 (f I).2) = v := by
        funext n d
        unfold spread
        split_ifs with hnum
        · have hnf : ¬ IsFree t₀ bc (n, d) := fun hc' => (numOf_renumbered h1 n d).2 hc' hnum
          rw [hv2 n d hnf]
          have := congrFun (congrFun (given_dirichlet h1) n) d
          rw [spread, if_pos hnum] at this
          exact this
        · have hd := dofNum_of_numOf hnum
          rcases renumbering_numbered t₁ _ _ _ hd with h3 | h3
          · exact absurd h3 hnum
          · have h4 := hf (numOf (renumbering t₁).1 n d).toNat (by omega)
            rw [Int.toNat_of_nonneg h3.1] at h4
            obtain ⟨e1, e2⟩ := renum_inj hnum hd h4
            show v (f _).1 (f _).2 = v n d
            rw [e1, e2]
      rw [hsp]
      have hd := hf I hI
      have hn1 := numOf_some hd
      have hn2 : numOf (renumbering t₁).1 (f I).1 (f I).2 ≠ -1 := by rw [hn1]; omega
      have := eqResidual_dof hfits v hn2
      rw [hn1, Int.toNat_natCast] at this
      rw [this]
      exact hv1 ((f I).1, (f I).2) (hmem _ _ ((numOf_renumbered h1 _ _).1 hn2)))
    (by
      obtain ⟨p, hp, hne⟩ := hload
      have hf : IsFree t₀ bc (p.1, p.2) := of_decide_eq_true (List.mem_filter.1 hp).2
      have hnum := (numOf_renumbered h1 p.1 p.2).2 hf
      have hd := dofNum_of_numOf hnum
      refine ⟨(numOf (renumbering t₁).1 p.1 p.2).toNat, ?_, ?_⟩
      · rcases renumbering_numbered t₁ _ _ _ hd with h3 | h3
        · exact absurd h3 hnum
        · omega
      · rw [given_dirichlet h1, eqResidual_dof hfits _ hnum]
        exact hne)
    (by rw [free_count h1]; exact hn)
  refine ⟨u', ?_⟩
  unfold staticAnalysis
  simp only [h1, Option.bind_eq_bind, Option.bind_some, h2]

/-- The work of the form in one field along another, through its values at the dofs. -/
theorem form_work {calls : List (AsmCall ℝ)} {t : List (List ℤ)}
    (hf : ∀ c ∈ calls, ∀ p ∈ c.dofs, (dofNum t p.1 p.2.1).isSome) (w v : ℕ → ℕ → ℝ) :
    ((allDofs t).map fun p => w p.1 p.2 * energyForm calls (unitField p.1 p.2) v).sum = energy calls w v := by
  have h1 := residual_work hf v w
  have h2 := residual_work hf 0 w
  have e : ∀ p : ℕ × ℕ, w p.1 p.2 * residual calls v p.1 p.2 =
      w p.1 p.2 * residual calls 0 p.1 p.2 + w p.1 p.2 * energyForm calls (unitField p.1 p.2) v := by
    intro p
    have := static_affine calls 0 v p.1 p.2
    rw [zero_add] at this
    rw [this]
    ring
  simp only [e, List.sum_map_add] at h1
  rw [h2] at h1
  simp only [← energyForm_apply, map_zero] at h1 ⊢
  linarith

theorem sum_freeDofs {t : List (List ℤ)} {bc : List ((ℕ × ℕ) × ℝ)} {g : ℕ × ℕ → ℝ}
    (h : ∀ p, p ∉ freeDofs t bc → g p = 0) : ((freeDofs t bc).map g).sum = ((allDofs t).map g).sum := by
  unfold freeDofs at h ⊢
  have : ∀ l : List (ℕ × ℕ), (∀ p ∈ l, p ∈ allDofs t) →
      ((l.filter fun p => decide (IsFree t bc p)).map g).sum = (l.map g).sum := by
    intro l
    induction l with
    | nil => intro _; rfl
    | cons a l ih =>
      intro hl
      have ih' := ih fun p hp => hl p (List.mem_cons_of_mem _ hp)
      by_cases ha : IsFree t bc a
      · rw [List.filter_cons_of_pos (by simpa using ha), List.map_cons, List.map_cons, List.sum_cons, List.sum_cons, ih']
      · rw [List.filter_cons_of_neg (by simpa using ha), List.map_cons, List.sum_cons, ih',
          h a fun hc => ha (of_decide_eq_true (List.mem_filter.1 hc).2), zero_add]
  exact this _ fun _ hp => hp

/-- The equations at the free dofs have a solution as soon as the loads do no work on the fields that do no work on any field. -/
theorem static_range {calls : List (AsmCall ℝ)} {t : List (List ℤ)} {bc : List ((ℕ × ℕ) × ℝ)}
    (hf : ∀ c ∈ calls, ∀ p ∈ c.dofs, (dofNum t p.1 p.2.1).isSome) (u : ℕ → ℕ → ℝ)
    (hker : ∀ w : ℕ → ℕ → ℝ, (∀ n d, ¬ IsFree t bc (n, d) → w n d = 0) →
      (∀ v : ℕ → ℕ → ℝ, (∀ n d, ¬ IsFree t bc (n, d) → v n d = 0) → energy calls w v = 0) →
      ((freeDofs t bc).map fun p => w p.1 p.2 * residual calls u p.1 p.2).sum = 0) :
    ∃ v : ℕ → ℕ → ℝ, (∀ p ∈ freeDofs t bc, residual calls v p.1 p.2 = 0) ∧
      ∀ n d, ¬ IsFree t bc (n, d) → v n d = u n d := by
  classical
  have hmem : ∀ n d, IsFree t bc (n, d) ↔ (n, d) ∈ freeDofs t bc := by
    intro n d
    refine ⟨fun h => List.mem_filter.2 ⟨mem_allDofs (by rw [dofNum_of_numOf h.1]; rfl), decide_eq_true h⟩,
      fun h => of_decide_eq_true (List.mem_filter.1 h).2⟩
  have hnd : (freeDofs t bc).Nodup := (allDofs_nodup t).filter _
  let F := {p : ℕ × ℕ // p ∈ freeDofs t bc}
  haveI : Finite F := (List.finite_toSet (freeDofs t bc)).to_subtype
  haveI : Fintype F := Fintype.ofFinite F
  let ext : (F → ℝ) →ₗ[ℝ] (ℕ → ℕ → ℝ) :=
    { toFun := fun y n d => if h : (n, d) ∈ freeDofs t bc then y ⟨(n, d), h⟩ else 0
      map_add' := by intro a b; funext n d; simp only [Pi.add_apply]; split_ifs <;> simp
      map_smul' := by
        intro r a; funext n d
        simp only [Pi.smul_apply, RingHom.id_apply]; split_ifs <;> simp }
  have hext0 : ∀ y n d, ¬ IsFree t bc (n, d) → ext y n d = 0 := by
    intro y n d h
    exact dif_neg fun hc => h ((hmem n d).2 hc)
  have hext : ∀ (y : F → ℝ) (p : F), ext y p.1.1 p.1.2 = y p := fun y p => dif_pos p.2
  have hsum : ∀ g : ℕ × ℕ → ℝ, ∑ p : F, g p.1 = ((freeDofs t bc).map g).sum := by
    intro g
    rw [← List.sum_toFinset _ hnd]
    exact (Finset.sum_subtype _ (fun x => List.mem_toFinset) g).symm
  let L : (F → ℝ) →ₗ[ℝ] (F → ℝ) := LinearMap.pi fun p => (energyForm calls (unitField p.1.1 p.1.2)).comp ext
  let b : F → ℝ := fun p => - residual calls u p.1.1 p.1.2
  have hb : b ∈ LinearMap.range L := by
    by_contra hnot
    obtain ⟨φ, h1, h2⟩ := Submodule.exists_le_ker_of_notMem hnot
    apply h1
    let f : F → ℝ := fun p => φ (Pi.single p 1)
    have hφ : ∀ y : F → ℝ, φ y = ∑ p : F, ext f p.1.1 p.1.2 * y p := by
      intro y
      rw [LinearMap.pi_apply_eq_sum_univ φ y]
      refine Finset.sum_congr rfl fun p _ => ?_
      rw [hext, smul_eq_mul, mul_comm]
      congr 2
      funext q
      rw [Pi.single_apply]
      simp only [eq_comm]
    have h4 : ∀ v : ℕ → ℕ → ℝ, (∀ n d, ¬ IsFree t bc (n, d) → v n d = 0) → energy calls (ext f) v = 0 := by
      intro v hv
      obtain ⟨y, rfl⟩ : ∃ y : F → ℝ, ext y = v := by
        refine ⟨fun p => v p.1.1 p.1.2, ?_⟩
        funext n d
        by_cases h : (n, d) ∈ freeDofs t bc
        · exact dif_pos h
        · exact (dif_neg h).trans (hv n d fun hc => h ((hmem n d).1 hc)).symm
      have h3 : φ (L y) = 0 := h2 ⟨y, rfl⟩
      rw [← h3, hφ, ← form_work hf]
      exact (sum_freeDofs fun p hp => by rw [hext0 f p.1 p.2 fun hc => hp ((hmem _ _).1 hc), zero_mul]).symm.trans
        (hsum fun p => ext f p.1 p.2 * energyForm calls (unitField p.1 p.2) (ext y)).symm
    have h5 := hker (ext f) (hext0 f) h4
    rw [hφ]
    have h6 := hsum fun p => ext f p.1 p.2 * residual calls u p.1 p.2
    rw [h5] at h6
    simp only [b, mul_neg, Finset.sum_neg_distrib, neg_eq_zero]
    exact h6
  obtain ⟨y, hy⟩ := hb
  refine ⟨u + ext y, fun p hp => ?_, fun n d hn => ?_⟩
  · rw [static_affine]
    have : energyForm calls (unitField p.1 p.2) (ext y) = _ := congrFun hy ⟨p, hp⟩
    rw [this]
    show _ + - residual calls u p.1 p.2 = 0
    ring
  · simp [hext0 y n d hn]

/-- The equations at the free dofs have a solution as soon as the loads do no work on the fields without energy. -/
theorem static_solvable {calls : List (AsmCall ℝ)} {t : List (List ℤ)} {bc : List ((ℕ × ℕ) × ℝ)}
    (hf : ∀ c ∈ calls, ∀ p ∈ c.dofs, (dofNum t p.1 p.2.1).isSome) (u : ℕ → ℕ → ℝ)
    (hker : ∀ w : ℕ → ℕ → ℝ, (∀ n d, ¬ IsFree t bc (n, d) → w n d = 0) → energy calls w w = 0 →
      ((freeDofs t bc).map fun p => w p.1 p.2 * residual calls u p.1 p.2).sum = 0) :
    ∃ v : ℕ → ℕ → ℝ, (∀ p ∈ freeDofs t bc, residual calls v p.1 p.2 = 0) ∧
      ∀ n d, ¬ IsFree t bc (n, d) → v n d = u n d :=
  static_range hf u fun w hw h => hker w hw (h w hw)

/-- Conversely a solution forces the loads to do no work on the fields that the symmetric form annihilates. -/
theorem static_unsolvable {calls : List (AsmCall ℝ)} {t : List (List ℤ)} {bc : List ((ℕ × ℕ) × ℝ)}
    (hf : ∀ c ∈ calls, ∀ p ∈ c.dofs, (dofNum t p.1 p.2.1).isSome) {v w : ℕ → ℕ → ℝ}
    (hv : ∀ p ∈ freeDofs t bc, residual calls v p.1 p.2 = 0) (hw : ∀ n d, ¬ IsFree t bc (n, d) → w n d = 0)
    (h0 : energy calls w v = 0) : (calls.map fun c => callLoad c w).sum = 0 := by
  have := residual_work hf v w
  rw [List.sum_eq_zero, h0] at this
  · linarith
  · intro r hr
    obtain ⟨p, hp, rfl⟩ := List.mem_map.1 hr
    by_cases hfr : IsFree t bc (p.1, p.2)
    · rw [hv p (List.mem_filter.2 ⟨hp, decide_eq_true hfr⟩), mul_zero]
    · rw [hw _ _ hfr, zero_mul]

end Pansfem
