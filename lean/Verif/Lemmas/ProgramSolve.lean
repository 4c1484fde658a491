/-
Solving the assembled system: equations and free dofs, the step from the tables to the new displacements.
-/
import Verif.Lemmas.Program

namespace Pansfem

/-! ### Free dofs and equations -/

theorem numOf_some {t : List (List ℤ)} {n d : ℕ} {g : ℤ} (h : dofNum t n d = some g) : numOf t n d = g := by
  simp [numOf, h]

theorem dofNum_of_numOf {t : List (List ℤ)} {n d : ℕ} (h : numOf t n d ≠ -1) :
    dofNum t n d = some (numOf t n d) := by
  unfold numOf at h ⊢
  cases hd : dofNum t n d with
  | none => rw [hd] at h; exact absurd rfl h
  | some g => rfl

theorem renum_inj {t : List (List ℤ)} {n d n' d' : ℕ} {g : ℤ} (hg : g ≠ -1)
    (h : dofNum (renumbering t).1 n d = some g) (h' : dofNum (renumbering t).1 n' d' = some g) :
    n' = n ∧ d' = d := by
  by_contra hne
  rcases lt_trichotomy n' n with h1 | h1 | h1
  · exact absurd (C20_increasing t _ _ _ _ _ _ h' h hg hg (Or.inl h1)) (lt_irrefl _)
  · rcases lt_trichotomy d' d with h2 | h2 | h2
    · exact absurd (C20_increasing t _ _ _ _ _ _ h' h hg hg (Or.inr ⟨h1, h2⟩)) (lt_irrefl _)
    · exact hne ⟨h1, h2⟩
    · exact absurd (C20_increasing t _ _ _ _ _ _ h h' hg hg (Or.inr ⟨h1.symm, h2⟩)) (lt_irrefl _)
  · exact absurd (C20_increasing t _ _ _ _ _ _ h h' hg hg (Or.inl h1)) (lt_irrefl _)

theorem allDofs_lengths {t t' : List (List ℤ)} (h : t'.map List.length = t.map List.length) :
    allDofs t' = allDofs t := by
  have e : ∀ s : List (List ℤ), allDofs s = (List.range (s.map List.length).length).flatMap fun n =>
      (List.range ((s.map List.length)[n]?.getD 0)).map fun d => (n, d) := by
    intro s
    unfold allDofs
    rw [List.length_map]
    congr 1
    funext n
    rw [List.getElem?_map]
    cases s[n]? <;> rfl
  rw [e, e, h]

theorem allDofs_map (t : List (List ℤ)) : (allDofs t).map (fun p => numOf t p.1 p.2) = t.flatten := by
  have e : t = (List.range t.length).map fun n => t[n]?.getD [] := by
    apply List.ext_getElem
    · simp
    · intro i h1 h2
      simp [List.getElem?_eq_getElem h1]
  conv_rhs => rw [e]
  unfold allDofs
  rw [List.map_flatMap, ← List.flatMap_def]
  apply List.flatMap_congr
  intro n hn
  have hn' := List.mem_range.1 hn
  rw [List.map_map, List.getElem?_eq_getElem hn', Option.getD_some]
  apply List.ext_getElem
  · simp
  · intro i h1 h2
    simp only [List.getElem_map, List.getElem_range, Function.comp_apply, numOf, dofNum]
    rw [List.getElem?_eq_getElem hn']
    simp [List.getElem?_eq_getElem h2]

theorem mem_allDofs {t : List (List ℤ)} {p : ℕ × ℕ} (h : (dofNum t p.1 p.2).isSome) : p ∈ allDofs t := by
  unfold allDofs
  obtain ⟨n, d⟩ := p
  unfold dofNum at h
  cases hr : t[n]? with
  | none => simp [hr] at h
  | some row =>
    simp only [hr, Option.bind_eq_bind, Option.bind_some] at h
    have hn := (List.getElem?_eq_some_iff.1 hr).1
    refine List.mem_flatMap.2 ⟨n, List.mem_range.2 hn, List.mem_map.2 ⟨d, ?_, rfl⟩⟩
    rw [hr]
    simpa using h

/-- The numbers of the free dofs, in order. -/
theorem free_numbers (t : List (List ℤ)) :
    ((allDofs t).filter fun p => decide (numOf t p.1 p.2 ≠ -1)).map
      (fun p => numOf (renumbering t).1 p.1 p.2) = (List.range (renumbering t).2).map Int.ofNat := by
  obtain ⟨r1, r2, r3, -⟩ := C20_renumbering t
  rw [← r3, ← allDofs_map, List.filter_map, allDofs_lengths r1]
  congr 1
  apply List.filter_congr
  intro p _
  simp only [Function.comp_apply, decide_eq_decide]
  have : numOf (renumbering t).1 p.1 p.2 = -1 ↔ numOf t p.1 p.2 = -1 := by
    have hs := isSome_of_lengths r1 p.1 p.2
    have h2 := r2 p.1 p.2
    unfold numOf
    cases h1 : dofNum t p.1 p.2 with
    | none => rw [h1] at hs; cases h3 : dofNum (renumbering t).1 p.1 p.2 <;> simp_all
    | some g =>
      rw [h1] at hs h2
      cases h3 : dofNum (renumbering t).1 p.1 p.2 with
      | none => simp [h3] at hs
      | some g' => rw [h3] at h2; simpa using h2
  exact not_congr this.symm

theorem free_sum {M : Type} [AddCommMonoid M] (t : List (List ℤ)) (f : ℕ → M) :
    (((allDofs t).filter fun p => decide (numOf t p.1 p.2 ≠ -1)).map
      fun p => f (numOf (renumbering t).1 p.1 p.2).toNat).sum = ∑ I ∈ Finset.range (renumbering t).2, f I := by
  have h := congrArg (fun l => (l.map fun g : ℤ => f g.toNat).sum) (free_numbers t)
  simp only [List.map_map] at h
  refine Eq.trans (congrArg List.sum (List.map_congr_left fun p _ => rfl)) (h.trans ?_)
  rw [Finset.sum_range, ← List.sum_ofFn]
  congr 1
  apply List.ext_getElem
  · simp
  · intro i h1 h2
    simp

/-- With one dof per equation the residual of the equation is that of the dof. -/
theorem eqResidual_dof {K : Type} [Ring K] {t : List (List ℤ)} {u : List (Vec K)} {calls : List (AsmCall K)}
    (h : ∀ c ∈ calls, c.Fits (renumbering t).1 u) (v : ℕ → ℕ → K) {n d : ℕ}
    (hnd : numOf (renumbering t).1 n d ≠ -1) :
    eqResidual (renumbering t).1 calls v (numOf (renumbering t).1 n d).toNat = residual calls v n d := by
  unfold eqResidual residual
  refine congrArg List.sum (List.map_congr_left fun c hc => congrArg List.sum (List.map_congr_left fun p hp => ?_))
  have h1 := dofNum_of_numOf hnd
  have h2 := (h c hc).num p hp
  have h3 : 0 ≤ numOf (renumbering t).1 n d := by
    rcases renumbering_numbered t n d _ h1 with h4 | h4
    · exact absurd h4 hnd
    · exact h4.1
  by_cases hc' : p.1 = n ∧ p.2.1 = d
  · rw [if_pos hc', if_pos]
    rw [hc'.1, hc'.2]
    omega
  · rw [if_neg hc', if_neg]
    intro h4
    rw [show numOf (renumbering t).1 p.1 p.2.1 = numOf (renumbering t).1 n d by omega] at h2
    exact hc' (renum_inj hnd h1 h2)

/-! ### The step -/

section
variable {u u' : List (Vec ℝ)} {t : List (List ℤ)} {N : ℕ} {calls : List (AsmCall ℝ)}

/-- The assembled matrix as `CSR`. -/
theorem csr_of_ok {n : ℕ} {A : LIL ℝ} (h : okK n A) :
    ∃ m s', CSR.ofLIL A = some (m, s') ∧ IsCSR n m fun i j => obsK A i j := by
  obtain ⟨m, s', h1, h2, h3, h4, -, -, -, h5⟩ := C07_csr_of_lil A h.1
  refine ⟨m, s', h1, h2, (csr_ofLIL_inBounds h1 h.2.1).1, h3.trans h.2.2.1, h4.trans h.2.2.2, fun i j => ?_⟩
  rw [(h5 i j).1, get_of_ok h i.2]

theorem valOf_disassembling {x : List ℝ} (h : disassembling u x t = some u') (n d : ℕ) :
    valOf u' n d = spread t (valOf u) (obsF x) n d := by
  obtain ⟨-, hd⟩ := C25_disassembling u u' x t h
  unfold valOf spread
  rw [hd]
  unfold numOf
  cases hn : dofNum t n d with
  | none => simp
  | some g =>
    by_cases hg : g = -1
    · simp [hg]
    · simp only [Option.getD_some, if_neg hg]; rfl

theorem obsF_ofFn {n : ℕ} (x : Fin n → ℝ) (i : Fin n) : obsF (List.ofFn x) i = x i := by
  simp [obsF]

theorem vnorm_range {n : ℕ} (v : Fin n → ℝ) (f : ℕ → ℝ) (h : ∀ i : Fin n, v i ^ 2 = f i ^ 2) :
    vnorm v = Real.sqrt (∑ I ∈ Finset.range n, f I ^ 2) := by
  unfold vnorm
  congr 1
  rw [Finset.sum_range]
  refine Finset.sum_congr rfl fun i _ => ?_
  rw [← h, sq]

/-- The right-hand side is the residual of the given values, with the opposite sign. -/
theorem rhs_residual (hN : Numbered t N) (h : ∀ c ∈ calls, c.Fits t u) (I : ℕ) :
    (calls.map fun c => contribF (numOf t) (valOf u) c.mat c.rhs c.dofs I).sum
      = -eqResidual t calls (spread t (valOf u) fun _ => 0) I := by
  have := system_residual hN h (fun _ => 0) (valOf u) (fun _ _ _ => rfl) I
  rw [← this]
  simp

theorem solveStep_spec {s : LinSolver} (hs : s.Certifies) (hN : Numbered t N) (h : ∀ c ∈ calls, c.Fits t u)
    {conv : Bool} (hr : solveStep s u t N calls = some (u', conv)) :
    (∀ n d, numOf t n d = -1 → nodal u' n d = nodal u n d) ∧
    (conv = true ↔ Real.sqrt (∑ I ∈ Finset.range N, eqResidual t calls (valOf u') I ^ 2)
      < 1 / 10 ^ 10 * Real.sqrt (∑ I ∈ Finset.range N,
          eqResidual t calls (spread t (valOf u) fun _ => 0) I ^ 2)) := by
  obtain ⟨A, F, h1, h2, h3, h4, h5⟩ := asmCalls_system hN h
  subst h3
  obtain ⟨m, s', h6, h7⟩ := csr_of_ok h2
  unfold solveStep at hr
  simp only [h1, h6, Option.bind_eq_bind, Option.bind_some, Option.bind_eq_some_iff] at hr
  obtain ⟨⟨x, b⟩, hx, v, hv, he⟩ := hr
  obtain ⟨rfl, rfl⟩ := Prod.mk.inj (Option.some.inj he)
  refine ⟨fun n d hn => ?_, ?_⟩
  · obtain ⟨-, hd⟩ := C25_disassembling u v _ t hv
    rw [hd]
    unfold numOf at hn
    cases hq : dofNum t n d with
    | none => rfl
    | some g => rw [hq] at hn; simp only [Option.getD_some] at hn; simp [hn]
  · rw [hs _ m _ _ x b h7 hx]
    have hval : valOf v = spread t (valOf u) (obsF (List.ofFn x)) := by
      funext n d; exact valOf_disassembling hv n d
    have e1 : vnorm ((fun i : Fin F.length => F[(i : ℕ)]) - Matrix.mulVec (fun i j : Fin F.length => obsK A i j) x)
        = Real.sqrt (∑ I ∈ Finset.range F.length, eqResidual t calls (valOf v) I ^ 2) := by
      apply vnorm_range
      intro i
      have := system_residual hN h (obsF (List.ofFn x)) (valOf u) (fun _ _ _ => rfl) i
      rw [hval, ← this, ← h5]
      simp only [← h4]
      rw [Finset.sum_range]
      simp only [obsF_ofFn]
      have hF : obsF F i = F[(i : ℕ)] := by simp [obsF]
      rw [hF, Pi.sub_apply, ← neg_sub, neg_sq]
      rfl
    have e2 : vnorm (fun i : Fin F.length => F[(i : ℕ)])
        = Real.sqrt (∑ I ∈ Finset.range F.length,
          eqResidual t calls (spread t (valOf u) fun _ => 0) I ^ 2) := by
      apply vnorm_range
      intro i
      have := rhs_residual hN h i
      rw [← h5] at this
      have hF : obsF F i = F[(i : ℕ)] := by simp [obsF]
      rw [← hF, this, neg_sq]
    rw [e1, e2]

theorem solveStep_finds {s : LinSolver} (hs : s.Finds) (hN : Numbered t N) (h : ∀ c ∈ calls, c.Fits t u)
    (hsurj : ∀ I < N, ∃ n d, dofNum t n d = some (I : ℤ))
    (hu : ∀ n d, numOf t n d ≠ -1 → (nodal u n d).isSome) (hsym : SymmetricCalls calls)
    (hpos : ∀ v : ℕ → ℕ → ℝ, (∀ n d, numOf t n d = -1 → v n d = 0) → (∃ n d, v n d ≠ 0) → 0 < energy calls v v)
    (hload : ∃ I < N, eqResidual t calls (spread t (valOf u) fun _ => 0) I ≠ 0) (hn : N ≤ 100000) :
    ∃ u', solveStep s u t N calls = some (u', true) := by
  obtain ⟨A, F, h1, h2, h3, h4, h5⟩ := asmCalls_system hN h
  subst h3
  obtain ⟨m, s', h6, h7⟩ := csr_of_ok h2
  have hspd : SPD (fun i j : Fin F.length => obsK A i j) := by
    refine ⟨fun i j => ?_, fun v hv => ?_⟩
    · show obsK A i j = obsK A j i
      rw [h4, h4]
      refine congrArg List.sum (List.map_congr_left fun c hc => contribK_symm _ _ _ (hsym c hc) _ _)
    · have := system_energy hN h (obsF (List.ofFn v)) (obsF (List.ofFn v))
      simp only [← h4] at this
      simp only [Finset.sum_range, obsF_ofFn] at this
      refine lt_of_lt_of_eq ?_ this.symm
      apply hpos
      · intro n d hnd
        rw [spread, if_pos hnd]
      · obtain ⟨i, hi⟩ := Function.ne_iff.1 hv
        obtain ⟨n, d, hnd⟩ := hsurj i i.2
        refine ⟨n, d, ?_⟩
        rw [spread, numOf_some hnd, if_neg (by omega), Int.toNat_natCast, obsF_ofFn]
        exact hi
  have hb : (fun i : Fin F.length => F[(i : ℕ)]) ≠ 0 := by
    obtain ⟨I, hI, hne⟩ := hload
    have := rhs_residual hN h I
    rw [← h5] at this
    intro hz
    apply hne
    have hF : obsF F I = F[I] := by simp [obsF, hI]
    rw [hF, show F[I] = 0 from congrFun hz ⟨I, hI⟩] at this
    exact neg_eq_zero.1 this.symm
  obtain ⟨x, hx⟩ := hs _ m _ _ h7 hspd hb hn
  obtain ⟨v, hv⟩ := C25_defined u (List.ofFn x) t (by
    intro n d g hg hne
    rcases hN n d g hg with h8 | h8
    · exact absurd h8 hne
    · exact ⟨h8.1, by simpa using h8.2, hu n d (by rw [numOf_some hg]; exact hne)⟩)
  refine ⟨v, ?_⟩
  unfold solveStep
  simp only [h1, h6, Option.bind_eq_bind, Option.bind_some, hx, hv]
  rfl

end

end Pansfem
