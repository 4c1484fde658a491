/-
When a Newton pass succeeds.
-/
import Verif.Lemmas.ProgramNewton

namespace Pansfem

section
variable {K : Type} [Ring K]

theorem addFields_ok : ∀ {u v : List (Vec K)}, u.length = v.length → SameDofs u v → ∃ w, addFields u v = some w := by
  intro u
  induction u with
  | nil =>
    intro v hl _
    have : v = [] := List.length_eq_zero_iff.1 hl.symm
    subst this
    exact ⟨[], rfl⟩
  | cons a u ih =>
    intro v hl hs
    cases v with
    | nil => simp at hl
    | cons b v =>
      obtain ⟨w, hw⟩ := ih (by simpa using hl) fun n d => by simpa [nodal] using hs (n + 1) d
      obtain ⟨n, hn⟩ : ∃ n, a.size = n := ⟨_, rfl⟩
      obtain ⟨m, hm⟩ : ∃ m, b.size = m := ⟨_, rfl⟩
      obtain ⟨x, rfl⟩ := exists_densev_size hn
      obtain ⟨y, rfl⟩ := exists_densev_size hm
      have h0 : ∀ d : ℕ, ((densev x).at? (d : ℕ)).isSome = ((densev y).at? (d : ℕ)).isSome := fun d => by
        simpa [nodal] using hs 0 d
      have hnm : n = m := by
        rcases lt_trichotomy n m with h | h | h
        · have := h0 n
          rw [densev_at_none _ (lt_irrefl n), densev_at _ h] at this
          simp at this
        · exact h
        · have := h0 m
          rw [densev_at_none _ (lt_irrefl m), densev_at _ h] at this
          simp at this
      subst hnm
      refine ⟨densev (x + y) :: w, ?_⟩
      simp only [addFields, C01_vec_add, hw, Option.bind_eq_bind, Option.bind_some, Option.pure_def]

theorem addFields_length : ∀ {u v w : List (Vec K)}, addFields u v = some w → w.length = u.length := by
  intro u
  induction u with
  | nil =>
    intro v w h
    cases v with
    | nil => simp only [addFields, Option.some.injEq] at h; rw [← h]
    | cons b v => simp [addFields] at h
  | cons a u ih =>
    intro v w h
    cases v with
    | nil => simp [addFields] at h
    | cons b v =>
      simp only [addFields, Option.bind_eq_bind, Option.bind_eq_some_iff, Option.pure_def, Option.some.injEq] at h
      obtain ⟨c, -, w', hw', rfl⟩ := h
      simp [ih hw']

theorem disassembling_length {u v : List (Vec K)} {x : List K} {t : List (List ℤ)} (h : disassembling u x t = some v) :
    v.length = u.length := by
  unfold disassembling at h
  refine foldlM_inv (P := fun s : List (Vec K) => s.length = u.length) ?_ _ _ _ rfl h
  intro s i s' hs h1
  simp only [Option.bind_eq_bind, Option.bind_eq_some_iff] at h1
  obtain ⟨row, -, h1⟩ := h1
  refine foldlM_inv (P := fun s : List (Vec K) => s.length = u.length) ?_ _ _ _ hs h1
  intro s j s' hs h2
  simp only [Option.bind_eq_some_iff] at h2
  obtain ⟨g, -, h2⟩ := h2
  split_ifs at h2 with hg
  · simp only [Option.bind_eq_some_iff] at h2
    obtain ⟨a, -, y, -, h2⟩ := h2
    exact (nodalPut_length h2).trans hs
  · simp only [Option.pure_def, Option.some.injEq] at h2
    exact h2 ▸ hs

end

section
variable {s : LinSolver} {own : Bool} {test : ℝ → Option Bool} {loop : List (Vec ℝ) → Option (List (AsmCall ℝ))}
  {z w u : List (Vec ℝ)} {t t₁ : List (List ℤ)} {bc : List ((ℕ × ℕ) × ℝ)} {calls : List (AsmCall ℝ)}

/-- A pass succeeds if the tangent is symmetric and positive definite on the free dofs. -/
theorem newtonIter_finds (hs : s.Finds) (hset : setDirichlet z t bc = some (w, t₁)) (hu : SameDofs z u)
    (hlen : u.length = z.length) (hl : loop u = some calls) (hfit : ∀ c ∈ calls, c.Fits t z)
    (hz : ∀ n d, valOf z n d = 0) (hfree : ∀ p ∈ freeDofs t bc, (nodal z p.1 p.2).isSome)
    (hsym : SymmetricCalls calls)
    (hpos : ∀ v : ℕ → ℕ → ℝ, (∀ n d, ¬ IsFree t bc (n, d) → v n d = 0) → (∃ n d, v n d ≠ 0) → 0 < energy calls v v)
    (ht : test (passNorm own t bc calls (valOf u) ^ 2) = some false) (hne : passNorm own t bc calls (valOf u) ≠ 0)
    (hn : (freeDofs t bc).length ≤ 100000) :
    ∃ u', newtonIter s own test loop (renumbering t₁).1 (renumbering t₁).2 z u = some (some (u', true)) ∧
      u'.length = z.length := by
  have hlen₁ := (C21_setDirichlet z w t t₁ bc hset).1
  set b := if own then u else z with hb
  have hsame : SameDofs z b := by
    rw [hb]; split_ifs
    · exact hu
    · exact fun _ _ => rfl
  have h0' : setDirichlet b t₁ [] = some (b, t₁) := rfl
  have hfit1 : ∀ c ∈ calls, c.Fits t₁ b := fun c hc =>
    ⟨fun p hp => ⟨by rw [isSome_of_lengths hlen₁]; exact ((hfit c hc).1 p hp).1, by
      rw [← hsame]; exact ((hfit c hc).1 p hp).2⟩, (hfit c hc).2⟩
  have hfit2 : ∀ c ∈ calls, c.Fits (renumbering t₁).1 b := fun c hc => fits_renumbered h0' (hfit1 c hc)
  have hN := renumbering_numbered t₁
  obtain ⟨A, F, h1, h2, h3, h4, h5⟩ := asmCalls_system hN hfit2
  have hF : ∀ I, obsF F I = - eqResidual (renumbering t₁).1 calls (passBase own t bc (valOf u)) I := by
    intro I
    rw [h5, rhs_residual hN hfit2, base_spread hset hz]
  have hR : (F.map fun r => r * r).sum = passNorm own t bc calls (valOf u) ^ 2 := by
    rw [passNorm, ← freeDofs_marked hset, ← norm_renumbered h0' hfit1,
      Real.sq_sqrt (Finset.sum_nonneg fun _ _ => by positivity), list_sq_range, h3]
    exact Finset.sum_congr rfl fun I _ => by rw [hF, neg_sq]
  have hsurj : ∀ I < (renumbering t₁).2, ∃ n d, dofNum (renumbering t₁).1 n d = some (I : ℤ) := fun I hI =>
    (C20_range t₁ I (by omega)).2 ⟨by omega, by omega⟩
  rw [← h3] at h2 hsurj
  obtain ⟨m, s', h6, h7⟩ := csr_of_ok h2
  have hspd : SPD (fun i j : Fin F.length => obsK A i j) := by
    refine ⟨fun i j => ?_, fun v hv => ?_⟩
    · show obsK A i j = obsK A j i
      rw [h4, h4]
      refine congrArg List.sum (List.map_congr_left fun c hc => contribK_symm _ _ _ (hsym c hc) _ _)
    · have := system_energy hN hfit2 (obsF (List.ofFn v)) (obsF (List.ofFn v))
      simp only [← h4] at this
      rw [← h3] at this
      simp only [Finset.sum_range, obsF_ofFn] at this
      refine lt_of_lt_of_eq ?_ this.symm
      apply hpos
      · intro n d hnd
        rw [spread, if_pos]
        by_contra hc
        exact hnd ((numOf_renumbered hset n d).1 hc)
      · obtain ⟨i, hi⟩ := Function.ne_iff.1 hv
        obtain ⟨n, d, hnd⟩ := hsurj i i.2
        refine ⟨n, d, ?_⟩
        rw [spread, numOf_some hnd, if_neg (by omega), Int.toNat_natCast, obsF_ofFn]
        exact hi
  have hbne : (fun i : Fin F.length => F[(i : ℕ)]) ≠ 0 := by
    intro h0
    apply hne
    have : (F.map fun r => r * r).sum = 0 := by
      rw [list_sq_range]
      refine Finset.sum_eq_zero fun I hI => ?_
      have hI' := Finset.mem_range.1 hI
      have : obsF F I = F[I] := by simp [obsF, hI']
      rw [this, show F[I] = 0 from congrFun h0 ⟨I, hI'⟩]
      ring
    rw [hR] at this
    exact pow_eq_zero_iff two_ne_zero |>.1 this
  obtain ⟨x, hx⟩ := hs _ m _ _ h7 hspd hbne (by rw [h3, free_count hset]; exact hn)
  obtain ⟨du, hdu⟩ := C25_defined z (List.ofFn x) (renumbering t₁).1 (by
    intro n d g hg hne
    rcases hN n d g hg with h8 | h8
    · exact absurd h8 hne
    · refine ⟨h8.1, by rw [List.length_ofFn, h3]; exact h8.2, ?_⟩
      have hf := (numOf_renumbered hset n d).1 (by rw [numOf_some hg]; exact hne)
      exact hfree (n, d) (List.mem_filter.2 ⟨mem_allDofs (by rw [dofNum_of_numOf hf.1]; rfl), decide_eq_true hf⟩))
  obtain ⟨v, hv⟩ := addFields_ok (u := u) (v := du) (by rw [hlen, disassembling_length hdu]) fun n d => by
    rw [← hu, disassembling_same hdu n d]
  refine ⟨v, ?_, by rw [addFields_length hv, hlen]⟩
  unfold newtonIter
  simp only [hl, ← hb, h1, h6, Option.bind_eq_bind, Option.bind_some, hR, ht, Bool.false_eq_true, if_false, hx, hdu, hv]
  rfl

end

end Pansfem
