/-
Bars: energies, forces and analyses of trusses.
-/
import Verif.Spec.ProgramTruss
import Verif.Lemmas.LinearAnalysis
import Verif.Lemmas.Optimisers

noncomputable section

open Matrix

namespace Pansfem

section
variable {x : List (Vec ℝ)} {elements : List (List ℕ)} {ufixed qfixed : List ((ℕ × ℕ) × ℝ)} {E : ℝ}

theorem barLen_pos (hB : Bars x elements) {e : List ℕ} (he : e ∈ elements) : 0 < barLen x e := by
  obtain ⟨-, a, b, rfl, hab⟩ := hB e he
  unfold barLen barSpan
  apply Real.sqrt_pos.2
  simp only [List.getElem?_cons_zero, List.getElem?_cons_succ, Option.getD_some]
  rcases hab with h | h
  · have : coord x b 0 - coord x a 0 ≠ 0 := sub_ne_zero.2 h.symm
    positivity
  · have : coord x b 1 - coord x a 1 ≠ 0 := sub_ne_zero.2 h.symm
    positivity

/-- The form of a bar is the product of the elongations. -/
theorem bar_form (hE : 0 ≤ E) (hB : Bars x elements) {e : List ℕ} (he : e ∈ elements) (w v : ℕ → ℕ → ℝ) :
    baseForm (trussCore E) [0, 1] x e w v = E / barLen x e * (elongation x e w * elongation x e v) := by
  obtain ⟨X, hX, hA, -, -⟩ := (linear_truss hE hB).mat he
  have hl := (barLen_pos hB he).ne'
  obtain ⟨-, a, b, rfl, -⟩ := hB e he
  have hc : ∀ i j : Fin 2, X i j = coord x ([a, b][(i : ℕ)]?.getD 0) j := by
    intro i j
    unfold coord
    rw [gather_entry hX i j]; rfl
  have hlen : Real.sqrt ((X 1 0 - X 0 0) ^ 2 + (X 1 1 - X 0 1) ^ 2) = barLen x [a, b] := by
    simp [hc, barLen, barSpan]
  rw [baseForm_apply]
  generalize baseMat (trussCore E) x [a, b] = A at hA
  simp only [trussCore, Option.map_eq_some_iff] at hA
  obtain ⟨M, hM, rfl⟩ := hA
  simp only [truss2D, Option.bind_eq_bind, Option.pure_def, Option.bind_eq_some_iff, Option.some.injEq, div?_eq_some,
    hlen] at hM
  obtain ⟨p, ⟨-, rfl⟩, q, ⟨-, rfl⟩, k, ⟨-, rfl⟩, rfl⟩ := hM
  have h0 : X 1 0 - X 0 0 = barSpan x [a, b] 0 := by simp [hc, barSpan]
  have h1 : X 1 1 - X 0 1 = barSpan x [a, b] 1 := by simp [hc, barSpan]
  rw [h0, h1]
  unfold elongation
  generalize barSpan x [a, b] 0 = p
  generalize barSpan x [a, b] 1 = q
  generalize barLen x [a, b] = l at hl
  have hf : ∀ f : ℕ → ℕ → ℝ, ∀ i j : Fin 2, localField (n := 2) (k := 2) [0, 1] [a, b] f (i, j) =
      f ([a, b][(i : ℕ)]?.getD 0) j := by
    intro f i j
    match j with
    | 0 => rfl
    | 1 => rfl
  simp only [dotProduct, mulVec, Fintype.sum_prod_type, Fin.sum_univ_two, hf, submatrix_apply, finProdFinEquiv]
  simp
  field_simp
  ring

theorem truss_definite (hE : 0 < E) (hB : Bars x elements) (hs : Stiff x elements ufixed) :
    DefiniteCore (trussCore E) [0, 1] x elements ufixed := by
  refine fun v hv h0 => hs v hv fun e he => ?_
  have := h0 e he
  rw [bar_form hE.le hB he] at this
  have hl := div_pos hE (barLen_pos hB he)
  exact mul_self_eq_zero.1 ((mul_eq_zero.1 this).resolve_left hl.ne')

theorem elongation_unit (e : List ℕ) {n d : ℕ} (hd : d < 2) : elongation x e (unitField n d) =
    ((if n = e[1]?.getD 0 then barSpan x e d else 0) - if n = e[0]?.getD 0 then barSpan x e d else 0) / barLen x e := by
  unfold elongation unitField
  have : d = 0 ∨ d = 1 := by omega
  simp only [eq_comm (a := n)]
  rcases this with rfl | rfl
  · by_cases h0 : e[0]?.getD 0 = n <;> by_cases h1 : e[1]?.getD 0 = n <;> simp [h0, h1]
  · by_cases h0 : e[0]?.getD 0 = n <;> by_cases h1 : e[1]?.getD 0 = n <;> simp [h0, h1]

/-- The residual of a truss is the sum of the forces. -/
theorem truss_residual (hE : 0 ≤ E) (hB : Bars x elements) (c : Fin elements.length → ℝ) (v : ℕ → ℕ → ℝ) {n d : ℕ}
    (hd : d < 2) : residual ((baseItems (trussCore E) [0, 1] x elements c).map ElemData.call ++ [.nodal qfixed]) v n d =
      -forceSum x elements qfixed (fun i => axialForce E (c i) x elements[i] v) n d := by
  rw [residual_append, residual_nodal, residual_eq, baseItems_energy (linear_truss hE hB)]
  have h3 : (((baseItems (trussCore E) [0, 1] x elements c).map ElemData.call).map fun c =>
      callLoad c (unitField n d)).sum = 0 := by
    apply List.sum_eq_zero
    intro y hy
    rw [List.map_map] at hy
    obtain ⟨it, -, rfl⟩ := List.mem_map.1 hy
    simp [callLoad, ElemData.call, AsmCall.rhs]
  rw [h3, sub_zero, forceSum, neg_add, ← Finset.sum_neg_distrib]
  refine congrArg (· + -nodalLoad qfixed n d) (Finset.sum_congr rfl fun i _ => ?_)
  have he := List.getElem_mem i.2
  have hl := (barLen_pos hB he).ne'
  simp only [Fin.getElem_fin] at hl ⊢
  rw [bar_form hE hB he, elongation_unit _ hd, forceOn, axialForce]
  split_ifs <;> field_simp <;> ring

theorem dofNorm_congr_neg {L : List (ℕ × ℕ)} {v w : ℕ → ℕ → ℝ} (h : ∀ p ∈ L, v p.1 p.2 = -w p.1 p.2) :
    dofNorm L v = dofNorm L w := by
  unfold dofNorm
  congr 2
  refine List.map_congr_left fun p hp => ?_
  rw [h p hp, neg_sq]

theorem truss_nonempty (h : TrussOk x elements ufixed qfixed) : 0 < elements.length := by
  by_contra h0
  obtain ⟨n, hn, d, hd, hf, -⟩ := h.loaded
  have he : elements = [] := List.length_eq_zero_iff.1 (by omega)
  have := congrFun (congrFun (h.stiff (unitField n d) (fun m j hm => ?_) (by simp [he])) n) d
  · simp [unitField] at this
  · unfold unitField
    rw [if_neg]
    rintro ⟨rfl, rfl⟩
    exact hm ⟨hn, hd, hf⟩

theorem trussCore_symm (c : ℝ) (X : Matrix (Fin 2) (Fin 2) ℝ) (A : Matrix (Fin 2 × Fin 2) (Fin 2 × Fin 2) ℝ)
    (h : trussCore E c X = some A) : Aᵀ = A := by
  simp only [trussCore, Option.map_eq_some_iff] at h
  obtain ⟨M, hM, rfl⟩ := h
  rw [transpose_submatrix, C32_truss hM]

/-- The analysis of a truss with positive sections succeeds: the supports do not move, the forces are balanced and do
positive work. -/
theorem truss_analysis {s : LinSolver} (hs : s.Finds) (hs' : s.Certifies) (hE : 0 < E)
    (h : TrussOk x elements ufixed qfixed) {c : Fin elements.length → ℝ} (hc : ∀ i, 0 < c i) :
    ∃ u, staticAnalysis s (zeroField x.length 2) (freeTable x.length 2) ufixed
        ((baseItems (trussCore E) [0, 1] x elements c).map ElemData.call ++ [.nodal qfixed]) = some (u, true) ∧
      Shaped u (freeTable x.length 2) ∧
      Balanced x elements ufixed qfixed (fun i => axialForce E (c i) x elements[i] (valOf u)) u ∧
      0 < ∑ i : Fin elements.length, axialForce E (c i) x elements[i] (valOf u) * elongation x elements[i] (valOf u) := by
  obtain ⟨u, h1, h2, h3, h4, h5⟩ := linear_analysis hs hs' (linear_truss hE.le h.bars) trussCore_symm
    (truss_definite hE h.bars h.stiff) h.fixedRange h.fixedZero h.loadRange h.loaded h.size hc
  refine ⟨u, h1, h2, ⟨h3, ?_⟩, ?_⟩
  · refine lt_of_eq_of_lt (dofNorm_congr_neg fun p hp => ?_).symm h4
    have hp' := (List.mem_filter.1 hp).1
    rw [show p = (p.1, p.2) from rfl, mem_allDofs_iff] at hp'
    exact truss_residual hE.le h.bars c (valOf u) (freeTable_lt hp').2
  · refine lt_of_lt_of_eq h5 (Finset.sum_congr rfl fun i _ => ?_)
    simp only [Fin.getElem_fin]
    rw [bar_form hE.le h.bars (List.getElem_mem i.2), axialForce]
    ring

end

end Pansfem
