/-
Linear analyses of meshes whose element matrices are proportional to a coefficient.
-/
import Verif.Props.C122_DensityProblem

noncomputable section

open Matrix

namespace Pansfem

section
variable {n d : ℕ} {core : ℝ → Matrix (Fin n) (Fin d) ℝ → Option (Matrix (Fin n × Fin 2) (Fin n × Fin 2) ℝ)}
  {dl : List ℕ} {x : List (Vec ℝ)} {elements : List (List ℕ)} {ufixed qfixed : List ((ℕ × ℕ) × ℝ)}

/-- Only the zero field vanishes at the supports and has no energy in any element. -/
def DefiniteCore (core : ℝ → Matrix (Fin n) (Fin d) ℝ → Option (Matrix (Fin n × Fin 2) (Fin n × Fin 2) ℝ)) (dl : List ℕ)
    (x : List (Vec ℝ)) (elements : List (List ℕ)) (ufixed : List ((ℕ × ℕ) × ℝ)) : Prop :=
  ∀ v : ℕ → ℕ → ℝ, (∀ m j, ¬ (m < x.length ∧ j < 2 ∧ (m, j) ∉ ufixed.map Prod.fst) → v m j = 0) →
    (∀ e ∈ elements, baseForm core dl x e v v = 0) → v = 0

/-- With positive coefficients only the zero field has no energy. -/
theorem linear_definite (h : LinearCore core dl x elements) (hd : DefiniteCore core dl x elements ufixed)
    {c : Fin elements.length → ℝ} (hc : ∀ i, 0 < c i) {v : ℕ → ℕ → ℝ}
    (hv : ∀ m j, ¬ (m < x.length ∧ j < 2 ∧ (m, j) ∉ ufixed.map Prod.fst) → v m j = 0)
    (h0 : energy ((baseItems core dl x elements c).map ElemData.call) v v = 0) : v = 0 := by
  refine hd v hv fun e he => ?_
  obtain ⟨i, hi, rfl⟩ := List.getElem_of_mem he
  rw [baseItems_energy h] at h0
  have := (Finset.sum_eq_zero_iff_of_nonneg fun (i : Fin elements.length) _ =>
    mul_nonneg (hc i).le (baseForm_nonneg h (List.getElem_mem i.2) v)).1 h0 ⟨i, hi⟩ (Finset.mem_univ _)
  exact (mul_eq_zero.1 this).resolve_left (hc _).ne'

/-- The analysis of a held and loaded mesh with positive coefficients succeeds, and the displacements have positive
energy. -/
theorem linear_analysis {s : LinSolver} (hs : s.Finds) (hs' : s.Certifies) (h : LinearCore core dl x elements)
    (hsym : ∀ c X A, core c X = some A → Aᵀ = A) (hd : DefiniteCore core dl x elements ufixed)
    (hu : ∀ r ∈ ufixed, r.1.1 < x.length ∧ r.1.2 < 2)
    (hz : ∀ r ∈ ufixed, r.2 = 0) (hq : ∀ r ∈ qfixed, r.1.1 < x.length ∧ r.1.2 < 2)
    (hl : ∃ n < x.length, ∃ d < 2, (n, d) ∉ ufixed.map Prod.fst ∧ nodalLoad qfixed n d ≠ 0) (hN : x.length ≤ 50000)
    {c : Fin elements.length → ℝ} (hc : ∀ i, 0 < c i) :
    ∃ u, staticAnalysis s (zeroField x.length 2) (freeTable x.length 2) ufixed
        ((baseItems core dl x elements c).map ElemData.call ++ [.nodal qfixed]) = some (u, true) ∧
      Shaped u (freeTable x.length 2) ∧ (∀ r ∈ ufixed, nodal u r.1.1 r.1.2 = some 0) ∧
      dofNorm (freeDofs (freeTable x.length 2) ufixed)
          (residual ((baseItems core dl x elements c).map ElemData.call ++ [.nodal qfixed]) (valOf u)) <
        1 / 10 ^ 10 * dofNorm (freeDofs (freeTable x.length 2) ufixed) (nodalLoad qfixed) ∧
      0 < ∑ i : Fin elements.length, c i * baseForm core dl x elements[i] (valOf u) (valOf u) := by
  have hfit : ∀ it ∈ baseItems core dl x elements c,
      it.call.Fits (freeTable x.length 2) (zeroField x.length 2) := by
    intro it hit
    obtain ⟨e, he, a, rfl⟩ := mem_baseItems hit
    exact baseItem_fits h he a (shaped_zeroField x.length 2)
  obtain ⟨u, hres⟩ := loaded_succeeds (s := s) (N := x.length) (k := 2) (bc := ufixed) (loads := qfixed)
    (items := baseItems core dl x elements c) hs hfit hu hz hq
    (by
      intro c hc
      obtain ⟨it, hit, rfl⟩ := List.mem_map.1 hc
      obtain ⟨e, he, a, rfl⟩ := mem_baseItems hit
      exact elem_sym (k := 2) (dl := dl) h.len (baseItem_call h he a).2 fun X A hA => hsym _ X A hA)
    (by
      intro it hit w
      obtain ⟨i, rfl⟩ := List.mem_ofFn.1 hit
      exact le_of_le_of_eq (mul_nonneg (hc i).le (baseForm_nonneg h (List.getElem_mem i.2) w))
        (baseItem_energy h (List.getElem_mem i.2) _ w w).symm)
    (fun w hw h0 => linear_definite h hd hc hw h0) hl (by omega)
  have hcalls : ∀ c' ∈ (baseItems core dl x elements c).map ElemData.call ++ [.nodal qfixed],
      c'.Fits (freeTable x.length 2) (zeroField x.length 2) := by
    intro c' hc'
    rcases List.mem_append.1 hc' with hc' | hc'
    · obtain ⟨it, hit, rfl⟩ := List.mem_map.1 hc'
      exact hfit it hit
    · rw [List.mem_singleton] at hc'
      subst hc'
      exact loads_fit hq
  obtain ⟨r1, -, r3⟩ := C108_result _ hs' _ _ _ _ _ _ hcalls hres
  have hsh := analysis_shaped (shaped_zeroField _ _) hres
  have hfix : ∀ r ∈ ufixed, nodal u r.1.1 r.1.2 = some 0 := by
    intro r hr
    have : ∃ w, lastValue ufixed r.1.1 r.1.2 = some w ∧ w = 0 := by
      have hs : (ufixed.reverse.find? fun p => decide (p.1 = (r.1.1, r.1.2))).isSome := by
        rw [List.find?_isSome]
        exact ⟨r, List.mem_reverse.2 hr, by simp⟩
      obtain ⟨r', hr'⟩ := Option.isSome_iff_exists.1 hs
      exact ⟨r'.2, by rw [lastValue, hr']; rfl, hz _ (List.mem_reverse.1 (List.mem_of_find?_eq_some hr'))⟩
    obtain ⟨w, hw, rfl⟩ := this
    exact r1 _ _ 0 hw
  have hbal : dofNorm (freeDofs (freeTable x.length 2) ufixed)
      (residual ((baseItems core dl x elements c).map ElemData.call ++ [.nodal qfixed]) (valOf u)) <
        1 / 10 ^ 10 * dofNorm (freeDofs (freeTable x.length 2) ufixed) (nodalLoad qfixed) := by
    have hg : residual ((baseItems core dl x elements c).map ElemData.call ++ [.nodal qfixed])
        (given (zeroField x.length 2) (freeTable x.length 2) ufixed) = fun n d => -nodalLoad qfixed n d := by
      funext n d
      rw [residual_append, residual_items_zero _ (given_zero hz), residual_nodal, zero_add]
    have := r3.1 rfl
    rw [hg] at this
    simpa [dofNorm] using this
  refine ⟨u, hres, hsh, hfix, hbal, ?_⟩
  have h0 : ∀ i ∈ (Finset.univ : Finset (Fin elements.length)), 0 ≤ c i *
      baseForm core dl x elements[i] (valOf u) (valOf u) := fun i _ =>
    mul_nonneg (hc i).le (baseForm_nonneg h (List.getElem_mem i.2) _)
  refine lt_of_le_of_ne (Finset.sum_nonneg h0) fun h1 => ?_
  have hzero : valOf u = 0 := by
    refine linear_definite h hd hc (fun m j hm => ?_) ((baseItems_energy h _ _ _).trans h1.symm)
    by_cases hr : (m, j) ∈ ufixed.map Prod.fst
    · obtain ⟨r, hr, e⟩ := List.mem_map.1 hr
      have := hfix r hr
      rw [e] at this
      simp [valOf, this]
    · have : nodal u m j = none := by
        rw [← Option.not_isSome_iff_eq_none, hsh.2 m j]
        intro h2
        exact hm ⟨(freeTable_lt h2).1, (freeTable_lt h2).2, hr⟩
      simp [valOf, this]
  rw [hzero] at hbal
  have h2 : residual ((baseItems core dl x elements c).map ElemData.call ++ [.nodal qfixed]) 0 =
      fun n d => -nodalLoad qfixed n d := by
    funext n d
    rw [residual_append, residual_items_zero _ (v := 0) (fun _ _ => rfl), residual_nodal, zero_add]
  rw [h2] at hbal
  have h3 : dofNorm (freeDofs (freeTable x.length 2) ufixed) (fun n d => -nodalLoad qfixed n d) =
      dofNorm (freeDofs (freeTable x.length 2) ufixed) (nodalLoad qfixed) := by simp [dofNorm]
  rw [h3] at hbal
  have h4 : 0 ≤ dofNorm (freeDofs (freeTable x.length 2) ufixed) (nodalLoad qfixed) := Real.sqrt_nonneg _
  linarith

end

end Pansfem
