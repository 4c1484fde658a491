/-
C111: the compliance and its sensitivities in the optimisation programs.
-/
import Verif.Lemmas.ProgramDesign
import Verif.Props.C34_Energy
import Mathlib.Analysis.SpecialFunctions.Pow.Deriv

noncomputable section

open Matrix

namespace Pansfem

/-! ### Element matrices -/

theorem trussCore_linear (E : ℝ) (X : Matrix (Fin 2) (Fin 2) ℝ) (A : Matrix (Fin 2 × Fin 2) (Fin 2 × Fin 2) ℝ) (c : ℝ)
    (h : trussCore E 1 X = some A) : trussCore E c X = some (c • A) := by
  simp only [trussCore, truss2D, Option.map_eq_some_iff, Option.bind_eq_bind, Option.pure_def,
    Option.bind_eq_some_iff, Option.some.injEq, div?_eq_some] at h
  obtain ⟨M, ⟨a, ⟨ha, rfl⟩, b, ⟨-, rfl⟩, k, ⟨-, rfl⟩, rfl⟩, rfl⟩ := h
  simp only [trussCore, truss2D, div?, if_neg ha, Option.bind_eq_bind, Option.bind_some, Option.pure_def,
    Option.map_some, Option.some.injEq]
  ext ⟨i, j⟩ ⟨i', j'⟩
  fin_cases i <;> fin_cases j <;> fin_cases i' <;> fin_cases j' <;>
    simp [finProdFinEquiv] <;> ring

theorem trussCore_spec {E c : ℝ} (hE : 0 ≤ E) (hc : 0 ≤ c) {X : Matrix (Fin 2) (Fin 2) ℝ}
    {A : Matrix (Fin 2 × Fin 2) (Fin 2 × Fin 2) ℝ} (h : trussCore E c X = some A) :
    Aᵀ = A ∧ ∀ v, 0 ≤ v ⬝ᵥ (A *ᵥ v) := by
  simp only [trussCore, Option.map_eq_some_iff] at h
  obtain ⟨M, hM, rfl⟩ := h
  refine ⟨?_, fun v => ?_⟩
  · rw [transpose_submatrix, C32_truss hM]
  simp only [truss2D, Option.bind_eq_bind, Option.pure_def,
    Option.bind_eq_some_iff, Option.some.injEq, div?_eq_some] at hM
  obtain ⟨a, ⟨-, rfl⟩, b, ⟨-, rfl⟩, k, ⟨-, rfl⟩, rfl⟩ := hM
  set l := Real.sqrt ((X 1 0 - X 0 0) ^ 2 + (X 1 1 - X 0 1) ^ 2)
  set a := (X 1 0 - X 0 0) / l
  set b := (X 1 1 - X 0 1) / l
  have hk : 0 ≤ E * c / l := by positivity
  set k := E * c / l
  have : v ⬝ᵥ ((Matrix.of ![![k * a * a, k * a * b, -k * a * a, -k * a * b],
      ![k * a * b, k * b * b, -k * a * b, -k * b * b], ![-k * a * a, -k * a * b, k * a * a, k * a * b],
      ![-k * a * b, -k * b * b, k * a * b, k * b * b]]).submatrix finProdFinEquiv finProdFinEquiv *ᵥ v) =
      k * (a * (v (1, 0) - v (0, 0)) + b * (v (1, 1) - v (0, 1))) ^ 2 := by
    simp [dotProduct, mulVec, Fintype.sum_prod_type, Fin.sum_univ_two, finProdFinEquiv]
    ring
  rw [this]
  positivity

theorem linear_truss {E : ℝ} (hE : 0 ≤ E) {x : List (Vec ℝ)} {elements : List (List ℕ)} (hB : Bars x elements) :
    LinearCore (trussCore E) [0, 1] x elements := by
  refine ⟨by norm_num, rfl, rfl, by decide, trussCore_linear E, fun e he => ?_⟩
  obtain ⟨hx, a, b, rfl, hab⟩ := hB e he
  obtain ⟨X, hX⟩ := triangle_coords hx (n := 2) rfl
  have hc : ∀ i j : Fin 2, X i j = coord x ([a, b][(i : ℕ)]?.getD 0) j := by
    intro i j
    unfold coord
    rw [gather_entry hX i j]; rfl
  have hl : Real.sqrt ((X 1 0 - X 0 0) ^ 2 + (X 1 1 - X 0 1) ^ 2) ≠ 0 := by
    apply ne_of_gt
    apply Real.sqrt_pos.2
    simp only [hc]
    rcases hab with h | h
    · have : 0 < (coord x b 0 - coord x a 0) ^ 2 := by
        have : coord x b 0 - coord x a 0 ≠ 0 := sub_ne_zero.2 h.symm
        positivity
      have h2 := sq_nonneg (coord x b 1 - coord x a 1)
      simpa using add_pos_of_pos_of_nonneg this h2
    · have : 0 < (coord x b 1 - coord x a 1) ^ 2 := by
        have : coord x b 1 - coord x a 1 ≠ 0 := sub_ne_zero.2 h.symm
        positivity
      have h2 := sq_nonneg (coord x b 0 - coord x a 0)
      simpa using add_pos_of_nonneg_of_pos h2 this
  obtain ⟨A, hA⟩ : ∃ A, trussCore E 1 X = some A := by
    simp only [trussCore, truss2D, div?, if_neg hl, Option.bind_eq_bind, Option.bind_some, Option.pure_def,
      Option.map_some]
    exact ⟨_, rfl⟩
  obtain ⟨h1, h2⟩ := trussCore_spec hE zero_le_one hA
  exact ⟨X, A, hX, hA, h1, h2⟩

theorem linear_density {V t : ℝ} (h1 : -1 < V) (h2 : 2 * V < 1) (ht : 0 ≤ t) {x : List (Vec ℝ)}
    {elements : List (List ℕ)} (hQ : Quads x elements) :
    LinearCore (fun E X => planeStrainStiffness SF.square4 IC.gauss4Square X E V t) [0, 1] x elements := by
  refine ⟨by norm_num, rfl, rfl, by decide, fun X A c h => ?_, fun e he => ?_⟩
  · obtain ⟨D, hD, h⟩ := planeStrainStiffness_eq_some.1 h
    obtain ⟨hV, rfl⟩ := planeStrainD_eq_some.1 hD
    obtain ⟨hr, rfl⟩ := (planeStiffness_eq_some _ _ _).1 h
    refine planeStrainStiffness_eq_some.2 ⟨_, planeStrainD_eq_some.2 ⟨hV, rfl⟩, (planeStiffness_eq_some _ _ _).2 ⟨hr, ?_⟩⟩
    rw [Finset.smul_sum]
    refine Finset.sum_congr rfl fun g _ => ?_
    simp only [Matrix.mul_smul, Matrix.smul_mul, smul_smul]
    congr 1
    generalize (1 - 2 * V) * (1 + V) = z
    ring
  · obtain ⟨X, hX, hdet⟩ := hQ e he
    have hV : (1 - 2 * V) * (1 + V) ≠ 0 := by
      apply ne_of_gt
      apply mul_pos <;> linarith
    obtain ⟨A, hA⟩ := Option.isSome_iff_exists.1 ((C32_planeStrain_defined (E := 1) (t := t)).2
      ⟨hV, fun g => (hdet g).ne'⟩)
    refine ⟨X, A, hX, hA, C32_planeStrain hA, C34_planeStrain (fun g => ?_) ht zero_le_one h1 h2 hA⟩
    unfold measure2
    have hw : ∀ g i, (0 : ℝ) ≤ IC.gauss4Square.weights g i := by
      intro g i
      change Fin 4 at g
      fin_cases g <;> fin_cases i <;> simp [IC.gauss4Square]
    exact mul_nonneg (mul_nonneg (hdet g).le (hw g 0)) (hw g 1)

/-! ### Sensitivities -/

theorem trussSensitivity_eq {it : ElemData ℝ} {t : List (List ℤ)} {u : List (Vec ℝ)} (h : it.Square)
    (hf : it.call.Fits t u) (scale : ℝ) :
    trussSensitivity scale u it = some (-scale * callEnergy it.call (valOf u) (valOf u)) := by
  obtain ⟨ue, f, h1, h2, h3⟩ := element_work h hf
  unfold trussSensitivity
  simp only [h1, h2, Option.bind_eq_bind, Option.bind_some]
  exact h3 (-scale)

theorem densitySensitivity_eq {it : ElemData ℝ} {t : List (List ℤ)} {u : List (Vec ℝ)} (h : it.Square)
    (hf : it.call.Fits t u) (scale p E0 E1 rho : ℝ) :
    densitySensitivity scale p E0 E1 rho u it =
      some (-scale * p * (-E0 + E1) * rho ^ (p - 1) * callEnergy it.call (valOf u) (valOf u)) := by
  obtain ⟨ue, f, h1, h2, h3⟩ := element_work h hf
  have h4 := h3 1
  rw [vec_smul_eq, Option.bind_some, one_mul] at h4
  simp only [mul_one, List.map_id'] at h4
  unfold densitySensitivity
  simp only [h1, h2, Option.bind_eq_bind, Option.bind_some, Option.pure_def]
  rw [show ue.dot f = _ from h4]
  rfl

theorem loadForm_nodal (q : List ((ℕ × ℕ) × ℝ)) (w : ℕ → ℕ → ℝ) :
    loadForm [.nodal q] w = (q.map fun p => w p.1.1 p.1.2 * p.2).sum := by
  show ([AsmCall.nodal q].map fun c => callLoad c w).sum = _
  simp only [List.map_cons, List.map_nil, List.sum_cons, List.sum_nil, add_zero, callLoad, AsmCall.dofs, List.map_map]
  rw [show (q.map fun p => w p.1.1 p.1.2 * p.2) = (q.zipIdx.map Prod.fst).map fun p => w p.1.1 p.1.2 * p.2 by
    rw [List.zipIdx_map_fst], List.map_map]
  refine congrArg List.sum (List.map_congr_left fun p hp => ?_)
  have := List.mem_zipIdx_iff_getElem?.1 hp
  simp [AsmCall.rhs, this]

section
variable {x : List (Vec ℝ)} {elements : List (List ℕ)} {bc q : List ((ℕ × ℕ) × ℝ)} {ntg : List (List ℤ)}
  {E A0 A1 scale : ℝ} {U : List ℝ → List (Vec ℝ)}

theorem trussCompliance_eq (hE : 0 ≤ E) (hB : Bars x elements) (hq : ∀ p ∈ q, p.1.1 < x.length ∧ p.1.2 < 2)
    (hn : ntg.map List.length = (freeTable x.length 2).map List.length)
    (hU : Displacements x.length bc [.nodal q] (trussArea A0 A1) elements.length (trussItems x elements E A0 A1) U)
    {s : List ℝ} (hs : s.length = elements.length) (hp : ∀ a ∈ s, 0 < trussArea A0 A1 a) :
    trussCompliance x elements E A0 A1 scale ntg s (U s) = some (scale * loadForm [.nodal q] (valOf (U s)),
      List.ofFn fun i : Fin elements.length => -scale * ((-A0 + A1) *
        baseForm (trussCore E) [0, 1] x elements[i] (valOf (U s)) (valOf (U s)))) := by
  have h := linear_truss hE hB
  have h1 := compliance_eq h hq hU hs hp scale hn
  unfold trussCompliance
  have h2 : (trussItems x elements E A0 A1 s).bind (fun its => complianceOf scale x.length ntg (U s) its) = _ := h1
  obtain ⟨its, hits⟩ : ∃ its, trussItems x elements E A0 A1 s = some its :=
    ⟨_, designItems_eq h (by rw [List.length_map, hs])⟩
  rw [hits, Option.bind_some] at h2
  simp only [hits, h2, Option.bind_eq_bind, Option.bind_some, Option.pure_def]
  rw [designItems_eq h (by rw [List.length_map]), Option.bind_some]
  rw [mapM_some (g := fun it => -scale * callEnergy it.call (valOf (U s)) (valOf (U s)))]
  · rw [Option.bind_some, List.map_ofFn]
    congr 3
    funext i
    simp only [Function.comp_apply, Fin.getElem_fin]
    rw [baseItem_energy h (List.getElem_mem i.2)]
    simp
  · intro it hit
    obtain ⟨i, rfl⟩ := List.mem_ofFn.1 hit
    exact trussSensitivity_eq (baseItem_call h (List.getElem_mem i.2) _).1
      (baseItem_fits h (List.getElem_mem i.2) _ (hU.shaped s)) scale

theorem truss_deriv (a : ℝ) : HasDerivAt (trussArea A0 A1) (-A0 + A1) a := by
  unfold trussArea
  have h := (((hasDerivAt_id a).const_sub 1).const_mul A0).add ((hasDerivAt_id a).const_mul A1)
  refine h.congr_deriv ?_
  ring

/-- **C111**: the truss program.  Let `U` give the displacements in equilibrium with the loads for every design with
positive cross sections, whichever they are if the truss is a mechanism.  The compliance is the work of the loads,
each sensitivity is the derivative of the compliance with respect to that design variable, none is positive if
`A0 ≤ A1`, and the compliance of any other design is at least its linear approximation. -/
theorem C111_truss (hE : 0 ≤ E) (hB : Bars x elements) (hq : ∀ p ∈ q, p.1.1 < x.length ∧ p.1.2 < 2)
    (hn : ntg.map List.length = (freeTable x.length 2).map List.length)
    (hU : Displacements x.length bc [.nodal q] (trussArea A0 A1) elements.length (trussItems x elements E A0 A1) U)
    {s : List ℝ} (hs : s.length = elements.length) (hp : ∀ a ∈ s, 0 < trussArea A0 A1 a) :
    ∃ f d, trussCompliance x elements E A0 A1 scale ntg s (U s) = some (f, d) ∧ d.length = s.length ∧
      f = scale * (q.map fun p => valOf (U s) p.1.1 p.1.2 * p.2).sum ∧
      (∀ j < s.length, HasDerivAt (fun y => ((trussCompliance x elements E A0 A1 scale ntg (s.set j y)
        (U (s.set j y))).map Prod.fst).getD 0) (d[j]?.getD 0) (s[j]?.getD 0)) ∧
      (0 ≤ scale → A0 ≤ A1 → ∀ a ∈ d, a ≤ 0) ∧
      (0 ≤ scale → ∀ s' f' d', s'.length = s.length → (∀ a ∈ s', 0 < trussArea A0 A1 a) →
        trussCompliance x elements E A0 A1 scale ntg s' (U s') = some (f', d') →
        f + ((List.range s.length).map fun j : ℕ => d[j]?.getD 0 * (s'[j]?.getD 0 - s[j]?.getD 0)).sum ≤ f') := by
  have h := linear_truss hE hB
  refine ⟨_, _, trussCompliance_eq hE hB hq hn hU hs hp, by simp [hs], by rw [loadForm_nodal], ?_, ?_, ?_⟩
  · intro j hj
    have hj' : j < elements.length := by rw [← hs]; exact hj
    have hd := (design_deriv h hq hU hs hp ⟨j, hj'⟩ (truss_deriv (s[j]?.getD 0))).const_mul scale
    have hval : (List.ofFn fun i : Fin elements.length => -scale * ((-A0 + A1) *
        baseForm (trussCore E) [0, 1] x elements[i] (valOf (U s)) (valOf (U s))))[j]?.getD 0 = scale *
        -((-A0 + A1) * baseForm (trussCore E) [0, 1] x elements[j] (valOf (U s)) (valOf (U s))) := by
      rw [List.getElem?_ofFn, dif_pos hj', Option.getD_some]
      simp
    rw [hval]
    refine hd.congr_of_eventuallyEq ?_
    have hj0 : 0 < trussArea A0 A1 (s[j]?.getD 0) := by
      rw [List.getElem?_eq_getElem hj, Option.getD_some]
      exact hp _ (List.getElem_mem hj)
    filter_upwards [(truss_deriv (A0 := A0) (A1 := A1) (s[j]?.getD 0)).continuousAt.eventually (lt_mem_nhds hj0)]
      with y hy
    rw [trussCompliance_eq hE hB hq hn hU (s := s.set j y) (by rw [List.length_set, hs]) (by
      intro a ha
      rcases List.mem_or_eq_of_mem_set ha with ha | rfl
      · exact hp a ha
      · exact hy)]
    rfl
  · intro h0 hA a ha
    obtain ⟨i, rfl⟩ := List.mem_ofFn.1 ha
    have := baseForm_nonneg h (List.getElem_mem i.2) (valOf (U s))
    have h2 : 0 ≤ scale * ((-A0 + A1) * baseForm (trussCore E) [0, 1] x elements[i] (valOf (U s)) (valOf (U s))) :=
      mul_nonneg h0 (mul_nonneg (by linarith) this)
    linarith
  · intro h0 s' f' d' hs' hp' hf'
    have hl' : s'.length = elements.length := hs'.trans hs
    rw [trussCompliance_eq hE hB hq hn hU hl' hp'] at hf'
    cases hf'
    have g := compliance_gap (fun i v w => baseForm_symm h (List.getElem_mem i.2) v w)
      (displacements_solve h hq hU hs hp) (displacements_solve h hq hU hl' hp')
    have hnn : 0 ≤ ∑ i : Fin elements.length, coeff (trussArea A0 A1) s' i *
        baseForm (trussCore E) [0, 1] x elements[i] (valOf (U s') - valOf (U s)) (valOf (U s') - valOf (U s)) := by
      refine Finset.sum_nonneg fun i _ => mul_nonneg ?_ (baseForm_nonneg h (List.getElem_mem i.2) _)
      have hi : (i : ℕ) < s'.length := by rw [hl']; exact i.2
      simp only [coeff, List.getElem?_map, List.getElem?_eq_getElem hi, Option.map_some, Option.getD_some]
      exact (hp' _ (List.getElem_mem hi)).le
    rw [← g] at hnn
    have hsum : ((List.range s.length).map fun j : ℕ => (List.ofFn fun i : Fin elements.length => -scale * ((-A0 + A1) *
        baseForm (trussCore E) [0, 1] x elements[i] (valOf (U s)) (valOf (U s))))[j]?.getD 0 *
        (s'[j]?.getD 0 - s[j]?.getD 0)).sum = -scale * ∑ i : Fin elements.length,
        (coeff (trussArea A0 A1) s' i - coeff (trussArea A0 A1) s i) *
        baseForm (trussCore E) [0, 1] x elements[i] (valOf (U s)) (valOf (U s)) := by
      rw [hs, Finset.mul_sum, ← List.sum_ofFn]
      congr 1
      apply List.ext_getElem
      · simp
      · intro j h1 h2
        have hj : j < elements.length := by simpa using h1
        have i1 : j < s.length := by rw [hs]; exact hj
        have i2 : j < s'.length := by rw [hl']; exact hj
        simp [coeff, i1, i2, hj, trussArea]
        ring
    rw [hsum]
    nlinarith [mul_nonneg h0 hnn]

end

section
variable {x : List (Vec ℝ)} {elements : List (List ℕ)} {bc q : List ((ℕ × ℕ) × ℝ)} {ntg : List (List ℤ)}
  {V t p E0 E1 scale : ℝ} {U : List ℝ → List (Vec ℝ)}

theorem densityCompliance_eq (h1 : -1 < V) (h2 : 2 * V < 1) (ht : 0 ≤ t) (hQ : Quads x elements)
    (hq : ∀ p ∈ q, p.1.1 < x.length ∧ p.1.2 < 2)
    (hn : ntg.map List.length = (freeTable x.length 2).map List.length)
    (hU : Displacements x.length bc [.nodal q] (densityModulus p E0 E1) elements.length
      (densityItems x elements V t p E0 E1) U)
    {s : List ℝ} (hs : s.length = elements.length) (hp : ∀ a ∈ s, 0 < densityModulus p E0 E1 a) :
    densityCompliance x elements V t p E0 E1 scale ntg s (U s) = some (scale * loadForm [.nodal q] (valOf (U s)),
      List.ofFn fun i : Fin elements.length => -scale * p * (-E0 + E1) * (s[(i : ℕ)]?.getD 0) ^ (p - 1) *
        baseForm (fun E X => planeStrainStiffness SF.square4 IC.gauss4Square X E V t) [0, 1] x elements[i]
          (valOf (U s)) (valOf (U s))) := by
  have h := linear_density h1 h2 ht hQ
  have h1 := compliance_eq h hq hU hs hp scale hn
  unfold densityCompliance
  have h2 : (densityItems x elements V t p E0 E1 s).bind (fun its => complianceOf scale x.length ntg (U s) its) = _ := h1
  obtain ⟨its, hits⟩ : ∃ its, densityItems x elements V t p E0 E1 s = some its :=
    ⟨_, designItems_eq h (by rw [List.length_map, hs])⟩
  rw [hits, Option.bind_some] at h2
  simp only [hits, h2, Option.bind_eq_bind, Option.bind_some, Option.pure_def]
  rw [designItems_eq h (by rw [List.length_map]), Option.bind_some, List.length_ofFn]
  rw [range_mapM (n := elements.length) (g := fun i : Fin elements.length => -scale * p * (-E0 + E1) *
    (s[(i : ℕ)]?.getD 0) ^ (p - 1) *
        baseForm (fun E X => planeStrainStiffness SF.square4 IC.gauss4Square X E V t) [0, 1] x elements[i]
          (valOf (U s)) (valOf (U s)))]
  · rfl
  · intro i
    have hi : (i : ℕ) < s.length := by rw [hs]; exact i.2
    rw [List.getElem?_eq_getElem hi, List.getElem?_ofFn, dif_pos i.2]
    simp only [Option.bind_some, Option.getD_some, Fin.getElem_fin]
    rw [densitySensitivity_eq (baseItem_call h (List.getElem_mem i.2) _).1
      (baseItem_fits h (List.getElem_mem i.2) _ (hU.shaped s)), baseItem_energy h (List.getElem_mem i.2)]
    simp

theorem density_deriv {a : ℝ} (ha : 0 < a) :
    HasDerivAt (densityModulus p E0 E1) (p * (-E0 + E1) * a ^ (p - 1)) a := by
  unfold densityModulus
  have h0 := Real.hasDerivAt_rpow_const (x := a) (p := p) (Or.inl ha.ne')
  have h := (h0.const_mul E1).add ((h0.const_sub 1).const_mul E0)
  refine h.congr_deriv ?_
  ring

/-- **C111**: the density programs, for positive densities. -/
theorem C111_density (h1 : -1 < V) (h2 : 2 * V < 1) (ht : 0 ≤ t) (hQ : Quads x elements)
    (hq : ∀ p ∈ q, p.1.1 < x.length ∧ p.1.2 < 2)
    (hn : ntg.map List.length = (freeTable x.length 2).map List.length)
    (hU : Displacements x.length bc [.nodal q] (densityModulus p E0 E1) elements.length
      (densityItems x elements V t p E0 E1) U)
    {s : List ℝ} (hs : s.length = elements.length) (h0 : ∀ a ∈ s, 0 < a)
    (hp : ∀ a ∈ s, 0 < densityModulus p E0 E1 a) :
    ∃ f d, densityCompliance x elements V t p E0 E1 scale ntg s (U s) = some (f, d) ∧ d.length = s.length ∧
      f = scale * (q.map fun p => valOf (U s) p.1.1 p.1.2 * p.2).sum ∧
      (∀ j < s.length, HasDerivAt (fun y => ((densityCompliance x elements V t p E0 E1 scale ntg (s.set j y)
        (U (s.set j y))).map Prod.fst).getD 0) (d[j]?.getD 0) (s[j]?.getD 0)) ∧
      (0 ≤ scale → 0 ≤ p → E0 ≤ E1 → ∀ a ∈ d, a ≤ 0) := by
  have h := linear_density h1 h2 ht hQ
  refine ⟨_, _, densityCompliance_eq h1 h2 ht hQ hq hn hU hs hp, by simp [hs], by rw [loadForm_nodal], ?_, ?_⟩
  · intro j hj
    have hj' : j < elements.length := by rw [← hs]; exact hj
    have hsj : s[j]?.getD 0 = s[j] := by rw [List.getElem?_eq_getElem hj]; rfl
    have hm := density_deriv (p := p) (E0 := E0) (E1 := E1) (a := s[j]?.getD 0)
      (by rw [hsj]; exact h0 _ (List.getElem_mem hj))
    have hd := (design_deriv h hq hU hs hp ⟨j, hj'⟩ hm).const_mul scale
    have hval : (List.ofFn fun i : Fin elements.length => -scale * p * (-E0 + E1) * (s[(i : ℕ)]?.getD 0) ^ (p - 1) *
        baseForm (fun E X => planeStrainStiffness SF.square4 IC.gauss4Square X E V t) [0, 1] x elements[i]
          (valOf (U s)) (valOf (U s)))[j]?.getD 0 = scale *
        -(p * (-E0 + E1) * (s[j]?.getD 0) ^ (p - 1) * baseForm (fun E X => planeStrainStiffness SF.square4
          IC.gauss4Square X E V t) [0, 1] x elements[j] (valOf (U s)) (valOf (U s))) := by
      rw [List.getElem?_ofFn, dif_pos hj', Option.getD_some]
      simp only [Fin.getElem_fin]
      ring
    rw [hval]
    refine hd.congr_of_eventuallyEq ?_
    have hj0 : 0 < densityModulus p E0 E1 (s[j]?.getD 0) := by
      rw [hsj]
      exact hp _ (List.getElem_mem hj)
    filter_upwards [hm.continuousAt.eventually (lt_mem_nhds hj0)] with y hy
    rw [densityCompliance_eq h1 h2 ht hQ hq hn hU (s := s.set j y) (by rw [List.length_set, hs]) (by
      intro a ha
      rcases List.mem_or_eq_of_mem_set ha with ha | rfl
      · exact hp a ha
      · exact hy)]
    rfl
  · intro hsc hp0 hE a ha
    obtain ⟨i, rfl⟩ := List.mem_ofFn.1 ha
    have hi : (i : ℕ) < s.length := by rw [hs]; exact i.2
    have := baseForm_nonneg h (List.getElem_mem i.2) (valOf (U s))
    have hr : 0 ≤ (s[(i : ℕ)]?.getD 0) ^ (p - 1) := by
      rw [List.getElem?_eq_getElem hi, Option.getD_some]
      exact Real.rpow_nonneg (h0 _ (List.getElem_mem hi)).le _
    have h2 := mul_nonneg (mul_nonneg (mul_nonneg (mul_nonneg hsc hp0) (by linarith : 0 ≤ -E0 + E1)) hr) this
    simp only [Fin.getElem_fin] at h2 ⊢
    linarith

end

/-! ### A bar -/

/-- A bar of length one. -/
def barNodes : List (Vec ℝ) := [⟨[0, 0]⟩, ⟨[1, 0]⟩]

theorem bar_bars : Bars barNodes [[0, 1]] := by
  intro e he
  rw [List.mem_singleton] at he
  subst he
  refine ⟨?_, 0, 1, rfl, Or.inl ?_⟩
  · intro m hm
    simp only [List.mem_cons, List.not_mem_nil, or_false] at hm
    rcases hm with rfl | rfl <;> exact ⟨rfl, rfl⟩
  · show (0 : ℝ) ≠ 1
    norm_num

/-- Supports of the bar. -/
def barSupports : List ((ℕ × ℕ) × ℝ) := [((0, 0), 0), ((0, 1), 0), ((1, 1), 0)]

theorem two_none (a b : ℝ) (d : ℕ) : Vec.at? ⟨[a, b]⟩ ((d : ℤ) + 2) = none := by
  have := vec_at_nat (⟨[a, b]⟩ : Vec ℝ) (d + 2)
  rw [Nat.cast_add] at this
  rw [show ((d : ℤ) + 2) = (d : ℤ) + ((2 : ℕ) : ℤ) from rfl, this]
  rfl

theorem bar_displacements : Displacements barNodes.length barSupports [.nodal [((1, 0), 3)]] (trussArea 1 2) 1
    (trussItems barNodes [[0, 1]] 5 1 2)
    (fun s => [⟨[0, 0]⟩, ⟨[3 / (5 * trussArea 1 2 (s[0]?.getD 0)), 0]⟩]) := by
  refine ⟨fun s => ⟨rfl, fun n d => ?_⟩, fun s its hs hp hi => ?_⟩
  · match n with
    | 0 => match d with
      | 0 => simp [nodal, dofNum, freeTable, barNodes, Vec.at?, Vec.size]
      | 1 => simp [nodal, dofNum, freeTable, barNodes, Vec.at?, Vec.size]
      | d + 2 => simp [nodal, dofNum, freeTable, barNodes, two_none]
    | 1 => match d with
      | 0 => simp [nodal, dofNum, freeTable, barNodes, Vec.at?, Vec.size]
      | 1 => simp [nodal, dofNum, freeTable, barNodes, Vec.at?, Vec.size]
      | d + 2 => simp [nodal, dofNum, freeTable, barNodes, two_none]
    | n + 2 => simp [nodal, dofNum, freeTable, barNodes]
  · obtain ⟨a, rfl⟩ := List.length_eq_one_iff.1 hs
    have ha : 0 < trussArea 1 2 a := hp a (by simp)
    have hX : gather barNodes [0, 1] 2 2 = some !![0, 0; 1, 0] := by
      obtain ⟨X, hX⟩ := triangle_coords (bar_bars [0, 1] (by simp)).1 (n := 2) rfl
      rw [hX]
      congr 1
      ext i j
      have := gather_entry hX i j
      fin_cases i <;> fin_cases j <;> exact (Option.some.inj this).symm
    have hA : trussCore 5 (trussArea 1 2 a) !![0, 0; 1, 0] = some (Matrix.of fun i j =>
        if i.2 = 0 ∧ j.2 = 0 then (if i.1 = j.1 then 5 * trussArea 1 2 a else -(5 * trussArea 1 2 a)) else 0) := by
      simp only [trussCore, truss2D, div?]
      simp only [of_apply, cons_val', cons_val_zero, cons_val_one, cons_val_fin_one, sub_zero, one_pow, sub_self,
        ne_eq, OfNat.ofNat_ne_zero, not_false_eq_true, zero_pow, add_zero, Real.sqrt_one, one_ne_zero, ↓reduceIte,
        div_one, Option.bind_eq_bind, Option.bind_some, Option.pure_def, Option.map_some, Option.some.injEq]
      ext ⟨i, j⟩ ⟨i', j'⟩
      fin_cases i <;> fin_cases j <;> fin_cases i' <;> fin_cases j' <;> simp [finProdFinEquiv]
    have hits : its = [⟨flatM (Matrix.of fun i j : Fin 2 × Fin 2 =>
        if i.2 = 0 ∧ j.2 = 0 then (if i.1 = j.1 then 5 * trussArea 1 2 a else -(5 * trussArea 1 2 a)) else 0),
        interTable 2 2 [0, 1], [0, 1]⟩] := by
      have h2 := elemM_eq_some (k := 2) (dl := [0, 1]) (core := trussCore 5 (trussArea 1 2 a)) (x := barNodes)
        (e := [0, 1]) |>.2 ⟨rfl, _, _, hX, hA, rfl, rfl⟩
      unfold trussItems designItems at hi
      simp only [List.length_singleton, List.range_one, List.mapM_cons, List.mapM_nil] at hi
      simpa [h2, eq_comm] using hi
    refine ⟨?_, ?_⟩
    · intro p hpf
      have : p = (1, 0) := by
        have : freeDofs (freeTable barNodes.length 2) barSupports = [(1, 0)] := by
          unfold freeDofs IsFree
          simp only [barSupports, barNodes, List.map_cons, List.map_nil]
          decide
        rw [this] at hpf
        simpa using hpf
      subst this
      rw [residual_append, residual_loads (calls := [.nodal [((1, 0), 3)]]) (by
        intro c hc a b
        rw [List.mem_singleton] at hc
        subst hc
        rfl)]
      have : residual (its.map ElemData.call) (valOf [⟨[0, 0]⟩, ⟨[3 / (5 * trussArea 1 2 ([a][0]?.getD 0)), 0]⟩]) 1 0 = 3 := by
        subst hits
        have hL : localDofs (interTable 2 2 [0, 1]) [0, 1] = [(0, 0, 0), (0, 1, 1), (1, 0, 2), (1, 1, 3)] := by decide
        simp [residual, ElemData.call, AsmCall.dofs, AsmCall.mat, AsmCall.rhs, hL, flatM, Mat.at?]
        set y := 3 / (5 * trussArea 1 2 a) with hy
        have v0 : valOf [⟨[0, 0]⟩, ⟨[y, 0]⟩] 0 0 = 0 := rfl
        have v1 : valOf [⟨[0, 0]⟩, ⟨[y, 0]⟩] 0 1 = 0 := rfl
        have v2 : valOf [⟨[0, 0]⟩, ⟨[y, 0]⟩] 1 0 = y := rfl
        have v3 : valOf [⟨[0, 0]⟩, ⟨[y, 0]⟩] 1 1 = 0 := rfl
        rw [v0, v1, v2, v3]
        simp only [mul_zero, neg_zero, ite_self, zero_add, add_zero]
        rw [if_pos (by decide), if_pos (by decide), hy]
        field_simp
      rw [this]
      simp [loadAt, AsmCall.dofs, AsmCall.rhs]
    · intro n d hnf
      by_cases h : n = 1 ∧ d = 0
      · obtain ⟨rfl, rfl⟩ := h
        exfalso
        apply hnf
        refine ⟨?_, ?_⟩
        · simp [numOf, dofNum, freeTable, barNodes]
        · simp [barSupports]
      · match n, d with
        | 0, 0 => rfl
        | 0, 1 => rfl
        | 1, 1 => rfl
        | 1, 0 => exact absurd ⟨rfl, rfl⟩ h
        | 0, d + 2 => simp [valOf, nodal, two_none]
        | 1, d + 2 => simp [valOf, nodal, two_none]
        | n + 2, d => simp [valOf, nodal]

/-- The sensitivity of the bar with section `1 - s + 2 s` is the derivative of its compliance. -/
example : ∃ f d, trussCompliance barNodes [[0, 1]] 5 1 2 1 (freeTable 2 2) [0]
    [⟨[0, 0]⟩, ⟨[3 / (5 * trussArea 1 2 0), 0]⟩] = some (f, d) ∧ d.length = 1 ∧ f = 9 / 5 ∧ ∀ a ∈ d, a ≤ 0 := by
  obtain ⟨f, d, h1, h2, h3, -, h4, -⟩ := C111_truss (scale := 1) (by norm_num) bar_bars (by
    intro p hp
    rw [List.mem_singleton] at hp
    subst hp
    exact ⟨by decide, by decide⟩) (ntg := freeTable 2 2) rfl bar_displacements (s := [0]) rfl (by
    intro a ha
    rw [List.mem_singleton] at ha
    subst ha
    norm_num [trussArea])
  refine ⟨f, d, h1, h2, ?_, h4 (by norm_num) (by norm_num)⟩
  rw [h3]
  simp [valOf, nodal, Vec.at?, Vec.size, trussArea]
  norm_num

/-- The unit square is a quadrilateral as required. -/
example : Quads [⟨[0, 0]⟩, ⟨[1, 0]⟩, ⟨[1, 1]⟩, ⟨[0, 1]⟩] [[0, 1, 2, 3]] := by
  intro e he
  rw [List.mem_singleton] at he
  subst he
  obtain ⟨X, hX⟩ := triangle_coords (x := [⟨[0, 0]⟩, ⟨[1, 0]⟩, ⟨[1, 1]⟩, ⟨[0, 1]⟩]) (e := [0, 1, 2, 3]) (by
    intro m hm
    simp only [List.mem_cons, List.not_mem_nil, or_false] at hm
    rcases hm with rfl | rfl | rfl | rfl <;> exact ⟨rfl, rfl⟩) (n := 4) rfl
  refine ⟨X, hX, fun g => ?_⟩
  have e : X = !![0, 0; 1, 0; 1, 1; 0, 1] := by
    ext i j
    have := gather_entry hX i j
    fin_cases i <;> fin_cases j <;> exact (Option.some.inj this).symm
  rw [e, det_fin_two]
  simp [SF.square4, Matrix.mul_apply, Fin.sum_univ_four]
  generalize IC.gauss4Square.points g = r
  ring_nf
  norm_num

end Pansfem
