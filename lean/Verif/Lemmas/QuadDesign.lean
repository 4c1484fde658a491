/-
Analyses of meshes of quadrilaterals whose element matrices are proportional to a coefficient; plane stress.
-/
import Verif.Lemmas.LinearAnalysis
import Verif.Props.C34_QuadStress

noncomputable section

open Matrix

namespace Pansfem

/-- The element matrix in plane stress. -/
abbrev stressCore (V t E : ℝ) (X : Matrix (Fin 4) (Fin 2) ℝ) : Option (Matrix (Fin 4 × Fin 2) (Fin 4 × Fin 2) ℝ) :=
  planeStressStiffness SF.square4 IC.gauss4Square X E V t

/-- Elements without energy move rigidly. -/
def RigidCore (core : ℝ → Matrix (Fin 4) (Fin 2) ℝ → Option (Matrix (Fin 4 × Fin 2) (Fin 4 × Fin 2) ℝ))
    (x : List (Vec ℝ)) (elements : List (List ℕ)) : Prop :=
  ∀ e ∈ elements, ∀ v : ℕ → ℕ → ℝ, baseForm core [0, 1] x e v v = 0 →
    ∃ p q w, ∀ m ∈ e, ∀ j < 2, v m j = rigidAt x p q w m j

section
variable {x : List (Vec ℝ)} {elements : List (List ℕ)} {V t : ℝ}

theorem linear_stress (h1 : -1 < V) (h2 : V < 1) (ht : 0 ≤ t) (hQ : Quads x elements) :
    LinearCore (stressCore V t) [0, 1] x elements := by
  refine ⟨by norm_num, rfl, rfl, by decide, fun X A c h => ?_, fun e he => ?_⟩
  · obtain ⟨D, hD, h⟩ := planeStressStiffness_eq_some.1 h
    obtain ⟨hV, rfl⟩ := planeStressD_eq_some.1 hD
    obtain ⟨hr, rfl⟩ := (planeStiffness_eq_some _ _ _).1 h
    refine planeStressStiffness_eq_some.2 ⟨_, planeStressD_eq_some.2 ⟨hV, rfl⟩, (planeStiffness_eq_some _ _ _).2 ⟨hr, ?_⟩⟩
    rw [Finset.smul_sum]
    refine Finset.sum_congr rfl fun g _ => ?_
    simp only [Matrix.mul_smul, Matrix.smul_mul, smul_smul]
    congr 1
    generalize (1 - V) * (1 + V) = z
    ring
  · obtain ⟨X, hX, hdet⟩ := hQ e he
    have hV : (1 - V) * (1 + V) ≠ 0 := by
      apply ne_of_gt
      apply mul_pos <;> linarith
    obtain ⟨A, hA⟩ := Option.isSome_iff_exists.1 ((C32_planeStress_defined (E := 1) (t := t)).2
      ⟨hV, fun g => (hdet g).ne'⟩)
    refine ⟨X, A, hX, hA, C32_planeStress hA, C34_planeStress (fun g => ?_) ht zero_le_one h1 h2 hA⟩
    rw [measure2, gauss4_weights, gauss4_weights, mul_one, mul_one]
    exact (hdet g).le

/-- A rigid motion of the element matrix is one of the nodes. -/
theorem rigid_nodes {e : List ℕ} {X : Matrix (Fin 4) (Fin 2) ℝ} (hX : gather x e 4 2 = some X) {v : ℕ → ℕ → ℝ}
    {a : Fin 2 → ℝ} {w : ℝ} (ha : localField [0, 1] e v = rigid2 X a w) :
    ∀ m ∈ e, ∀ j < 2, v m j = rigidAt x (a 0) (a 1) w m j := by
  intro m hm j hj
  obtain ⟨k, hk, rfl⟩ := List.getElem_of_mem hm
  have hk4 : k < 4 := by rw [← gather_length hX]; exact hk
  have hc : ∀ d : Fin 2, X ⟨k, hk4⟩ d = coord x e[k] d := by
    intro d
    rw [gather_coords hX]
    simp [nodeCoords, coord, hk]
  have hv := congrFun ha (⟨k, hk4⟩, ⟨j, hj⟩)
  have hl : localField (K := ℝ) (n := 4) (k := 2) [0, 1] e v (⟨k, hk4⟩, ⟨j, hj⟩) = v e[k] j := by
    have : ([0, 1] : List ℕ)[j]?.getD 0 = j := by
      have : j = 0 ∨ j = 1 := by omega
      rcases this with rfl | rfl <;> rfl
    simp [localField, hk, this]
  rw [hl] at hv
  rw [hv]
  have c0 := hc 0
  have c1 := hc 1
  have : j = 0 ∨ j = 1 := by omega
  rcases this with rfl | rfl
  · simp only [rigid2, rigidAt, if_true]
    simp only [Fin.mk_zero, Matrix.cons_val_zero, c1]
    simp only [Fin.val_one]
    ring
  · simp only [rigid2, rigidAt, one_ne_zero, if_false]
    simp only [Fin.mk_one, Matrix.cons_val_one, Matrix.cons_val_zero, c0, Fin.val_zero]

theorem rigid_stress (h1 : -1 < V) (h2 : V < 1) (ht : 0 < t) (hQ : Quads x elements) :
    RigidCore (stressCore V t) x elements := by
  intro e he v h0
  obtain ⟨X, hX, hA, hs, hp⟩ := (linear_stress h1 h2 ht.le hQ).mat he
  obtain ⟨X', hX', hdet⟩ := hQ e he
  obtain rfl : X = X' := Option.some.inj (hX.symm.trans hX')
  obtain ⟨a, w, ha⟩ := (C34_quad_stress hdet ht one_pos h1 h2 hA _).1 (psd_zero hs hp h0)
  exact ⟨a 0, a 1, w, rigid_nodes hX ha⟩

/-- The elements without energy are the same for all admissible Poisson ratios. -/
theorem stress_zero {V' t' : ℝ} (h1 : -1 < V) (h2 : V < 1) (ht : 0 < t) (h1' : -1 < V') (h2' : V' < 1) (ht' : 0 < t')
    (hQ : Quads x elements) {e : List ℕ} (he : e ∈ elements) {v : ℕ → ℕ → ℝ}
    (h0 : baseForm (stressCore V t) [0, 1] x e v v = 0) : baseForm (stressCore V' t') [0, 1] x e v v = 0 := by
  obtain ⟨X, hX, hA, hs, hp⟩ := (linear_stress h1 h2 ht.le hQ).mat he
  obtain ⟨X₂, hX₂, hA', hs', hp'⟩ := (linear_stress h1' h2' ht'.le hQ).mat he
  obtain rfl : X = X₂ := Option.some.inj (hX.symm.trans hX₂)
  obtain ⟨X', hX', hdet⟩ := hQ e he
  obtain rfl : X = X' := Option.some.inj (hX.symm.trans hX')
  have := (C34_quad_stress hdet ht' one_pos h1' h2' hA' _).2
    ((C34_quad_stress hdet ht one_pos h1 h2 hA _).1 (psd_zero hs hp h0))
  rw [baseForm_apply, this, dotProduct_zero]

end

section
variable {core : ℝ → Matrix (Fin 4) (Fin 2) ℝ → Option (Matrix (Fin 4 × Fin 2) (Fin 4 × Fin 2) ℝ)}
  {x : List (Vec ℝ)} {elements : List (List ℕ)} {ufixed qfixed : List ((ℕ × ℕ) × ℝ)}

/-- On a held mesh only the zero field has no energy. -/
theorem core_definite (hr : RigidCore core x elements) (hh : RigidlyHeld x elements ufixed) :
    DefiniteCore core [0, 1] x elements ufixed := fun v hv h0 => hh v hv fun e he => hr e he v (h0 e he)

/-- The analysis of a held and loaded mesh with positive coefficients succeeds, and the displacements have positive
energy. -/
theorem core_analysis (h : LinearCore core [0, 1] x elements)
    (hsym : ∀ c X A, core c X = some A → Aᵀ = A) (hr : RigidCore core x elements)
    (hh : RigidlyHeld x elements ufixed) (hu : ∀ r ∈ ufixed, r.1.1 < x.length ∧ r.1.2 < 2)
    (hz : ∀ r ∈ ufixed, r.2 = 0) (hq : ∀ r ∈ qfixed, r.1.1 < x.length ∧ r.1.2 < 2)
    (hl : ∃ n < x.length, ∃ d < 2, (n, d) ∉ ufixed.map Prod.fst ∧ nodalLoad qfixed n d ≠ 0) (hN : x.length ≤ 50000)
    {c : Fin elements.length → ℝ} (hc : ∀ i, 0 < c i) :
    ∃ u, staticAnalysis useScalingCG (zeroField x.length 2) (freeTable x.length 2) ufixed
        ((baseItems core [0, 1] x elements c).map ElemData.call ++ [.nodal qfixed]) = some (u, true) ∧
      Shaped u (freeTable x.length 2) ∧ (∀ r ∈ ufixed, nodal u r.1.1 r.1.2 = some 0) ∧
      dofNorm (freeDofs (freeTable x.length 2) ufixed)
          (residual ((baseItems core [0, 1] x elements c).map ElemData.call ++ [.nodal qfixed]) (valOf u)) <
        1 / 10 ^ 10 * dofNorm (freeDofs (freeTable x.length 2) ufixed) (nodalLoad qfixed) ∧
      0 < ∑ i : Fin elements.length, c i * baseForm core [0, 1] x elements[i] (valOf u) (valOf u) :=
  linear_analysis useScalingCG_finds useScalingCG_certifies h hsym (core_definite hr hh) hu hz hq hl hN hc

end

end Pansfem
