/-
C122: the problem and the analyses of the programs that optimise densities on a square mesh.
-/
import Verif.Lemmas.LoadedAnalysis
import Verif.Lemmas.Equilibrium
import Verif.Lemmas.SquareProblem
import Verif.Lemmas.SquareHeld4
import Verif.Props.C34_QuadKernel
import Verif.Props.C111_Sensitivity
import Verif.Props.C120_LatticeProblem

noncomputable section

open Matrix

namespace Pansfem

/-- The element matrix of the density programs. -/
abbrev quadCore (V t E : ℝ) (X : Matrix (Fin 4) (Fin 2) ℝ) : Option (Matrix (Fin 4 × Fin 2) (Fin 4 × Fin 2) ℝ) :=
  planeStrainStiffness SF.square4 IC.gauss4Square X E V t

section
variable {x : List (Vec ℝ)} {elements : List (List ℕ)} {bc : List ((ℕ × ℕ) × ℝ)} {V t : ℝ}

/-- An element without energy moves rigidly. -/
theorem quad_rigid (hQ : Quads x elements) (h1 : -1 < V) (h2 : 2 * V < 1) (ht : 0 < t) {e : List ℕ} (he : e ∈ elements)
    {v : ℕ → ℕ → ℝ} (h0 : baseForm (quadCore V t) [0, 1] x e v v = 0) :
    ∃ p q w, ∀ m ∈ e, ∀ j < 2, v m j = rigidAt x p q w m j := by
  obtain ⟨X, hX, hA, hs, hp⟩ := (linear_density h1 h2 ht.le hQ).mat he
  obtain ⟨X', hX', hdet⟩ := hQ e he
  obtain rfl : X = X' := Option.some.inj (hX.symm.trans hX')
  obtain ⟨a, w, ha⟩ := (C34_quad_kernel hdet ht one_pos h1 h2 hA _).1 (psd_zero hs hp h0)
  refine ⟨a 0, a 1, w, fun m hm j hj => ?_⟩
  obtain ⟨k, hk, rfl⟩ := List.getElem_of_mem hm
  have hk4 : k < 4 := by rw [← gather_length hX]; exact hk
  have hc : ∀ d : Fin 2, X ⟨k, hk4⟩ d = coord x e[k] d := by
    intro d
    rw [gather_coords hX]
    simp [nodeCoords, coord, hk]
  have hv := congrFun ha (⟨k, hk4⟩, ⟨j, hj⟩)
  have hl : localField (K := ℝ) (n := 4) (k := 2) [0, 1] e v (⟨k, hk4⟩, ⟨j, hj⟩) = v e[k] j := by
    have : ([0, 1] : List ℕ)[j]?.getD 0 = j := by
      have : j = 0 ∨ j = 1 := by omega
      rcases this with rfl | rfl <;> rfl
    simp [localField, hk, this]
  rw [hl] at hv
  rw [hv]
  have c0 := hc 0
  have c1 := hc 1
  have : j = 0 ∨ j = 1 := by omega
  rcases this with rfl | rfl
  · simp only [rigid2, rigidAt, if_true]
    simp only [Fin.mk_zero, Matrix.cons_val_zero, c1]
    simp only [Fin.val_one]
    ring
  · simp only [rigid2, rigidAt, one_ne_zero, if_false]
    simp only [Fin.mk_one, Matrix.cons_val_one, Matrix.cons_val_zero, c0, Fin.val_zero]

/-- On a held mesh with positive moduli only the zero field has no energy. -/
theorem quads_definite (hQ : Quads x elements) (hh : RigidlyHeld x elements bc) (h1 : -1 < V) (h2 : 2 * V < 1)
    (ht : 0 < t) {c : Fin elements.length → ℝ} (hc : ∀ i, 0 < c i) {v : ℕ → ℕ → ℝ}
    (hv : ∀ m j, ¬ (m < x.length ∧ j < 2 ∧ (m, j) ∉ bc.map Prod.fst) → v m j = 0)
    (h0 : energy ((baseItems (quadCore V t) [0, 1] x elements c).map ElemData.call) v v = 0) : v = 0 := by
  have h := linear_density h1 h2 ht.le hQ
  refine hh v hv fun e he => quad_rigid hQ h1 h2 ht he ?_
  obtain ⟨i, hi, rfl⟩ := List.getElem_of_mem he
  rw [baseItems_energy h] at h0
  have := (Finset.sum_eq_zero_iff_of_nonneg fun (i : Fin elements.length) _ =>
    mul_nonneg (hc i).le (baseForm_nonneg h (List.getElem_mem i.2) v)).1 h0 ⟨i, hi⟩ (Finset.mem_univ _)
  exact (mul_eq_zero.1 this).resolve_left (hc _).ne'

end

section
variable {x : List (Vec ℝ)} {elements : List (List ℕ)} {ufixed qfixed : List ((ℕ × ℕ) × ℝ)} {V t p E0 E1 : ℝ}

/-- **C122**: every analysis of the density programs on a mesh of quadrilaterals that the supports hold succeeds: for
positive moduli and a loaded dof that is not fixed the solver reports convergence; the fixed dofs do not move and the
forces at the others balance the loads up to `1e-10` of their norm. -/
theorem C122_analysis (hQ : Quads x elements) (hh : RigidlyHeld x elements ufixed) (h1 : -1 < V) (h2 : 2 * V < 1)
    (ht : 0 < t) (hu : ∀ r ∈ ufixed, r.1.1 < x.length ∧ r.1.2 < 2) (hz : ∀ r ∈ ufixed, r.2 = 0)
    (hq : ∀ r ∈ qfixed, r.1.1 < x.length ∧ r.1.2 < 2)
    (hl : ∃ n < x.length, ∃ d < 2, (n, d) ∉ ufixed.map Prod.fst ∧ nodalLoad qfixed n d ≠ 0) (hN : x.length ≤ 50000)
    {rho : List ℝ} (hr : rho.length = elements.length) (hp : ∀ a ∈ rho, 0 < densityModulus p E0 E1 a) :
    ∃ u its, densityAnalysis x elements V t p E0 E1 ufixed qfixed rho = some (u, true) ∧
      densityItems x elements V t p E0 E1 rho = some its ∧ Shaped u (freeTable x.length 2) ∧
      (∀ r ∈ ufixed, nodal u r.1.1 r.1.2 = some 0) ∧
      dofNorm (freeDofs (freeTable x.length 2) ufixed)
          (residual (its.map ElemData.call ++ [.nodal qfixed]) (valOf u)) <
        1 / 10 ^ 10 * dofNorm (freeDofs (freeTable x.length 2) ufixed) (nodalLoad qfixed) := by
  have h := linear_density h1 h2 ht.le hQ
  have hi : densityItems x elements V t p E0 E1 rho =
      some (baseItems (quadCore V t) [0, 1] x elements fun i => coeff (densityModulus p E0 E1) rho i) :=
    designItems_eq h (c := rho.map (densityModulus p E0 E1)) (by rw [List.length_map, hr])
  have hc : ∀ i : Fin elements.length, 0 < coeff (densityModulus p E0 E1) rho i := by
    intro i
    have hi : (i : ℕ) < rho.length := by rw [hr]; exact i.2
    simp only [coeff, List.getElem?_map, List.getElem?_eq_getElem hi, Option.map_some, Option.getD_some]
    exact hp _ (List.getElem_mem hi)
  have hfit : ∀ it ∈ baseItems (quadCore V t) [0, 1] x elements fun i => coeff (densityModulus p E0 E1) rho i,
      it.call.Fits (freeTable x.length 2) (zeroField x.length 2) := by
    intro it hit
    obtain ⟨e, he, a, rfl⟩ := mem_baseItems hit
    exact baseItem_fits h he a (shaped_zeroField x.length 2)
  obtain ⟨u, hres⟩ := loaded_succeeds (s := useScalingCG) (N := x.length) (k := 2) (bc := ufixed) (loads := qfixed)
    (items := baseItems (quadCore V t) [0, 1] x elements fun i => coeff (densityModulus p E0 E1) rho i)
    useScalingCG_finds hfit hu hz hq
    (by
      intro c hc
      obtain ⟨it, hit, rfl⟩ := List.mem_map.1 hc
      obtain ⟨e, he, a, rfl⟩ := mem_baseItems hit
      exact elem_sym (k := 2) (dl := [0, 1]) rfl (baseItem_call h he a).2 fun X A hA => C32_planeStrain hA)
    (by
      intro it hit w
      obtain ⟨i, rfl⟩ := List.mem_ofFn.1 hit
      exact le_of_le_of_eq (mul_nonneg (hc i).le (baseForm_nonneg h (List.getElem_mem i.2) w))
        (baseItem_energy h (List.getElem_mem i.2) _ w w).symm)
    (fun w hw h0 => quads_definite hQ hh h1 h2 ht hc hw h0) hl (by omega)
  have hcalls : ∀ c ∈ (baseItems (quadCore V t) [0, 1] x elements fun i =>
      coeff (densityModulus p E0 E1) rho i).map ElemData.call ++ [.nodal qfixed],
      c.Fits (freeTable x.length 2) (zeroField x.length 2) := by
    intro c hc
    rcases List.mem_append.1 hc with hc | hc
    · obtain ⟨it, hit, rfl⟩ := List.mem_map.1 hc
      exact hfit it hit
    · rw [List.mem_singleton] at hc
      subst hc
      exact loads_fit hq
  obtain ⟨r1, -, r3⟩ := C108_result _ useScalingCG_certifies _ _ _ _ _ _ hcalls hres
  refine ⟨u, _, ?_, hi, analysis_shaped (shaped_zeroField _ _) hres, ?_, ?_⟩
  · unfold densityAnalysis
    rw [hi]
    exact hres
  · intro r hr
    have : ∃ w, lastValue ufixed r.1.1 r.1.2 = some w ∧ w = 0 := by
      have hs : (ufixed.reverse.find? fun p => decide (p.1 = (r.1.1, r.1.2))).isSome := by
        rw [List.find?_isSome]
        exact ⟨r, List.mem_reverse.2 hr, by simp⟩
      obtain ⟨r', hr'⟩ := Option.isSome_iff_exists.1 hs
      exact ⟨r'.2, by rw [lastValue, hr']; rfl, hz _ (List.mem_reverse.1 (List.mem_of_find?_eq_some hr'))⟩
    obtain ⟨w, hw, rfl⟩ := this
    exact r1 _ _ 0 hw
  · have hg : residual ((baseItems (quadCore V t) [0, 1] x elements fun i =>
        coeff (densityModulus p E0 E1) rho i).map ElemData.call ++ [.nodal qfixed])
        (given (zeroField x.length 2) (freeTable x.length 2) ufixed) = fun n d => -nodalLoad qfixed n d := by
      funext n d
      rw [residual_append, residual_items_zero _ (given_zero hz), residual_nodal, zero_add]
    have := r3.1 rfl
    rw [hg] at this
    simpa [dofNorm] using this

/-- **C122**: displacements in exact equilibrium, as `C111_density` asks for, exist. -/
theorem C122_displacements (hQ : Quads x elements) (hh : RigidlyHeld x elements ufixed) (h1 : -1 < V) (h2 : 2 * V < 1)
    (ht : 0 < t) (hq : ∀ r ∈ qfixed, r.1.1 < x.length ∧ r.1.2 < 2) :
    ∃ U, Displacements x.length ufixed [.nodal qfixed] (densityModulus p E0 E1) elements.length
      (densityItems x elements V t p E0 E1) U := by
  have h := linear_density h1 h2 ht.le hQ
  have key : ∀ s : List ℝ, ∃ u, Shaped u (freeTable x.length 2) ∧ ∀ its, s.length = elements.length →
      (∀ a ∈ s, 0 < densityModulus p E0 E1 a) → densityItems x elements V t p E0 E1 s = some its →
      Equilibrium (freeTable x.length 2) ufixed (its.map ElemData.call ++ [.nodal qfixed]) u := by
    intro s
    by_cases hd : s.length = elements.length ∧ ∀ a ∈ s, 0 < densityModulus p E0 E1 a
    · obtain ⟨hs, hp⟩ := hd
      have hc : ∀ i : Fin elements.length, 0 < coeff (densityModulus p E0 E1) s i := by
        intro i
        have hi : (i : ℕ) < s.length := by rw [hs]; exact i.2
        simp only [coeff, List.getElem?_map, List.getElem?_eq_getElem hi, Option.map_some, Option.getD_some]
        exact hp _ (List.getElem_mem hi)
      obtain ⟨u, e1, e2⟩ := equilibrium_exists (N := x.length) (k := 2) (bc := ufixed)
        (items := baseItems (quadCore V t) [0, 1] x elements fun i => coeff (densityModulus p E0 E1) s i)
        (loads := [.nodal qfixed]) (by
          intro c hc r hr
          rcases List.mem_append.1 hc with hc | hc
          · obtain ⟨it, hit, rfl⟩ := List.mem_map.1 hc
            obtain ⟨e, he, a, rfl⟩ := mem_baseItems hit
            exact ((baseItem_fits h he a (shaped_zeroField x.length 2)).1 r hr).1
          · rw [List.mem_singleton] at hc
            subst hc
            simp only [AsmCall.dofs, List.mem_map] at hr
            obtain ⟨s, hs, rfl⟩ := hr
            have := hq s.1 (List.fst_mem_of_mem_zipIdx hs)
            exact freeTable_isSome this.1 this.2) (by
          intro c hc r s
          rw [List.mem_singleton] at hc
          subst hc
          rfl) (by
          intro w hw h0
          exact quads_definite hQ hh h1 h2 ht hc (fun m j hm => hw m j fun hf => hm (free_table.1 hf)) h0)
      refine ⟨u, e1, fun its _ _ hi => ?_⟩
      have hi' : densityItems x elements V t p E0 E1 s =
          some (baseItems (quadCore V t) [0, 1] x elements fun i => coeff (densityModulus p E0 E1) s i) :=
        designItems_eq h (c := s.map (densityModulus p E0 E1)) (by rw [List.length_map, hs])
      rw [hi'] at hi
      cases hi
      exact e2
    · exact ⟨zeroField x.length 2, shaped_zeroField _ _, fun its a b => absurd ⟨a, b⟩ hd⟩
  choose U e1 e2 using key
  exact ⟨U, ⟨e1, fun s its a b c => e2 s its a b c⟩⟩

end

/-! ### The square mesh -/

/-- The problem of the programs, with every list in closed form. -/
theorem densityProblem_eq (m : SquareMesh ℝ) (hx : 0 < m.nx) (hy : 0 < m.ny) (held loaded : ℝ × ℝ → Bool) (v : ℝ) :
    ∃ us qs, densityProblem m held loaded v =
        some (asVectors (squareNodes4 m), squareCells4 m, fixedDofs us, setLoads v (fixedDofs qs)) ∧
      Selects (squareNodes4 m) [0, 1] held us ∧ Selects (squareNodes4 m) [1] loaded qs := by
  obtain ⟨n1, us, h1, h2, h3⟩ := C54_square m hx hy [0, 1] (by simp) (by decide) held
  obtain ⟨n2, qs, h4, h5, h6⟩ := C54_square m hx hy [1] (by simp) (by decide) loaded
  rw [squareNodes_eq m hx hy] at h1 h4
  cases h1; cases h4
  refine ⟨us, qs, ?_, h3, h6⟩
  unfold densityProblem
  rw [squareNodes_eq m hx hy, squareElements_eq, h2, h5]
  rfl

/-- **C122**: mesh, supports and loads.  The programs get a mesh of rectangles; exactly the dofs of the nodes chosen by
the first predicate are fixed, at zero; exactly the chosen nodes carry the load, in the second direction.  If the
predicate of the supports takes the left side the supports hold the mesh. -/
theorem C122_problem (m : SquareMesh ℝ) (hx : 0 < m.nx) (hy : 0 < m.ny) (h1 : 0 < m.x) (h2 : 0 < m.y)
    (held loaded : ℝ × ℝ → Bool) (v : ℝ) :
    ∃ x elements ufixed qfixed, densityProblem m held loaded v = some (x, elements, ufixed, qfixed) ∧
      x.length = (m.nx + 1) * (m.ny + 1) ∧ elements.length = m.nx * m.ny ∧ Quads x elements ∧
      (∀ i ≤ m.nx, ∀ j ≤ m.ny, coord x ((m.ny + 1) * i + j) 0 = m.x * (i / m.nx) ∧
        coord x ((m.ny + 1) * i + j) 1 = m.y * (j / m.ny)) ∧
      (∀ r ∈ ufixed, r.2 = 0) ∧ (∀ r ∈ qfixed, r.2 = v) ∧
      (∀ n d, (n, d) ∈ ufixed.map Prod.fst ↔ n < x.length ∧ d < 2 ∧ held (coord x n 0, coord x n 1) = true) ∧
      (∀ n d, nodalLoad qfixed n d =
        if n < x.length ∧ d = 1 ∧ loaded (coord x n 0, coord x n 1) = true then v else 0) ∧
      (∀ r ∈ qfixed, r.1.1 < x.length ∧ r.1.2 < 2) ∧
      ((∀ y, held (0, y) = true) → RigidlyHeld x elements ufixed) := by
  obtain ⟨us, qs, e, s1, s2⟩ := densityProblem_eq m hx hy held loaded v
  obtain ⟨z1, z2, keys, k2, k3⟩ := chosen_supports s1 s2 v
  refine ⟨_, _, _, _, e, ?_, ?_, square4_quads m hx hy h1 h2, ?_, z1, z2, keys, k2, k3, ?_⟩
  · simp [asVectors, squareNodes4, length_grid]
  · simp [squareCells4, length_grid]
  · exact fun i hi j hj => coord_asVectors (squareNodes4_at m hi hj)
  · intro hh
    refine square4_held m hy h2 fun j hj d hd => ?_
    have hc := squareNodes4_at m (i := 0) (j := j) (by omega) hj
    rw [fixedDofs_mem (by decide) s1]
    refine ⟨⟨_, hc, by simpa using hh _⟩, ?_⟩
    simp only [List.mem_cons, List.not_mem_nil, or_false]; omega

theorem densityModulus_pos {p E0 E1 a : ℝ} (h0 : 0 < E0) (h1 : 0 < E1) (hp : 0 ≤ p) (ha : 0 ≤ a) (ha' : a ≤ 1) :
    0 < densityModulus p E0 E1 a := by
  have h2 := Real.rpow_nonneg ha p
  have h3 := Real.rpow_le_one ha ha' hp
  unfold densityModulus
  rcases h2.lt_or_eq with h | h
  · nlinarith [mul_pos h1 h, mul_nonneg h0.le (sub_nonneg.2 h3)]
  · rw [← h]; linarith

/-- **C122**: the programs.  Their mesh has 2501 nodes and 2400 elements, only the node `(60, 20)` is loaded, and with
either meaning of `abs` the analysis of every list of densities between 0 and 1 succeeds. -/
theorem C122_program (held loaded : ℝ × ℝ → Bool)
    (hp : held = leftSide ∧ loaded = rightPoint ∨ held = leftSideInt ∧ loaded = rightPointInt) :
    ∃ x elements ufixed qfixed, densityProblem programMesh held loaded (-1) = some (x, elements, ufixed, qfixed) ∧
      x.length = 2501 ∧ elements.length = 2400 ∧ coord x 2480 0 = 60 ∧ coord x 2480 1 = 20 ∧
      (∀ n d, nodalLoad qfixed n d = if n = 2480 ∧ d = 1 then -1 else 0) ∧
      (∀ n d, (n, d) ∈ ufixed.map Prod.fst ↔ n < 41 ∧ d < 2) ∧
      ∀ rho : List ℝ, rho.length = 2400 → (∀ a ∈ rho, 0 ≤ a ∧ a ≤ 1) →
        ∃ u, densityAnalysis x elements 0.3 1 3 0.0001 210000 ufixed qfixed rho = some (u, true) := by
  have hx : 0 < programMesh.nx := by norm_num [programMesh]
  have hy : 0 < programMesh.ny := by norm_num [programMesh]
  have h1 : 0 < programMesh.x := by norm_num [programMesh]
  have h2 : 0 < programMesh.y := by norm_num [programMesh]
  obtain ⟨x, elements, ufixed, qfixed, e, lx, le, hQ, hc, z1, -, k1, k2, k3, hh⟩ :=
    C122_problem programMesh hx hy h1 h2 held loaded (-1)
  have lx : x.length = 2501 := lx
  have le : elements.length = 2400 := le
  -- the nodes have integer coordinates
  have hnode : ∀ n < 2501, coord x n 0 = ((n / 41 : ℕ) : ℝ) ∧ coord x n 1 = ((n % 41 : ℕ) : ℝ) := by
    intro n hn
    have := hc (n / 41) (show n / 41 ≤ 60 by omega) (n % 41) (show n % 41 ≤ 40 by omega)
    rw [show (programMesh.ny + 1) * (n / 41) + n % 41 = n from Nat.div_add_mod n 41] at this
    rw [this.1, this.2]
    simp only [programMesh]
    push_cast
    constructor <;> ring
  have tsub : ∀ a b : ℕ, truncate ((a : ℝ) - b) = (a : ℤ) - b := by
    intro a b
    have : (a : ℝ) - b = (((a : ℤ) - b : ℤ) : ℝ) := by push_cast; ring
    rw [this, truncate]
    split_ifs
    · exact Int.floor_intCast _
    · exact Int.ceil_intCast _
  have small : ∀ k : ℤ, (|(k : ℝ)| < 1 / 10 ^ 5 ↔ k = 0) := by
    intro k
    constructor
    · intro hk
      have : |(k : ℝ)| < 1 := hk.trans (by norm_num)
      have : |k| < 1 := by exact_mod_cast this
      exact Int.abs_lt_one_iff.1 this
    · rintro rfl
      norm_num
  have hheld : ∀ a b : ℕ, held ((a : ℝ), (b : ℝ)) = decide (a = 0) := by
    intro a b
    have s1 := small a
    have t1 := truncate_natCast a
    rcases hp with ⟨rfl, -⟩ | ⟨rfl, -⟩
    · simp only [leftSide]
      rw [decide_eq_decide]
      push_cast at s1
      rw [s1]
      exact_mod_cast Iff.rfl
    · simp only [leftSideInt, t1]
      rw [decide_eq_decide]
      rw [show (((|(a : ℤ)| : ℤ)) : ℝ) = |((a : ℤ) : ℝ)| by push_cast; rfl, s1]
      exact_mod_cast Iff.rfl
  have hload : ∀ a b : ℕ, loaded ((a : ℝ), (b : ℝ)) = decide (a = 60 ∧ b = 20) := by
    intro a b
    have s1 := small ((a : ℤ) - 60)
    have s2 := small ((b : ℤ) - 20)
    have t1 := tsub a 60
    have t2 := tsub b 20
    have i1 : (a : ℤ) - 60 = 0 ↔ a = 60 := by omega
    have i2 : (b : ℤ) - 20 = 0 ↔ b = 20 := by omega
    rw [i1] at s1
    rw [i2] at s2
    push_cast at s1 s2
    rcases hp with ⟨-, rfl⟩ | ⟨-, rfl⟩
    · simp only [rightPoint]
      rw [decide_eq_decide, s1, s2]
    · simp only [rightPointInt]
      push_cast at t1 t2
      rw [decide_eq_decide, t1, t2]
      push_cast
      rw [s1, s2]
  have n60 := hnode 2480 (by norm_num)
  norm_num at n60
  refine ⟨x, elements, ufixed, qfixed, e, lx, le, n60.1, n60.2, ?_, ?_, fun rho hr hb => ?_⟩
  · intro n d
    rw [k2, lx]
    by_cases hn : n < 2501
    · rw [(hnode n hn).1, (hnode n hn).2, hload]
      simp only [hn, true_and, decide_eq_true_eq]
      have : (d = 1 ∧ n / 41 = 60 ∧ n % 41 = 20) ↔ (n = 2480 ∧ d = 1) := by omega
      simp only [this]
    · rw [if_neg (fun h => hn h.1), if_neg (fun h => hn (by omega))]
  · intro n d
    rw [k1, lx]
    by_cases hn : n < 2501
    · rw [(hnode n hn).1, (hnode n hn).2, hheld]
      simp only [decide_eq_true_eq]
      omega
    · exact ⟨fun h => absurd h.1 hn, fun h => absurd (by omega) hn⟩
  · obtain ⟨u, its, hu, -⟩ := C122_analysis (p := 3) (E0 := 0.0001) (E1 := 210000) (V := 0.3) (t := 1)
      (qfixed := qfixed) hQ (hh (by rcases hp with ⟨rfl, -⟩ | ⟨rfl, -⟩; exacts [leftSide_left, leftSideInt_left]))
      (by norm_num) (by norm_num) (by norm_num) (fun r hr => by
        obtain ⟨c1, c2, -⟩ := (k1 r.1.1 r.1.2).1 (List.mem_map_of_mem hr)
        exact ⟨c1, c2⟩) z1 k3
      ⟨2480, by omega, 1, by norm_num, fun hf => by
        have := ((k1 2480 1).1 hf).2.2
        rw [n60.1, n60.2] at this
        have h60 := hheld 60 20
        norm_num at h60
        rw [h60] at this
        exact absurd this (by decide), by
        rw [k2, if_pos ⟨by omega, rfl, by
          rw [n60.1, n60.2]
          have h60 := hload 60 20
          norm_num at h60
          exact h60⟩]
        norm_num⟩ (by omega) (by rw [hr, le])
      fun a ha => densityModulus_pos (by norm_num) (by norm_num) (by norm_num) (hb a ha).1 (hb a ha).2
    exact ⟨u, hu⟩

/-- A program as `C122_program` describes, at its starting point. -/
example : ∃ x elements ufixed qfixed u, densityProblem programMesh leftSide rightPoint (-1) =
      some (x, elements, ufixed, qfixed) ∧
    densityAnalysis x elements 0.3 1 3 0.0001 210000 ufixed qfixed (List.replicate 2400 0.5) = some (u, true) := by
  obtain ⟨x, elements, ufixed, qfixed, e, -, -, -, -, -, -, h⟩ := C122_program leftSide rightPoint (Or.inl ⟨rfl, rfl⟩)
  obtain ⟨u, hu⟩ := h (List.replicate 2400 0.5) (List.length_replicate ..) (by
    intro a ha
    rw [List.eq_of_mem_replicate ha]
    norm_num)
  exact ⟨x, elements, ufixed, qfixed, u, e, hu⟩

/-- Two elements held at the left and loaded at the upper right corner: the analysis and the sensitivities exist. -/
example : ∃ x elements ufixed qfixed u U f d, densityProblem ⟨2, 1, 2, 1⟩ (fun r => decide (r.1 = 0))
      (fun r => decide (r.1 = 2 ∧ r.2 = 1)) 3 = some (x, elements, ufixed, qfixed) ∧
    densityAnalysis x elements 0.3 1 3 1 2 ufixed qfixed [1, 0.5] = some (u, true) ∧ nodalLoad qfixed 5 1 = 3 ∧
    Displacements x.length ufixed [.nodal qfixed] (densityModulus 3 1 2) 2 (densityItems x elements 0.3 1 3 1 2) U ∧
    densityCompliance x elements 0.3 1 3 1 2 10 (freeTable x.length 2) [1, 0.5] (U [1, 0.5]) = some (f, d) := by
  obtain ⟨x, elements, ufixed, qfixed, e, lx, le, hQ, hc, z1, -, k1, k2, k3, hh⟩ := C122_problem ⟨2, 1, 2, 1⟩
    (by norm_num) (by norm_num) (by norm_num) (by norm_num) (fun r => decide (r.1 = 0))
    (fun r => decide (r.1 = 2 ∧ r.2 = 1)) 3
  have lx : x.length = 6 := lx
  have le : elements.length = 2 := le
  have hh := hh (by simp)
  have n5 := hc 2 le_rfl 1 le_rfl
  norm_num at n5
  have l5 : nodalLoad qfixed 5 1 = 3 := by rw [k2, if_pos ⟨by omega, rfl, by rw [n5.1, n5.2]; norm_num⟩]
  have hpos : ∀ a ∈ [(1 : ℝ), 0.5], 0 < densityModulus 3 1 2 a := by
    intro a ha
    simp only [List.mem_cons, List.not_mem_nil, or_false] at ha
    refine densityModulus_pos (by norm_num) (by norm_num) (by norm_num) ?_ ?_ <;> rcases ha with rfl | rfl <;> norm_num
  obtain ⟨u, its, hu, -⟩ := C122_analysis (p := 3) (E0 := 1) (E1 := 2) (V := 0.3) (t := 1) (qfixed := qfixed)
    (rho := [1, 0.5]) hQ hh (by norm_num) (by norm_num) (by norm_num) (fun r hr => by
      obtain ⟨c1, c2, -⟩ := (k1 r.1.1 r.1.2).1 (List.mem_map_of_mem hr)
      exact ⟨c1, c2⟩) z1 k3 ⟨5, by omega, 1, by norm_num, fun hf => by
        have := ((k1 5 1).1 hf).2.2
        rw [n5.1] at this
        norm_num at this, by rw [l5]; norm_num⟩ (by omega) (by rw [le]; rfl) hpos
  obtain ⟨U, hU⟩ := C122_displacements (p := 3) (E0 := 1) (E1 := 2) (V := 0.3) (t := 1) (qfixed := qfixed) hQ hh
    (by norm_num) (by norm_num) (by norm_num) k3
  obtain ⟨f, d, hf, -⟩ := C111_density (scale := 10) (ntg := freeTable x.length 2) (by norm_num) (by norm_num)
    (by norm_num) hQ k3 rfl hU (s := [1, 0.5]) (by rw [le]; rfl) (by
      intro a ha
      simp only [List.mem_cons, List.not_mem_nil, or_false] at ha
      rcases ha with rfl | rfl <;> norm_num) hpos
  rw [le] at hU
  exact ⟨x, elements, ufixed, qfixed, u, U, f, d, e, hu, l5, hU, hf⟩

end Pansfem
