/-
The loop that optimises unit cells: evaluations, packed designs, passes.
-/
import Verif.Spec.ProgramLatticeRun
import Verif.Lemmas.Optimisers
import Verif.Props.C120_LatticeProblem

noncomputable section

open Matrix

namespace Pansfem

variable {p q : ℕ}

/-! ### Evaluation -/

section

attribute [local irreducible] stiffForm stiffItem

variable {P : LatticeProgram p q}

theorem strain_form {x : List (Vec ℝ)} {e : List ℕ} (D : Matrix (Fin 3) (Fin 3) ℝ) (v : ℕ → ℕ → ℝ) :
    stiffForm SF.square8 IC.gauss9Square x e D v v = ∑ g, measure2 SF.square8 IC.gauss9Square (nodeRows 8 x e) g *
      (strainAt x e v g ⬝ᵥ (D *ᵥ strainAt x e v g)) := by
  rw [stiffForm_apply]
  refine Finset.sum_congr rfl fun g _ => ?_
  have : planeB (gradAt SF.square8 (nodeRows 8 x e) (IC.gauss9Square.points g)) *ᵥ localField [0, 1] e v =
      strainAt x e v g := by
    funext r
    fin_cases r <;>
      simp [strainAt, planeB, mulVec, dotProduct, Fintype.sum_prod_type, Fin.sum_univ_two, localField, gradAt,
        Finset.sum_add_distrib]
  rw [this, mul_one]

theorem work_eq (h : P.Ok) (u : List (Vec ℝ)) (i : Fin P.elements.length) (a b t : ℝ) :
    P.work u i a b t =
      stiffForm SF.square8 IC.gauss9Square P.x P.elements[i] (tensorOf P.T a b t) (valOf u) (valOf u) := by
  rw [strain_form, LatticeProgram.work, latticeTensor_eq h.sizes.1 h.sizes.2]
  rfl

/-- Compliance and sensitivities of any field with the right shape. -/
theorem latticeCompliance_field (h : P.Ok) {ntg : List (List ℤ)}
    (hn : ntg.map List.length = (freeTable P.x.length 2).map List.length) {u : List (Vec ℝ)}
    (hu : Shaped u (freeTable P.x.length 2)) {a b t : List ℝ} (la : a.length = P.elements.length)
    (lb : b.length = P.elements.length) (lt : t.length = P.elements.length) :
    ∃ Da Db Dt : Fin P.elements.length → Matrix (Fin 3) (Fin 3) ℝ,
      (∀ i : Fin P.elements.length, latticeDerivs P.T (a[(i : ℕ)]?.getD 0) (b[(i : ℕ)]?.getD 0) (t[(i : ℕ)]?.getD 0) =
        some (Da i, Db i, Dt i)) ∧
      latticeCompliance SF.square8 IC.gauss9Square P.x P.elements P.T ntg a b t u =
        some (∑ i : Fin P.elements.length, stiffForm SF.square8 IC.gauss9Square P.x P.elements[i]
            (tensorAt P.T a b t i) (valOf u) (valOf u),
          List.ofFn fun i : Fin P.elements.length =>
            (-stiffForm SF.square8 IC.gauss9Square P.x P.elements[i] (Da i) (valOf u) (valOf u),
              -stiffForm SF.square8 IC.gauss9Square P.x P.elements[i] (Db i) (valOf u) (valOf u),
              -stiffForm SF.square8 IC.gauss9Square P.x P.elements[i] (Dt i) (valOf u) (valOf u))) := by
  obtain ⟨ha, hb⟩ := h.sizes
  have hQ := h.quads
  have hsq : ∀ it ∈ stiffItems P.x P.elements (tensorAt P.T a b t), it.Square := by
    intro it hit
    obtain ⟨e, he, D, rfl⟩ := stiffItems_mem hit
    obtain ⟨h1, h2, h3⟩ := quads8_positive hQ he
    exact (stiffItem_call h1 h2 h3 D).2.1
  have hfit : ∀ it ∈ stiffItems P.x P.elements (tensorAt P.T a b t), it.call.Fits ntg u := by
    intro it hit
    obtain ⟨e, he, D, rfl⟩ := stiffItems_mem hit
    obtain ⟨h1, h2, h3⟩ := quads8_positive hQ he
    obtain ⟨f1, f2⟩ := stiffItem_fits h1 h2 h3 D hu
    refine ⟨fun r hr => ⟨?_, (f1 r hr).2⟩, f2⟩
    rw [← mem_allDofs_iff, allDofs_lengths hn, mem_allDofs_iff]
    exact (f1 r hr).1
  have hz := shaped_congr hn (shaped_zeroField P.x.length 2)
  have hr : ∀ n d, (dofNum ntg n d).isSome → (nodal (zeroField P.x.length 2) n d).isSome := fun n d => (hz.2 n d).2
  obtain ⟨r, r1, -⟩ := C110_reactions u (zeroField P.x.length 2) ntg _ hsq hfit hr
  have r2 := (C110_work u _ r ntg _ hsq hfit hr r1).2 (shaped_congr hn hu) hz
  choose Da Db Dt hD _ _ _ using fun i : Fin P.elements.length =>
    latticeDerivs_eq ha hb (a[(i : ℕ)]?.getD 0) (b[(i : ℕ)]?.getD 0) (t[(i : ℕ)]?.getD 0)
  refine ⟨Da, Db, Dt, hD, ?_⟩
  unfold latticeCompliance
  rw [latticeItems_eq hQ ha hb la lb lt]
  simp only [Option.bind_eq_bind, Option.bind_some, r1, r2, Option.pure_def]
  rw [stiffItems_energy hQ]
  rw [range_mapM (g := fun i : Fin P.elements.length =>
    (-stiffForm SF.square8 IC.gauss9Square P.x P.elements[i] (Da i) (valOf u) (valOf u),
      -stiffForm SF.square8 IC.gauss9Square P.x P.elements[i] (Db i) (valOf u) (valOf u),
      -stiffForm SF.square8 IC.gauss9Square P.x P.elements[i] (Dt i) (valOf u) (valOf u)))]
  · rfl
  · intro i
    obtain ⟨h1, h2, h3⟩ := quads8_positive hQ (List.getElem_mem i.2)
    have ia : (i : ℕ) < a.length := by rw [la]; exact i.2
    have ib : (i : ℕ) < b.length := by rw [lb]; exact i.2
    have it : (i : ℕ) < t.length := by rw [lt]; exact i.2
    have hDi := hD i
    have hterm : ∀ D, latticeTerm u (stiffItem SF.square8 IC.gauss9Square P.x P.elements[(i : ℕ)] D) =
        some (-stiffForm SF.square8 IC.gauss9Square P.x P.elements[(i : ℕ)] D (valOf u) (valOf u)) := by
      intro D
      rw [latticeTerm_eq (stiffItem_call h1 h2 h3 D).2.1 (stiffItem_fits h1 h2 h3 D hu), stiffItem_energy h2]
    simp only [List.getElem?_eq_getElem ia, List.getElem?_eq_getElem ib, List.getElem?_eq_getElem it,
      Option.getD_some] at hDi
    simp only [List.getElem?_eq_getElem i.2, List.getElem?_eq_getElem ia, List.getElem?_eq_getElem ib,
      List.getElem?_eq_getElem it, Option.bind_eq_bind, Option.bind_some, latticeSensitivity, hDi,
      (stiffItem_call h1 h2 h3 _).1, hterm, Option.pure_def, Fin.getElem_fin]

/-- The analysis of positive definite tensors succeeds, and the displacements have positive energy. -/
theorem lattice_analysis (h : P.Ok) {a b t : List ℝ} (hd : LatticeDesign P.T P.elements.length a b t) :
    ∃ u, latticeAnalysis P.x P.elements P.T P.ufixed P.qfixed a b t = some (u, true) ∧
      (∀ r ∈ P.ufixed, nodal u r.1.1 r.1.2 = some 0) ∧
      dofNorm (freeDofs (freeTable P.x.length 2) P.ufixed)
          (residual ((stiffItems P.x P.elements (tensorAt P.T a b t)).map ElemData.call ++ [.nodal P.qfixed]) (valOf u)) <
        1 / 10 ^ 10 * dofNorm (freeDofs (freeTable P.x.length 2) P.ufixed) (nodalLoad P.qfixed) ∧
      0 < ∑ i : Fin P.elements.length, stiffForm SF.square8 IC.gauss9Square P.x P.elements[i]
        (tensorAt P.T a b t i) (valOf u) (valOf u) := by
  obtain ⟨ha, hb⟩ := h.sizes
  have hQ := h.quads
  have hpos := ((design_iff ha hb).1 hd).2
  have hi := latticeItems_eq (x := P.x) hQ ha hb hd.la hd.lb hd.lt
  have hfit : ∀ it ∈ stiffItems P.x P.elements (tensorAt P.T a b t),
      it.call.Fits (freeTable P.x.length 2) (zeroField P.x.length 2) := by
    intro it hit
    obtain ⟨e, he, D, rfl⟩ := stiffItems_mem hit
    obtain ⟨c1, c2, c3⟩ := quads8_positive hQ he
    exact stiffItem_fits c1 c2 c3 D (shaped_zeroField P.x.length 2)
  obtain ⟨u, hres⟩ := loaded_succeeds (s := useScalingCG) (N := P.x.length) (k := 2) (bc := P.ufixed) (loads := P.qfixed)
    (items := stiffItems P.x P.elements (tensorAt P.T a b t)) useScalingCG_finds hfit h.fixedRange h.fixedZero h.loadRange
    (by
      intro c hc
      obtain ⟨it, hit, rfl⟩ := List.mem_map.1 hc
      obtain ⟨i, rfl⟩ := List.mem_ofFn.1 hit
      obtain ⟨c1, c2, c3⟩ := quads8_positive hQ (List.getElem_mem i.2)
      exact elem_sym (k := 2) (dl := [0, 1]) rfl (stiffItem_call c1 c2 c3 _).2.2
        (fun X A hA => C32_planeStiffness (hpos i i.2).1 hA))
    (by
      intro it hit w
      obtain ⟨i, rfl⟩ := List.mem_ofFn.1 hit
      obtain ⟨c1, c2, c3⟩ := quads8_positive hQ (List.getElem_mem i.2)
      exact le_of_le_of_eq (stiffForm_nonneg c3 (hpos i i.2) w) (stiffItem_energy c2 _ w w).symm)
    (fun w hw h0 => stiffItems_definite hQ h.held hpos hw h0) h.loaded (by have := h.size; omega)
  have hcalls : ∀ c ∈ (stiffItems P.x P.elements (tensorAt P.T a b t)).map ElemData.call ++ [.nodal P.qfixed],
      c.Fits (freeTable P.x.length 2) (zeroField P.x.length 2) := by
    intro c hc
    rcases List.mem_append.1 hc with hc | hc
    · obtain ⟨it, hit, rfl⟩ := List.mem_map.1 hc
      exact hfit it hit
    · rw [List.mem_singleton] at hc
      subst hc
      exact loads_fit h.loadRange
  obtain ⟨r1, -, r3⟩ := C108_result _ useScalingCG_certifies _ _ _ _ _ _ hcalls hres
  have hsh := analysis_shaped (shaped_zeroField _ _) hres
  have hfix : ∀ r ∈ P.ufixed, nodal u r.1.1 r.1.2 = some 0 := by
    intro r hr
    have : ∃ w, lastValue P.ufixed r.1.1 r.1.2 = some w ∧ w = 0 := by
      have hs : (P.ufixed.reverse.find? fun p => decide (p.1 = (r.1.1, r.1.2))).isSome := by
        rw [List.find?_isSome]
        exact ⟨r, List.mem_reverse.2 hr, by simp⟩
      obtain ⟨r', hr'⟩ := Option.isSome_iff_exists.1 hs
      exact ⟨r'.2, by rw [lastValue, hr']; rfl, h.fixedZero _ (List.mem_reverse.1 (List.mem_of_find?_eq_some hr'))⟩
    obtain ⟨w, hw, rfl⟩ := this
    exact r1 _ _ 0 hw
  have hbal : dofNorm (freeDofs (freeTable P.x.length 2) P.ufixed)
      (residual ((stiffItems P.x P.elements (tensorAt P.T a b t)).map ElemData.call ++ [.nodal P.qfixed]) (valOf u)) <
        1 / 10 ^ 10 * dofNorm (freeDofs (freeTable P.x.length 2) P.ufixed) (nodalLoad P.qfixed) := by
    have hg : residual ((stiffItems P.x P.elements (tensorAt P.T a b t)).map ElemData.call ++ [.nodal P.qfixed])
        (given (zeroField P.x.length 2) (freeTable P.x.length 2) P.ufixed) = fun n d => -nodalLoad P.qfixed n d := by
      funext n d
      rw [residual_append, residual_items_zero _ (given_zero h.fixedZero), residual_nodal, zero_add]
    have := r3.1 rfl
    rw [hg] at this
    simpa [dofNorm] using this
  refine ⟨u, ?_, hfix, hbal, ?_⟩
  · unfold latticeAnalysis
    rw [hi]
    exact hres
  have h0 : ∀ i ∈ (Finset.univ : Finset (Fin P.elements.length)), 0 ≤ stiffForm SF.square8 IC.gauss9Square P.x
      P.elements[i] (tensorAt P.T a b t i) (valOf u) (valOf u) := fun i _ =>
    stiffForm_nonneg (quads8_positive hQ (List.getElem_mem i.2)).2.2 (hpos i i.2) _
  refine lt_of_le_of_ne (Finset.sum_nonneg h0) fun h1 => ?_
  have hzero : valOf u = 0 := by
    refine stiffItems_definite hQ h.held hpos (fun m j hm => ?_) ((stiffItems_energy hQ _ _ _).trans h1.symm)
    by_cases hr : (m, j) ∈ P.ufixed.map Prod.fst
    · obtain ⟨r, hr, e⟩ := List.mem_map.1 hr
      have := hfix r hr
      rw [e] at this
      simp [valOf, this]
    · have : nodal u m j = none := by
        rw [← Option.not_isSome_iff_eq_none, hsh.2 m j]
        intro h2
        exact hm ⟨(freeTable_lt h2).1, (freeTable_lt h2).2, hr⟩
      simp [valOf, this]
  rw [hzero] at hbal
  have h2 : residual ((stiffItems P.x P.elements (tensorAt P.T a b t)).map ElemData.call ++ [.nodal P.qfixed]) 0 =
      fun n d => -nodalLoad P.qfixed n d := by
    funext n d
    rw [residual_append, residual_items_zero _ (v := 0) (fun _ _ => rfl), residual_nodal, zero_add]
  rw [h2] at hbal
  have h3 : dofNorm (freeDofs (freeTable P.x.length 2) P.ufixed) (fun n d => -nodalLoad P.qfixed n d) =
      dofNorm (freeDofs (freeTable P.x.length 2) P.ufixed) (nodalLoad P.qfixed) := by simp [dofNorm]
  rw [h3] at hbal
  have h4 : 0 ≤ dofNorm (freeDofs (freeTable P.x.length 2) P.ufixed) (nodalLoad P.qfixed) := Real.sqrt_nonneg _
  linarith

theorem work_deriv (h : P.Ok) {u : List (Vec ℝ)} (i : Fin P.elements.length) {a b t : ℝ}
    {Da Db Dt : Matrix (Fin 3) (Fin 3) ℝ} (hD : latticeDerivs P.T a b t = some (Da, Db, Dt)) :
    HasDerivAt (fun y => -P.work u i y b t)
      (-stiffForm SF.square8 IC.gauss9Square P.x P.elements[i] Da (valOf u) (valOf u)) a ∧
    HasDerivAt (fun y => -P.work u i a y t)
      (-stiffForm SF.square8 IC.gauss9Square P.x P.elements[i] Db (valOf u) (valOf u)) b ∧
    HasDerivAt (fun y => -P.work u i a b y)
      (-stiffForm SF.square8 IC.gauss9Square P.x P.elements[i] Dt (valOf u) (valOf u)) t := by
  obtain ⟨ha, hb⟩ := h.sizes
  obtain ⟨Da', Db', Dt', e, ea, eb, et⟩ := latticeDerivs_eq ha hb a b t
  rw [hD] at e
  cases e
  simp only [work_eq h]
  exact ⟨(stiffForm_deriv ea _).fun_neg, (stiffForm_deriv eb _).fun_neg, (stiffForm_deriv et _).fun_neg⟩

/-- An evaluation that succeeds. -/
theorem evaluateLattice_parts (h : P.Ok) {a b t : List ℝ} (la : a.length = P.elements.length)
    (lb : b.length = P.elements.length) (lt : t.length = P.elements.length) {u : List (Vec ℝ)} {c : Bool}
    (hr : latticeAnalysis P.x P.elements P.T P.ufixed P.qfixed a b t = some (u, c)) :
    ∃ e, evaluateLattice P a b t = some e ∧ e.Exact P a b t ∧ e.u = u ∧ e.solved = c := by
  have h6 := hr
  unfold latticeAnalysis at h6
  rw [latticeItems_eq h.quads h.sizes.1 h.sizes.2 la lb lt] at h6
  have hsh := analysis_shaped (shaped_zeroField _ _) h6
  obtain ⟨v, tb, h7, h8⟩ := setDirichlet_defined h6
  obtain ⟨Da, Db, Dt, hD, h9⟩ := latticeCompliance_field h h8 hsh la lb lt
  have hN : P.elements.length ≠ 0 := h.nonempty.ne'
  have hw := weight_eq h.limit.ne' hN la lb
  have hev : ∀ g dg f df, latticeWeight P.weightlimit P.elements.length a b = some (g, dg) →
      latticeCompliance SF.square8 IC.gauss9Square P.x P.elements P.T (renumbering tb).1 a b t u = some (f, df) →
      evaluateLattice P a b t = some ⟨g, dg, u, c, f, df⟩ := by
    intro g dg f df e1 e2
    unfold evaluateLattice
    simp only [e1, hr, h7, e2, Option.bind_eq_bind, Option.bind_some, Option.pure_def]
  refine ⟨_, hev _ _ _ _ hw h9, ⟨?_, ?_, rfl, ?_, ?_⟩, rfl, rfl⟩
  · dsimp only
    rw [div_div, mul_comm (P.elements.length : ℝ) P.weightlimit, div_eq_mul_inv (∑ i : Fin P.elements.length, _),
      Finset.sum_mul]
    congr 1
    exact Finset.sum_congr rfl fun i _ => by ring
  · dsimp only
    exact Finset.sum_congr rfl fun i _ => (work_eq h u i _ _ _).symm
  · simp
  · intro i
    simp only [List.getElem?_ofFn, dif_pos i.2, Option.getD_some]
    exact work_deriv h i (hD i)

theorem evaluateLattice_exact (h : P.Ok) {a b t : List ℝ} (la : a.length = P.elements.length)
    (lb : b.length = P.elements.length) (lt : t.length = P.elements.length) {e : LatticeEvaluation}
    (he : evaluateLattice P a b t = some e) : e.Exact P a b t := by
  have h1 := he
  unfold evaluateLattice at h1
  simp only [Option.bind_eq_bind, Option.bind_eq_some_iff] at h1
  obtain ⟨-, -, ⟨u, c⟩, hr, -⟩ := h1
  obtain ⟨e', h2, h3, -⟩ := evaluateLattice_parts h la lb lt hr
  obtain rfl := Option.some.inj (he.symm.trans h2)
  exact h3

theorem evaluateLattice_sound (h : P.Ok) {a b t : List ℝ} (hd : LatticeDesign P.T P.elements.length a b t) :
    ∃ e, evaluateLattice P a b t = some e ∧ e.Sound P a b t := by
  obtain ⟨u, a1, a2, a3, a4⟩ := lattice_analysis h hd
  obtain ⟨e, e1, e2, rfl, e4⟩ := evaluateLattice_parts h hd.la hd.lb hd.lt a1
  refine ⟨e, e1, e2, e4, a2, ⟨_, latticeItems_eq h.quads h.sizes.1 h.sizes.2 hd.la hd.lb hd.lt, a3⟩, ?_⟩
  rw [e2.compliance]
  refine a4.trans_eq (Finset.sum_congr rfl fun i _ => (work_eq h _ i _ _ _).symm)

end

/-! ### Packed designs -/

theorem pack_vector {N : ℕ} {d : List (ℝ × ℝ × ℝ)} (hd : d.length = N) :
    sized (3 * N) (latticePack d) = some (tripleVector N d) := by
  rw [sized_vector (by rw [(C119_pack d).1, hd])]
  congr 1
  funext j
  have hj := Nat.div_add_mod (j : ℕ) 3
  have hm := Nat.mod_lt (j : ℕ) (by norm_num : 0 < 3)
  obtain ⟨g0, g1, g2⟩ := pack_get d ((j : ℕ) / 3)
  simp only [designVector, tripleVector, byElement, List.getElem?_map]
  split_ifs with h0 h1
  · rw [← g0, show 3 * ((j : ℕ) / 3) = j by omega]
  · rw [← g1, show 3 * ((j : ℕ) / 3) + 1 = j by omega]
  · rw [← g2, show 3 * ((j : ℕ) / 3) + 2 = j by omega]

theorem zip_vector {N : ℕ} {a b t : List ℝ} (la : a.length = N) (lb : b.length = N) (lt : t.length = N) :
    tripleVector N (a.zip (b.zip t)) = byElement N a b t := by
  have hz : (b.zip t).length = N := by simp [lb, lt]
  have h1 : (a.zip (b.zip t)).map (fun v => v.1) = a := List.map_fst_zip (by omega)
  have h2 : (a.zip (b.zip t)).map (fun v => v.2) = b.zip t := List.map_snd_zip (by omega)
  have h3 : (b.zip t).map (fun v => v.1) = b := List.map_fst_zip (by omega)
  have h4 : (b.zip t).map (fun v => v.2) = t := List.map_snd_zip (by omega)
  have h5 : (a.zip (b.zip t)).map (fun v => v.2.1) = b := by
    have := congrArg (List.map fun v => v.1) h2
    rw [List.map_map, h3] at this
    exact this
  have h6 : (a.zip (b.zip t)).map (fun v => v.2.2) = t := by
    have := congrArg (List.map fun v => v.2) h2
    rw [List.map_map, h4] at this
    exact this
  rw [tripleVector, h1, h5, h6]

theorem update_vector {N fuel : ℕ} {a b t : List ℝ} (la : a.length = N) (lb : b.length = N) (lt : t.length = N)
    {df dg : List (ℝ × ℝ × ℝ)} (hf : df.length = N) (hg : dg.length = N) (o : MMA (3 * N) 1) (f g : ℝ)
    (w : List ℝ → Option ℝ) :
    (mmaOptimiser (3 * N) fuel).update o (latticePack (a.zip (b.zip t))) f (latticePack df) g (latticePack dg) w =
      asListRun (mmaUpdate o fuel (byElement N a b t) f (tripleVector N df) (fun _ => g) fun _ => tripleVector N dg) := by
  have hz : (a.zip (b.zip t)).length = N := by simp [la, lb, lt]
  simp only [mmaOptimiser, pack_vector hz, pack_vector hf, pack_vector hg, zip_vector la lb lt]
  cases mmaUpdate o fuel (byElement N a b t) f (tripleVector N df) (fun _ => g) fun _ => tripleVector N dg <;> rfl

theorem unpack_vector {N : ℕ} (v : Fin (3 * N) → ℝ) : ∃ a b t, latticeUnpack N (List.ofFn v) = some (a, b, t) ∧
    a.length = N ∧ b.length = N ∧ t.length = N ∧ byElement N a b t = v := by
  have h : ∀ k (hk : k < 3), (List.range N).mapM (fun i => (List.ofFn v)[3 * i + k]?) =
      some (List.ofFn fun i : Fin N => v ⟨3 * i + k, by have := i.2; omega⟩) := by
    intro k hk
    refine range_mapM fun i => ?_
    rw [List.getElem?_ofFn, dif_pos (by have := i.2; omega)]
  have h0 := h 0 (by norm_num)
  simp only [Nat.add_zero] at h0
  have hu : latticeUnpack N (List.ofFn v) = some (List.ofFn fun i : Fin N => v ⟨3 * i, by have := i.2; omega⟩,
      List.ofFn fun i : Fin N => v ⟨3 * i + 1, by have := i.2; omega⟩,
      List.ofFn fun i : Fin N => v ⟨3 * i + 2, by have := i.2; omega⟩) := by
    simp only [latticeUnpack, h0, h 1 (by norm_num), h 2 (by norm_num), Option.bind_eq_bind, Option.bind_some,
      Option.pure_def]
  refine ⟨_, _, _, hu, List.length_ofFn, List.length_ofFn, List.length_ofFn, ?_⟩
  · funext j
    have hj := Nat.div_add_mod (j : ℕ) 3
    have hm := Nat.mod_lt (j : ℕ) (by norm_num : 0 < 3)
    have hlt : (j : ℕ) / 3 < N := by have := j.2; omega
    simp only [byElement, List.getElem?_ofFn, dif_pos hlt, Option.getD_some]
    split_ifs with h0 h1 <;> congr 1 <;> ext <;> simp only <;> omega

theorem byElement_forall {N : ℕ} {a b t : List ℝ} (la : a.length = N) (lb : b.length = N) (lt : t.length = N)
    {R : ℝ → Prop} : (∀ j, R (byElement N a b t j)) ↔ ∀ v ∈ a ++ (b ++ t), R v := by
  constructor
  · intro h v hv
    rcases List.mem_append.1 hv with hv | hv
    · obtain ⟨i, hi, rfl⟩ := List.getElem_of_mem hv
      have := h ⟨3 * i, by omega⟩
      rwa [byElement, if_pos (by simp), show (((⟨3 * i, by omega⟩ : Fin (3 * N)) : ℕ)) / 3 = i by simp,
        List.getElem?_eq_getElem hi] at this
    rcases List.mem_append.1 hv with hv | hv
    · obtain ⟨i, hi, rfl⟩ := List.getElem_of_mem hv
      have := h ⟨3 * i + 1, by omega⟩
      rwa [byElement, if_neg (by simp only; omega), if_pos (by simp only; omega),
        show (((⟨3 * i + 1, by omega⟩ : Fin (3 * N)) : ℕ)) / 3 = i by simp only; omega,
        List.getElem?_eq_getElem hi] at this
    · obtain ⟨i, hi, rfl⟩ := List.getElem_of_mem hv
      have := h ⟨3 * i + 2, by omega⟩
      rwa [byElement, if_neg (by simp only; omega), if_neg (by simp only; omega),
        show (((⟨3 * i + 2, by omega⟩ : Fin (3 * N)) : ℕ)) / 3 = i by simp only; omega,
        List.getElem?_eq_getElem hi] at this
  · intro h j
    have hlt : (j : ℕ) / 3 < N := by have := j.2; omega
    unfold byElement
    split_ifs
    · rw [List.getElem?_eq_getElem (by omega)]
      exact h _ (by simp)
    · rw [List.getElem?_eq_getElem (by omega)]
      exact h _ (by simp)
    · rw [List.getElem?_eq_getElem (by omega)]
      exact h _ (by simp)

theorem byElement_forall₂ {N : ℕ} {a b t a' b' t' : List ℝ} (la : a.length = N) (lb : b.length = N) (lt : t.length = N)
    (la' : a'.length = N) (lb' : b'.length = N) (lt' : t'.length = N) {R : ℝ → ℝ → Prop}
    (h : ∀ j, R (byElement N a b t j) (byElement N a' b' t' j)) :
    List.Forall₂ R a a' ∧ List.Forall₂ R b b' ∧ List.Forall₂ R t t' := by
  simp only [List.forall₂_iff_get, List.get_eq_getElem]
  refine ⟨⟨by omega, fun i h1 h2 => ?_⟩, ⟨by omega, fun i h1 h2 => ?_⟩, ⟨by omega, fun i h1 h2 => ?_⟩⟩
  · have := h ⟨3 * i, by omega⟩
    rwa [byElement, byElement, if_pos (by simp), if_pos (by simp),
      show (((⟨3 * i, by omega⟩ : Fin (3 * N)) : ℕ)) / 3 = i by simp,
      List.getElem?_eq_getElem h1, List.getElem?_eq_getElem h2] at this
  · have := h ⟨3 * i + 1, by omega⟩
    rwa [byElement, byElement, if_neg (by simp only; omega), if_pos (by simp only; omega), if_neg (by simp only; omega),
      if_pos (by simp only; omega), show (((⟨3 * i + 1, by omega⟩ : Fin (3 * N)) : ℕ)) / 3 = i by simp only; omega,
      List.getElem?_eq_getElem h1, List.getElem?_eq_getElem h2] at this
  · have := h ⟨3 * i + 2, by omega⟩
    rwa [byElement, byElement, if_neg (by simp only; omega), if_neg (by simp only; omega), if_neg (by simp only; omega),
      if_neg (by simp only; omega), show (((⟨3 * i + 2, by omega⟩ : Fin (3 * N)) : ℕ)) / 3 = i by simp only; omega,
      List.getElem?_eq_getElem h1, List.getElem?_eq_getElem h2] at this

/-! ### The optimiser -/

/-- Parameters and box of an optimiser MMA. -/
structure MMABox {n : ℕ} (lo hi move eps : ℝ) (o : MMA n 1) : Prop where
  xmin : ∀ j, o.xmin j = lo
  xmax : ∀ j, o.xmax j = hi
  albefa : o.albefa = 0.1
  raa0 : 0 ≤ o.raa0
  d : ∀ i, 0 ≤ o.d i
  move : o.move = move
  eps : o.epsvalue = eps

theorem mma_box {n : ℕ} {lo hi move eps : ℝ} (h1 : lo < hi) (hm : 0 < move) {o : MMA n 1} (ho : MMABox lo hi move eps o)
    {s : Fin n → ℝ} (hs : ∀ i, lo ≤ s i ∧ s i ≤ hi) (fuel : ℕ) (f g : ℝ) (df dg : Fin n → ℝ) :
    mmaUpdate o fuel s f df (fun _ => g) (fun _ => dg) ≠ .undefined ∧
    ∀ r, mmaUpdate o fuel s f df (fun _ => g) (fun _ => dg) = .done r → MMABox lo hi move eps r.2 ∧
      r.2.previousvalue = f ∧ (∀ i, lo ≤ r.1 i ∧ r.1 i ≤ hi) ∧ ∀ i, |r.1 i - s i| < move * (hi - lo) := by
  have hok : MMAOk o s := by
    refine ⟨fun j => ?_, fun j => ?_, fun j => ?_, ?_, ?_, ?_⟩
    · rw [ho.xmin, ho.xmax]; exact h1
    · rw [ho.xmin]; exact (hs j).1
    · rw [ho.xmax]; exact (hs j).2
    · rw [ho.albefa]; norm_num
    · rw [ho.albefa]; norm_num
    · rw [ho.move]; exact hm
  refine ⟨C83_mma hok (by rw [ho.albefa]; norm_num) ho.raa0 ho.d fuel f df _ _, fun r hr => ?_⟩
  have hc := C48_mma hok hr
  obtain ⟨P, st, -, -, -, e⟩ := mmaUpdate_done hr
  refine ⟨?_, ?_, fun i => ?_, fun i => ?_⟩
  · rw [e]
    exact ⟨ho.xmin, ho.xmax, ho.albefa, ho.raa0, ho.d, ho.move, ho.eps⟩
  · rw [e]
  · have := (hc i).1
    rw [ho.xmin, ho.xmax] at this
    exact ⟨this.1.le, this.2.le⟩
  · have := (hc i).2.1
    rwa [ho.xmin, ho.xmax, ho.move] at this

/-! ### The loop -/

section
variable {P : LatticeProgram p q}

theorem latticeLoop_facts (hP : P.Ok) {fuel : ℕ} {eps : ℝ} (left : ℕ) (a b t : List ℝ) (o : MMA (3 * P.elements.length) 1)
    (ho : MMABox 0.001 0.999 0.01 eps o) (hb : InLatticeBox P.elements.length a b t)
    {r : List LatticePass × Ending} (hr : latticeLoop P fuel left a b t o = r) :
    r.1.length ≤ left ∧ (r.1 = [] → r.2 = .exhausted ∨ r.2 = .undefined) ∧
    (∀ l, r.1.head? = some l → l.a = a ∧ l.b = b ∧ l.t = t) ∧
    (∀ l ∈ r.1, InLatticeBox P.elements.length l.a l.b l.t ∧ evaluateLattice P l.a l.b l.t = some l.value ∧
      l.value.Exact P l.a l.b l.t) ∧
    List.IsChain (fun l k => List.Forall₂ LatticeStep l.a k.a ∧ List.Forall₂ LatticeStep l.b k.b ∧
      List.Forall₂ LatticeStep l.t k.t) r.1 ∧
    (r.2 = .exhausted → r.1.length = left) ∧
    (r.2 = .undefined → ∃ a b t, InLatticeBox P.elements.length a b t ∧ evaluateLattice P a b t = none ∧
      ¬ LatticeDesign P.T P.elements.length a b t) ∧
    (r.2 = .optimised → r.1 ≠ []) ∧
    ∀ i (h : i < r.1.length), isConvergence ((o.previousvalue :: r.1.map fun l => l.value.f)[i]?.getD 0) eps
      r.1[i].value.f = true ↔ i + 1 = r.1.length ∧ r.2 = .optimised := by
  induction left generalizing a b t o r with
  | zero =>
    subst hr
    simp [latticeLoop]
  | succ left ih =>
    unfold latticeLoop at hr
    cases he : evaluateLattice P a b t with
    | none =>
      rw [he] at hr
      subst hr
      refine ⟨by simp, by simp, by simp, by simp, by simp, by simp, fun _ => ⟨a, b, t, hb, he, fun hd => ?_⟩, by simp,
        by simp⟩
      obtain ⟨e, h1, -⟩ := evaluateLattice_sound hP hd
      rw [he] at h1
      exact absurd h1 (by simp)
    | some e =>
      rw [he] at hr
      dsimp only at hr
      rw [ho.eps] at hr
      have hex := evaluateLattice_exact hP hb.la hb.lb hb.lt he
      by_cases hc : isConvergence o.previousvalue eps e.f = true
      · rw [if_pos hc] at hr
        subst hr
        refine ⟨by simp, by simp, by simp, by simpa using ⟨hb, he, hex⟩, by simp, by simp, by simp, by simp, ?_⟩
        intro i h
        obtain rfl : i = 0 := by simpa using h
        simpa using hc
      rw [if_neg hc, update_vector hb.la hb.lb hb.lt hex.dlength (by rw [hex.dweight]; simp)] at hr
      obtain ⟨u1, u2⟩ := mma_box (by norm_num) (by norm_num) ho ((byElement_forall hb.la hb.lb hb.lt).2 hb.box) fuel e.f e.g
        (tripleVector P.elements.length e.df) (tripleVector P.elements.length e.dg)
      cases hu : mmaUpdate o fuel (byElement P.elements.length a b t) e.f (tripleVector P.elements.length e.df)
          (fun _ => e.g) fun _ => tripleVector P.elements.length e.dg with
      | undefined => exact absurd hu u1
      | running =>
        rw [hu] at hr
        simp only [asListRun] at hr
        subst hr
        refine ⟨by simp, by simp, by simp, by simpa using ⟨hb, he, hex⟩, by simp, by simp, by simp, by simp, ?_⟩
        intro i h
        obtain rfl : i = 0 := by simpa using h
        simpa using hc
      | done w =>
        obtain ⟨v1, v2, v3, v4⟩ := u2 w hu
        obtain ⟨a', b', t', x1, x2, x3, x4, x5⟩ := unpack_vector w.1
        rw [hu] at hr
        simp only [asListRun, x1] at hr
        have hb' : InLatticeBox P.elements.length a' b' t' :=
          ⟨x2, x3, x4, (byElement_forall x2 x3 x4).1 fun j => by rw [x5]; exact v3 j⟩
        obtain ⟨i1, i2, i3, i4, i5, i6, i7, i8, i9⟩ := ih a' b' t' w.2 v1 hb' rfl
        generalize hR : latticeLoop P fuel left a' b' t' w.2 = R at *
        subst hr
        dsimp only
        refine ⟨by simpa using i1, by simp, by simp, ?_, ?_, fun h => by simpa using i6 h, i7, by simp, ?_⟩
        · intro l hl
          rcases List.mem_cons.1 hl with rfl | hl
          · exact ⟨hb, he, hex⟩
          · exact i4 l hl
        · rw [List.isChain_cons]
          refine ⟨fun l hl => ?_, i5⟩
          obtain ⟨e1, e2, e3⟩ := i3 l hl
          rw [e1, e2, e3]
          refine byElement_forall₂ hb.la hb.lb hb.lt x2 x3 x4 fun j => ?_
          rw [x5]
          exact (v4 j).trans_eq (by norm_num)
        · intro i h
          cases i with
          | zero =>
            simp only [List.getElem?_cons_zero, Option.getD_some, List.getElem_cons_zero, List.length_cons]
            refine ⟨fun h => absurd h hc, fun ⟨h, h'⟩ => ?_⟩
            exact absurd (List.length_eq_zero_iff.1 (by omega)) (i8 h')
          | succ i =>
            have := i9 i (by simpa using h)
            rw [v2] at this
            simpa using this

/-- The designs of a run come from MMA. -/
theorem latticeLoop_updates (hP : P.Ok) {eps : ℝ} (fuel left : ℕ) (a b t : List ℝ) (o : MMA (3 * P.elements.length) 1)
    (ho : MMABox 0.001 0.999 0.01 eps o) (hb : InLatticeBox P.elements.length a b t) :
    LatticeUpdatedBy (LatticePass.vector P.elements.length)
      (fun st l => mmaUpdate st fuel (l.vector P.elements.length) l.value.f
        (tripleVector P.elements.length l.value.df) (fun _ => l.value.g)
        fun _ : Fin 1 => tripleVector P.elements.length l.value.dg) o (latticeLoop P fuel left a b t o) ∧
      ∀ l, (latticeLoop P fuel left a b t o).1.head? = some l → l.a = a ∧ l.b = b ∧ l.t = t := by
  refine ⟨?_, (latticeLoop_facts hP left a b t o ho hb rfl).2.2.1⟩
  induction left generalizing a b t o with
  | zero => exact ⟨fun _ => o, rfl, by simp [latticeLoop], by simp [latticeLoop]⟩
  | succ left ih =>
    unfold latticeLoop
    cases he : evaluateLattice P a b t with
    | none => exact ⟨fun _ => o, rfl, by simp, by simp⟩
    | some e =>
      dsimp only
      have hex := evaluateLattice_exact hP hb.la hb.lb hb.lt he
      by_cases hc : isConvergence o.previousvalue o.epsvalue e.f = true
      · rw [if_pos hc]
        exact ⟨fun _ => o, rfl, by simp, by simp⟩
      rw [if_neg hc, update_vector hb.la hb.lb hb.lt hex.dlength (by rw [hex.dweight]; simp)]
      obtain ⟨u1, u2⟩ := mma_box (by norm_num) (by norm_num) ho ((byElement_forall hb.la hb.lb hb.lt).2 hb.box) fuel e.f e.g
        (tripleVector P.elements.length e.df) (tripleVector P.elements.length e.dg)
      cases hu : mmaUpdate o fuel (byElement P.elements.length a b t) e.f (tripleVector P.elements.length e.df)
          (fun _ => e.g) fun _ => tripleVector P.elements.length e.dg with
      | undefined => exact absurd hu u1
      | running => exact ⟨fun _ => o, rfl, by simp [asListRun], by simp [asListRun, LatticePass.vector, hu]⟩
      | done w =>
        obtain ⟨v1, v2, v3, v4⟩ := u2 w hu
        obtain ⟨a', b', t', x1, x2, x3, x4, x5⟩ := unpack_vector w.1
        simp only [asListRun, x1]
        have hb' : InLatticeBox P.elements.length a' b' t' :=
          ⟨x2, x3, x4, (byElement_forall x2 x3 x4).1 fun j => by rw [x5]; exact v3 j⟩
        have i3 := (latticeLoop_facts hP (fuel := fuel) left a' b' t' w.2 v1 hb' rfl).2.2.1
        obtain ⟨st, st0, i1, i2⟩ := ih a' b' t' w.2 v1 hb'
        generalize latticeLoop P fuel left a' b' t' w.2 = R at *
        obtain ⟨l, en⟩ := R
        refine ⟨fun i => if i = 0 then o else st (i - 1), rfl, ?_, ?_⟩
        · intro i h
          cases i with
          | zero =>
            cases l with
            | nil => simp at h
            | cons k l =>
              obtain ⟨e1, e2, e3⟩ := i3 k (by simp)
              simp [LatticePass.vector, e1, e2, e3, hu, st0, x5]
          | succ i => simpa using i1 i (by simpa using h)
        · intro hs
          obtain ⟨k, q1, q2⟩ := i2 hs
          cases l with
          | nil => simp at q1
          | cons k' l => exact ⟨k, by simpa using q1, by simpa using q2⟩

theorem start_box (N : ℕ) : InLatticeBox N (List.replicate N 0.5) (List.replicate N 0.5) (List.replicate N 0.5) := by
  refine ⟨by simp, by simp, by simp, fun v hv => ?_⟩
  simp only [List.mem_append, List.mem_replicate] at hv
  have : v = 0.5 := by tauto
  rw [this]
  norm_num

theorem latticeOptimiser_box (n : ℕ) : MMABox 0.001 0.999 0.01 1.0e-6 (latticeOptimiser n) :=
  ⟨fun _ => by norm_num [latticeOptimiser, MMA.setParameters, MMA.mk'], fun _ => rfl, rfl,
    by norm_num [latticeOptimiser, MMA.setParameters], fun _ => le_rfl, rfl, rfl⟩

theorem solid_design (hs : P.Solid) {a b t : List ℝ} (hb : InLatticeBox P.elements.length a b t) :
    LatticeDesign P.T P.elements.length a b t := by
  refine ⟨hb.la, hb.lb, hb.lt, fun i hi D hD => ?_⟩
  have ia : i < a.length := by rw [hb.la]; exact hi
  have ib : i < b.length := by rw [hb.lb]; exact hi
  have it : i < t.length := by rw [hb.lt]; exact hi
  rw [List.getElem?_eq_getElem ia, List.getElem?_eq_getElem ib, List.getElem?_eq_getElem it] at hD
  exact hs _ _ _ D (hb.box _ (by simp)) (hb.box _ (by simp)) (hb.box _ (by simp)) hD

/-- Every run. -/
theorem runLattice_run (hP : P.Ok) (fuel : ℕ) : LatticeRun P 600 (runLattice P fuel) := by
  obtain ⟨i1, i2, i3, i4, i5, i6, i7, i8, i9⟩ := latticeLoop_facts hP (fuel := fuel) 600 _ _ _ _
    (latticeOptimiser_box (3 * P.elements.length)) (start_box P.elements.length) rfl
  exact ⟨i1, i3, i4, i5, i6, i7⟩

/-- Runs with tensors that are all positive definite. -/
theorem runLattice_sound (hP : P.Ok) (hs : P.Solid) (fuel : ℕ) : SoundLatticeRun P 1.0e-6 600 (runLattice P fuel) := by
  have hrun := runLattice_run hP fuel
  obtain ⟨i1, i2, i3, i4, i5, i6, i7, i8, i9⟩ := latticeLoop_facts hP (fuel := fuel) 600 _ _ _ _
    (latticeOptimiser_box (3 * P.elements.length)) (start_box P.elements.length) rfl
  change LatticeRun P 600 (latticeLoop P fuel 600 _ _ _ _) at hrun
  unfold runLattice
  generalize latticeLoop P fuel 600 _ _ _ _ = r at *
  have hdef : r.2 ≠ .undefined := fun h => by
    obtain ⟨a, b, t, h1, -, h2⟩ := i7 h
    exact h2 (solid_design hs h1)
  have hsound : ∀ l ∈ r.1, l.value.Sound P l.a l.b l.t := by
    intro l hl
    obtain ⟨h1, h2, -⟩ := i4 l hl
    obtain ⟨e, h3, h4⟩ := evaluateLattice_sound hP (solid_design hs h1)
    obtain rfl := Option.some.inj (h2.symm.trans h3)
    exact h4
  have hne : r.1 ≠ [] := fun h => by
    rcases i2 h with h' | h'
    · have := i6 h'
      rw [h] at this
      simp at this
    · exact hdef h'
  refine ⟨hrun, hdef, hne, hsound, ?_, ?_⟩
  · intro i h
    have := i9 (i + 1) h
    rw [List.getElem?_cons_succ, List.getElem?_map, List.getElem?_eq_getElem (by omega)] at this
    simp only [Option.map_some, Option.getD_some] at this
    rw [← isConvergence_iff, this]
    exact add_pos (hsound _ (List.getElem_mem h)).objective (hsound _ (List.getElem_mem (by omega))).objective
  · intro h
    by_contra hc
    have h0 : 0 < r.1.length := List.length_pos_of_ne_nil hne
    have := (i9 0 h0).2 ⟨by omega, h⟩
    have hf := (hsound _ (List.getElem_mem h0)).objective
    rw [List.getElem?_cons_zero, Option.getD_some, show (latticeOptimiser (3 * P.elements.length)).previousvalue = 0 from rfl,
      isConvergence_iff (by simpa using hf)] at this
    unfold Settled at this
    rw [sub_zero, add_zero, abs_of_pos hf] at this
    nlinarith

end

end Pansfem
