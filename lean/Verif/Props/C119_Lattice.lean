/-
C119: tensors, compliance, weight and sensitivities of the program that optimises unit cells.
-/
import Verif.Lemmas.ProgramLattice
import Verif.Lemmas.Equilibrium
import Verif.Props.C111_Sensitivity
import Verif.Props.C115_Vibration

noncomputable section

open Matrix

namespace Pansfem

variable {p q : ℕ}

/-! ### Tensors -/

/-- **C119**: `R` takes the strain to the axes turned by `theta`. -/
theorem C119_rotation (theta : ℝ) (v : Fin 3 → ℝ) :
    strainTensor (latticeR theta *ᵥ v) = axes theta * strainTensor v * (axes theta)ᵀ := by
  have h := Real.sin_sq_add_cos_sq theta
  ext i j
  fin_cases i <;> fin_cases j <;>
    simp [strainTensor, latticeR, axes, mulVec, dotProduct, Fin.sum_univ_three, Matrix.mul_apply, Fin.sum_univ_two,
      vecHead, vecTail] <;> ring

theorem strainTensor_inj {v w : Fin 3 → ℝ} (h : strainTensor v = strainTensor w) : v = w := by
  have h0 := congrFun (congrFun h 0) 0
  have h1 := congrFun (congrFun h 1) 1
  have h2 := congrFun (congrFun h 0) 1
  simp [strainTensor] at h0 h1 h2
  funext i
  fin_cases i
  · exact h0
  · exact h1
  · exact h2

theorem axes_orthogonal (theta : ℝ) : (axes theta)ᵀ * axes theta = 1 := by
  have h := Real.sin_sq_add_cos_sq theta
  ext i j
  fin_cases i <;> fin_cases j <;> simp [axes, Matrix.mul_apply, Fin.sum_univ_two] <;> nlinarith

theorem latticeR_injective {theta : ℝ} {v : Fin 3 → ℝ} (h : latticeR theta *ᵥ v = 0) : v = 0 := by
  have h1 := C119_rotation theta v
  rw [h, show strainTensor 0 = 0 by ext i j; fin_cases i <;> fin_cases j <;> simp [strainTensor]] at h1
  apply strainTensor_inj
  rw [show strainTensor 0 = 0 by ext i j; fin_cases i <;> fin_cases j <;> simp [strainTensor]]
  have h2 : (axes theta)ᵀ * (axes theta * strainTensor v * (axes theta)ᵀ) * axes theta = strainTensor v := by
    rw [show (axes theta)ᵀ * (axes theta * strainTensor v * (axes theta)ᵀ) * axes theta =
      ((axes theta)ᵀ * axes theta) * strainTensor v * ((axes theta)ᵀ * axes theta) by simp only [Matrix.mul_assoc],
      axes_orthogonal, Matrix.one_mul, Matrix.mul_one]
  rw [← h2, ← h1, Matrix.mul_zero, Matrix.zero_mul]

theorem latticeR_deriv (theta : ℝ) : EntryDeriv latticeR (latticeDR theta) theta := by
  have hc := Real.hasDerivAt_cos theta
  have hs := Real.hasDerivAt_sin theta
  have e1 := Real.sin_two_mul theta
  have e2 := Real.cos_two_mul' theta
  have hcc := hc.mul hc
  have hss := hs.mul hs
  have hcs := hc.mul hs
  have hsc := hs.mul hc
  intro i j
  fin_cases i <;> fin_cases j <;> simp only [latticeR, latticeDR, Fin.mk_one, Fin.zero_eta, Fin.reduceFinMk, of_apply,
    cons_val', cons_val_zero, cons_val_one, cons_val, cons_val_fin_one]
  · exact hcc.congr_deriv (by rw [e1]; ring)
  · exact hss.congr_deriv (by rw [e1]; ring)
  · exact hcs.congr_deriv (by rw [e2]; ring)
  · exact hss.congr_deriv (by rw [e1]; ring)
  · exact hcc.congr_deriv (by rw [e1]; ring)
  · exact (hs.neg.mul hc).congr_deriv (by rw [e2, Pi.neg_apply]; ring)
  · exact ((hc.const_mul (-2)).mul hs).congr_deriv (by rw [e2]; ring)
  · exact ((hs.const_mul 2).mul hc).congr_deriv (by rw [e2]; ring)
  · exact (hcc.sub hss).congr_deriv (by rw [e1]; ring)

theorem latticeAngle_deriv (t : ℝ) : HasDerivAt latticeAngle (0.5 * Real.pi / 0.998) t := by
  have h := ((((hasDerivAt_id t).sub_const 0.001).div_const 0.998).sub_const 0.5).const_mul (0.5 * Real.pi)
  exact h.congr_deriv (by ring)

theorem lagrangeW_deriv {xs : Fin p → ℝ} (hx : Function.Injective xs) (y : ℝ) (i : Fin p) :
    HasDerivAt (fun s => lagrangeW xs s i) (lagrangeWD xs y i) y := by
  obtain ⟨D, h1, h2⟩ := C41_derivative hx (fun x => lagrange_eq hx x) y
  rw [lagrangeDerivative_eq hx y] at h1
  cases h1
  exact h2 i

/-- The tensor of an element. -/
def tensorOf (T : CellTables p q) (a b t : ℝ) : Matrix (Fin 3) (Fin 3) ℝ :=
  (latticeR (latticeAngle t))ᵀ * T.combine (lagrangeW T.as a) (lagrangeW T.bs b) * latticeR (latticeAngle t)

section
variable {T : CellTables p q}

theorem latticeTensor_eq (ha : Function.Injective T.as) (hb : Function.Injective T.bs) (a b t : ℝ) :
    latticeTensor T a b t = some (tensorOf T a b t) := by
  unfold latticeTensor
  rw [lagrange_eq ha, lagrange_eq hb]
  rfl

theorem latticeDerivs_eq (ha : Function.Injective T.as) (hb : Function.Injective T.bs) (a b t : ℝ) :
    ∃ Da Db Dt, latticeDerivs T a b t = some (Da, Db, Dt) ∧ EntryDeriv (fun y => tensorOf T y b t) Da a ∧
      EntryDeriv (fun y => tensorOf T a y t) Db b ∧ EntryDeriv (fun y => tensorOf T a b y) Dt t := by
  have hcomb : ∀ (N N' : ℝ → Fin p → ℝ) (M M' : ℝ → Fin q → ℝ) (dN : Fin p → ℝ) (dM : Fin q → ℝ) (y : ℝ),
      (∀ i, HasDerivAt (fun s => N s i) (dN i) y) → (∀ j, HasDerivAt (fun s => M s j) (dM j) y) →
      EntryDeriv (fun s => T.combine (N s) (M s)) (T.combine dN (M y) + T.combine (N y) dM) y := by
    intro N N' M M' dN dM y hN hM r s
    have h := HasDerivAt.fun_sum (u := Finset.univ) fun i _ => HasDerivAt.fun_sum (u := Finset.univ) fun j _ =>
      ((hN i).mul (hM j)).mul_const (T.CH i j r s)
    simp only [CellTables.combine, Matrix.sum_apply, Matrix.add_apply, Matrix.smul_apply, smul_eq_mul,
      ← Finset.sum_add_distrib, ← add_mul]
    exact h
  have hz : ∀ M : Fin q → ℝ, T.combine 0 M = 0 := fun M => by simp [CellTables.combine]
  have hz' : ∀ N : Fin p → ℝ, T.combine N 0 = 0 := fun N => by simp [CellTables.combine]
  unfold latticeDerivs
  rw [lagrange_eq ha, lagrange_eq hb, lagrangeDerivative_eq ha, lagrangeDerivative_eq hb]
  refine ⟨_, _, _, rfl, ?_, ?_, ?_⟩
  · have h1 := hcomb (fun s => lagrangeW T.as s) (fun s => lagrangeW T.as s) (fun _ => lagrangeW T.bs b)
      (fun _ => lagrangeW T.bs b) (lagrangeWD T.as a) 0 a (fun i => lagrangeW_deriv ha a i)
      (fun j => hasDerivAt_const _ _)
    have h2 := ((EntryDeriv.const (latticeR (latticeAngle t))ᵀ a).mul h1).mul
      (EntryDeriv.const (latticeR (latticeAngle t)) a)
    simp only [hz', add_zero, Matrix.zero_mul, zero_add, Matrix.mul_zero] at h2
    exact h2
  · have h1 := hcomb (fun _ => lagrangeW T.as a) (fun _ => lagrangeW T.as a) (fun s => lagrangeW T.bs s)
      (fun _ => lagrangeW T.bs b) 0 (lagrangeWD T.bs b) b (fun i => hasDerivAt_const _ _)
      (fun j => lagrangeW_deriv hb b j)
    have h2 := ((EntryDeriv.const (latticeR (latticeAngle t))ᵀ b).mul h1).mul
      (EntryDeriv.const (latticeR (latticeAngle t)) b)
    simp only [hz, add_zero, Matrix.zero_mul, zero_add, Matrix.mul_zero] at h2
    exact h2
  · have hR : EntryDeriv (fun s => latticeR (latticeAngle s))
        ((0.5 * Real.pi / 0.998) • latticeDR (latticeAngle t)) t := by
      intro i j
      refine ((latticeR_deriv (latticeAngle t) i j).comp t (latticeAngle_deriv t)).congr_deriv ?_
      rw [Matrix.smul_apply, smul_eq_mul, mul_comm]
    have h2 := (hR.transpose.mul (EntryDeriv.const (T.combine (lagrangeW T.as a) (lagrangeW T.bs b)) t)).mul hR
    refine fun i j => (h2 i j).congr_deriv ?_
    simp only [Matrix.mul_zero, add_zero, transpose_smul, Matrix.smul_mul, Matrix.mul_smul, smul_add]

theorem combine_symm (hs : ∀ i j, (T.CH i j)ᵀ = T.CH i j) (N : Fin p → ℝ) (M : Fin q → ℝ) :
    (T.combine N M)ᵀ = T.combine N M := by
  simp only [CellTables.combine, transpose_sum, transpose_smul, hs]

theorem tensorOf_symm (hs : ∀ i j, (T.CH i j)ᵀ = T.CH i j) (a b t : ℝ) : (tensorOf T a b t)ᵀ = tensorOf T a b t := by
  simp only [tensorOf, transpose_mul, transpose_transpose, combine_symm hs, Matrix.mul_assoc]

/-- **C119**: the tensor of an element.  Its energy of a strain is that of the interpolated tensor for the strain in
the turned axes; at the abscissae and the middle of the range of `t` it is the tensor of the unit cell; tensors of unit
cells that are all the same come back whatever the sizes; and it is positive definite if and only if the tensor without
rotation is. -/
theorem C119_tensor (ha : Function.Injective T.as) (hb : Function.Injective T.bs) (a b t : ℝ) :
    ∃ D C, latticeTensor T a b t = some D ∧ latticeTensor T a b 0.5 = some C ∧
      (∀ v w, strainTensor w = axes (latticeAngle t) * strainTensor v * (axes (latticeAngle t))ᵀ →
        v ⬝ᵥ (D *ᵥ v) = w ⬝ᵥ (C *ᵥ w)) ∧
      (∀ i j, a = T.as i → b = T.bs j → C = T.CH i j) ∧
      (∀ C0, 0 < p → 0 < q → (∀ i j, T.CH i j = C0) → C = C0) ∧
      ((∀ i j, (T.CH i j)ᵀ = T.CH i j) → (PosTensor D ↔ PosTensor C)) := by
  have h0 : latticeR (latticeAngle 0.5) = 1 := by
    have : latticeAngle 0.5 = 0 := by unfold latticeAngle; norm_num
    rw [this]
    ext i j
    fin_cases i <;> fin_cases j <;> simp [latticeR]
  have hC : tensorOf T a b 0.5 = T.combine (lagrangeW T.as a) (lagrangeW T.bs b) := by
    rw [tensorOf, h0, transpose_one, Matrix.one_mul, Matrix.mul_one]
  have hen : ∀ v, v ⬝ᵥ (tensorOf T a b t *ᵥ v) = (latticeR (latticeAngle t) *ᵥ v) ⬝ᵥ
      (tensorOf T a b 0.5 *ᵥ (latticeR (latticeAngle t) *ᵥ v)) := by
    intro v
    rw [hC, tensorOf, Matrix.mul_assoc, ← mulVec_mulVec, ← mulVec_mulVec, dotProduct_mulVec, vecMul_transpose]
  have hN : ∀ {m : ℕ} {xs : Fin m → ℝ}, Function.Injective xs → ∀ y,
      (∀ k, y = xs k → ∀ i, lagrangeW xs y i = if i = k then 1 else 0) ∧ (0 < m → ∑ i, lagrangeW xs y i = 1) := by
    intro m xs hx y
    obtain ⟨N, h1, h2, h3, -⟩ := C41_interpolation hx y
    rw [lagrange_eq hx] at h1
    cases h1
    exact ⟨h2, h3⟩
  refine ⟨_, _, latticeTensor_eq ha hb a b t, latticeTensor_eq ha hb a b 0.5, ?_, ?_, ?_, ?_⟩
  · intro v w h
    rw [← C119_rotation] at h
    rw [strainTensor_inj h, hen]
  · rintro i j rfl rfl
    rw [hC, CellTables.combine]
    simp only [(hN ha _).1 i rfl, (hN hb _).1 j rfl]
    rw [Finset.sum_eq_single i, Finset.sum_eq_single j]
    · simp
    · intro k _ hk; simp [hk]
    · intro hn; exact absurd (Finset.mem_univ j) hn
    · intro k _ hk; simp [hk]
    · intro hn; exact absurd (Finset.mem_univ i) hn
  · intro C0 hp hq h
    rw [hC, CellTables.combine]
    simp only [h, ← Finset.sum_smul, ← Finset.mul_sum, (hN hb b).2 hq, mul_one, (hN ha a).2 hp, one_smul]
  · intro hs
    have hinv : ∀ w, ∃ v, latticeR (latticeAngle t) *ᵥ v = w := by
      have hinj : Function.Injective (latticeR (latticeAngle t)).mulVecLin := by
        rw [← LinearMap.ker_eq_bot, LinearMap.ker_eq_bot']
        intro v hv
        exact latticeR_injective hv
      intro w
      obtain ⟨v, hv⟩ := LinearMap.surjective_of_injective hinj w
      exact ⟨v, hv⟩
    constructor
    · rintro ⟨-, h⟩
      refine ⟨tensorOf_symm hs _ _ _, fun w hw => ?_⟩
      obtain ⟨v, rfl⟩ := hinv w
      rw [← hen]
      refine h v ?_
      rintro rfl
      exact hw (mulVec_zero _)
    · rintro ⟨-, h⟩
      refine ⟨tensorOf_symm hs _ _ _, fun v hv => ?_⟩
      rw [hen]
      exact h _ fun h0 => hv (latticeR_injective h0)

end

/-! ### Compliance -/

section

attribute [local irreducible] stiffForm stiffItem

variable {T : CellTables p q} {x : List (Vec ℝ)} {elements : List (List ℕ)} {bc loads : List ((ℕ × ℕ) × ℝ)}
  {ntg : List (List ℤ)} {U : List ℝ → List ℝ → List ℝ → List (Vec ℝ)}

theorem quads8_positive (hQ : Quads8 x elements) {e : List ℕ} (he : e ∈ elements) :
    HasCoords x e ∧ e.length = 8 ∧ ∀ g, 0 < measure2 SF.square8 IC.gauss9Square (nodeRows 8 x e) g := by
  obtain ⟨h1, h2, h3⟩ := hQ e he
  refine ⟨h1, h2, fun g => ?_⟩
  rw [measure2]
  exact mul_pos (mul_pos (h3 g) (gauss9_weights g).1) (gauss9_weights g).2

/-- The tensor of the element `i` of a design. -/
abbrev tensorAt (T : CellTables p q) (a b t : List ℝ) (i : ℕ) : Matrix (Fin 3) (Fin 3) ℝ :=
  tensorOf T (a[i]?.getD 0) (b[i]?.getD 0) (t[i]?.getD 0)

/-- The elements of a design. -/
abbrev stiffItems (x : List (Vec ℝ)) (elements : List (List ℕ)) (D : ℕ → Matrix (Fin 3) (Fin 3) ℝ) : List (ElemData ℝ) :=
  List.ofFn fun i : Fin elements.length => stiffItem SF.square8 IC.gauss9Square x elements[i] (D i)

theorem latticeItems_eq (hQ : Quads8 x elements) (ha : Function.Injective T.as) (hb : Function.Injective T.bs)
    {a b t : List ℝ} (la : a.length = elements.length) (lb : b.length = elements.length)
    (lt : t.length = elements.length) :
    latticeItems SF.square8 IC.gauss9Square x elements T a b t = some (stiffItems x elements (tensorAt T a b t)) := by
  unfold latticeItems
  apply range_mapM
  intro i
  obtain ⟨h1, h2, h3⟩ := quads8_positive hQ (List.getElem_mem i.2)
  have ia : (i : ℕ) < a.length := by rw [la]; exact i.2
  have ib : (i : ℕ) < b.length := by rw [lb]; exact i.2
  have it : (i : ℕ) < t.length := by rw [lt]; exact i.2
  simp only [List.getElem?_eq_getElem i.2, List.getElem?_eq_getElem ia, List.getElem?_eq_getElem ib,
    List.getElem?_eq_getElem it, Option.bind_eq_bind, Option.bind_some, latticeTensor_eq ha hb,
    (stiffItem_call h1 h2 h3 _).1, Option.getD_some, Fin.getElem_fin, tensorAt]

theorem stiffItems_mem {D : ℕ → Matrix (Fin 3) (Fin 3) ℝ} {it : ElemData ℝ} (h : it ∈ stiffItems x elements D) :
    ∃ e ∈ elements, ∃ D, it = stiffItem SF.square8 IC.gauss9Square x e D := by
  obtain ⟨i, rfl⟩ := List.mem_ofFn.1 h
  exact ⟨_, List.getElem_mem i.2, _, rfl⟩

theorem stiffItems_energy (hQ : Quads8 x elements) (D : ℕ → Matrix (Fin 3) (Fin 3) ℝ) (v w : ℕ → ℕ → ℝ) :
    energy ((stiffItems x elements D).map ElemData.call) v w =
      ∑ i : Fin elements.length, stiffForm SF.square8 IC.gauss9Square x elements[i] (D i) v w := by
  rw [energy_eq, List.map_map, List.map_ofFn, List.sum_ofFn]
  refine Finset.sum_congr rfl fun i _ => ?_
  exact stiffItem_energy (hQ _ (List.getElem_mem i.2)).2.1 _ _ _

theorem lattice_solves (hQ : Quads8 x elements) (ha : Function.Injective T.as) (hb : Function.Injective T.bs)
    (hl : ∀ r ∈ loads, r.1.1 < x.length ∧ r.1.2 < 2) (hU : LatticeDisplacements x elements T bc loads U)
    {a b t : List ℝ} (hd : LatticeDesign T elements.length a b t) :
    valOf (U a b t) ∈ Admissible (freeTable x.length 2) bc ∧ ∀ w ∈ Admissible (freeTable x.length 2) bc,
      ∑ i : Fin elements.length, stiffForm SF.square8 IC.gauss9Square x elements[i] (tensorAt T a b t i) w
        (valOf (U a b t)) = loadForm [.nodal loads] w := by
  have he := hU.solves a b t _ hd (latticeItems_eq hQ ha hb hd.la hd.lb hd.lt)
  refine ⟨he.2, fun w hw => ?_⟩
  rw [← stiffItems_energy hQ]
  refine equilibrium_work ?_ ?_ he hw
  · intro c hc r hr
    rcases List.mem_append.1 hc with hc | hc
    · obtain ⟨it, hit, rfl⟩ := List.mem_map.1 hc
      obtain ⟨e, he, D, rfl⟩ := stiffItems_mem hit
      obtain ⟨h1, h2, h3⟩ := quads8_positive hQ he
      exact ((stiffItem_fits h1 h2 h3 D (hU.shaped [] [] [])).1 r hr).1
    · rw [List.mem_singleton] at hc
      subst hc
      simp only [AsmCall.dofs, List.mem_map] at hr
      obtain ⟨s, hs, rfl⟩ := hr
      have := hl s.1 (List.fst_mem_of_mem_zipIdx hs)
      exact freeTable_isSome this.1 this.2
  · intro c hc r s
    rw [List.mem_singleton] at hc
    subst hc
    rfl

theorem latticeCompliance_eq (hQ : Quads8 x elements) (ha : Function.Injective T.as) (hb : Function.Injective T.bs)
    (hl : ∀ r ∈ loads, r.1.1 < x.length ∧ r.1.2 < 2)
    (hn : ntg.map List.length = (freeTable x.length 2).map List.length)
    (hU : LatticeDisplacements x elements T bc loads U)
    {a b t : List ℝ} (hd : LatticeDesign T elements.length a b t) :
    ∃ d : Fin elements.length → ℝ × ℝ × ℝ,
      latticeCompliance SF.square8 IC.gauss9Square x elements T ntg a b t (U a b t) =
        some (loadForm [.nodal loads] (valOf (U a b t)), List.ofFn d) ∧
      ∀ i : Fin elements.length, ∃ Da Db Dt, latticeDerivs T (a[(i : ℕ)]?.getD 0) (b[(i : ℕ)]?.getD 0) (t[(i : ℕ)]?.getD 0) =
          some (Da, Db, Dt) ∧
        d i = (-stiffForm SF.square8 IC.gauss9Square x elements[i] Da (valOf (U a b t)) (valOf (U a b t)),
          -stiffForm SF.square8 IC.gauss9Square x elements[i] Db (valOf (U a b t)) (valOf (U a b t)),
          -stiffForm SF.square8 IC.gauss9Square x elements[i] Dt (valOf (U a b t)) (valOf (U a b t))) := by
  obtain ⟨s1, s2⟩ := lattice_solves hQ ha hb hl hU hd
  have hu := hU.shaped a b t
  have hsq : ∀ it ∈ stiffItems x elements (tensorAt T a b t), it.Square := by
    intro it hit
    obtain ⟨e, he, D, rfl⟩ := stiffItems_mem hit
    obtain ⟨h1, h2, h3⟩ := quads8_positive hQ he
    exact (stiffItem_call h1 h2 h3 D).2.1
  have hfit : ∀ it ∈ stiffItems x elements (tensorAt T a b t), it.call.Fits ntg (U a b t) := by
    intro it hit
    obtain ⟨e, he, D, rfl⟩ := stiffItems_mem hit
    obtain ⟨h1, h2, h3⟩ := quads8_positive hQ he
    obtain ⟨f1, f2⟩ := stiffItem_fits h1 h2 h3 D hu
    refine ⟨fun r hr => ⟨?_, (f1 r hr).2⟩, f2⟩
    rw [← mem_allDofs_iff, allDofs_lengths hn, mem_allDofs_iff]
    exact (f1 r hr).1
  have hz := shaped_congr hn (shaped_zeroField x.length 2)
  have hr : ∀ n d, (dofNum ntg n d).isSome → (nodal (zeroField x.length 2) n d).isSome := fun n d => (hz.2 n d).2
  obtain ⟨r, r1, -⟩ := C110_reactions (U a b t) (zeroField x.length 2) ntg _ hsq hfit hr
  have r2 := (C110_work (U a b t) _ r ntg _ hsq hfit hr r1).2 (shaped_congr hn hu) hz
  choose Da Db Dt hD _ _ _ using fun i : Fin elements.length =>
    latticeDerivs_eq ha hb (a[(i : ℕ)]?.getD 0) (b[(i : ℕ)]?.getD 0) (t[(i : ℕ)]?.getD 0)
  refine ⟨fun i => (-stiffForm SF.square8 IC.gauss9Square x elements[i] (Da i) (valOf (U a b t)) (valOf (U a b t)),
    -stiffForm SF.square8 IC.gauss9Square x elements[i] (Db i) (valOf (U a b t)) (valOf (U a b t)),
    -stiffForm SF.square8 IC.gauss9Square x elements[i] (Dt i) (valOf (U a b t)) (valOf (U a b t))), ?_,
    fun i => ⟨_, _, _, hD i, rfl⟩⟩
  unfold latticeCompliance
  rw [latticeItems_eq hQ ha hb hd.la hd.lb hd.lt]
  simp only [Option.bind_eq_bind, Option.bind_some, r1, r2, Option.pure_def]
  rw [stiffItems_energy hQ, s2 _ s1]
  rw [range_mapM (g := fun i : Fin elements.length =>
    (-stiffForm SF.square8 IC.gauss9Square x elements[i] (Da i) (valOf (U a b t)) (valOf (U a b t)),
    -stiffForm SF.square8 IC.gauss9Square x elements[i] (Db i) (valOf (U a b t)) (valOf (U a b t)),
    -stiffForm SF.square8 IC.gauss9Square x elements[i] (Dt i) (valOf (U a b t)) (valOf (U a b t))))]
  · rfl
  · intro i
    obtain ⟨h1, h2, h3⟩ := quads8_positive hQ (List.getElem_mem i.2)
    have ia : (i : ℕ) < a.length := by rw [hd.la]; exact i.2
    have ib : (i : ℕ) < b.length := by rw [hd.lb]; exact i.2
    have it : (i : ℕ) < t.length := by rw [hd.lt]; exact i.2
    have hDi := hD i
    have hterm : ∀ D, latticeTerm (U a b t) (stiffItem SF.square8 IC.gauss9Square x elements[(i : ℕ)] D) =
        some (-stiffForm SF.square8 IC.gauss9Square x elements[(i : ℕ)] D (valOf (U a b t)) (valOf (U a b t))) := by
      intro D
      rw [latticeTerm_eq (stiffItem_call h1 h2 h3 D).2.1 (stiffItem_fits h1 h2 h3 D hu), stiffItem_energy h2]
    simp only [List.getElem?_eq_getElem ia, List.getElem?_eq_getElem ib, List.getElem?_eq_getElem it,
      Option.getD_some] at hDi
    simp only [List.getElem?_eq_getElem i.2, List.getElem?_eq_getElem ia, List.getElem?_eq_getElem ib,
      List.getElem?_eq_getElem it, Option.bind_eq_bind, Option.bind_some, latticeSensitivity, hDi,
      (stiffItem_call h1 h2 h3 _).1, hterm, Option.pure_def, Fin.getElem_fin]

theorem design_iff (ha : Function.Injective T.as) (hb : Function.Injective T.bs) {N : ℕ} {a b t : List ℝ} :
    LatticeDesign T N a b t ↔ (a.length = N ∧ b.length = N ∧ t.length = N) ∧ ∀ i < N, PosTensor (tensorAt T a b t i) := by
  constructor
  · exact fun h => ⟨⟨h.la, h.lb, h.lt⟩, fun i hi => h.pos i hi _ (latticeTensor_eq ha hb _ _ _)⟩
  · rintro ⟨⟨h1, h2, h3⟩, h⟩
    refine ⟨h1, h2, h3, fun i hi D hD => ?_⟩
    rw [latticeTensor_eq ha hb] at hD
    cases hD
    exact h i hi

/-- The compliance along a path of designs that changes one tensor. -/
theorem lattice_path (hQ : Quads8 x elements) (ha : Function.Injective T.as) (hb : Function.Injective T.bs)
    (hs : ∀ i j, (T.CH i j)ᵀ = T.CH i j)
    (hl : ∀ r ∈ loads, r.1.1 < x.length ∧ r.1.2 < 2)
    (hn : ntg.map List.length = (freeTable x.length 2).map List.length)
    (hU : LatticeDisplacements x elements T bc loads U) {A B C : ℝ → List ℝ} {y₀ : ℝ}
    (hd : LatticeDesign T elements.length (A y₀) (B y₀) (C y₀)) (j : Fin elements.length)
    {D : ℝ → Matrix (Fin 3) (Fin 3) ℝ} {D' : Matrix (Fin 3) (Fin 3) ℝ} (hD : EntryDeriv D D' y₀)
    (hlen : ∀ y, (A y).length = elements.length ∧ (B y).length = elements.length ∧ (C y).length = elements.length)
    (hj : ∀ y, tensorAt T (A y) (B y) (C y) j = D y)
    (ho : ∀ y, ∀ i ≠ (j : ℕ), tensorAt T (A y) (B y) (C y) i = tensorAt T (A y₀) (B y₀) (C y₀) i) :
    HasDerivAt (fun y => ((latticeCompliance SF.square8 IC.gauss9Square x elements T ntg (A y) (B y) (C y)
        (U (A y) (B y) (C y))).map Prod.fst).getD 0)
      (-stiffForm SF.square8 IC.gauss9Square x elements[j] D' (valOf (U (A y₀) (B y₀) (C y₀)))
        (valOf (U (A y₀) (B y₀) (C y₀)))) y₀ := by
  have hpos := ((design_iff ha hb).1 hd).2
  have hsym : ∀ y, (D y)ᵀ = D y := fun y => by rw [← hj y]; exact tensorOf_symm hs _ _ _
  have hp0 : PosTensor (D y₀) := by rw [← hj y₀]; exact hpos j j.2
  have hnear : ∀ᶠ y in nhds y₀, LatticeDesign T elements.length (A y) (B y) (C y) := by
    filter_upwards [tensor_near hD hsym hp0] with y hy
    refine (design_iff ha hb).2 ⟨hlen y, fun i hi => ?_⟩
    by_cases hij : i = j
    · subst hij
      rw [hj y]
      exact hy
    · rw [ho y i hij]
      exact hpos i hi
  obtain ⟨M, hM⟩ := tensor_relative hD hp0
  have hmeas := (quads8_positive hQ (List.getElem_mem j.2)).2.2
  have key := form_deriv (S := Admissible (freeTable x.length 2) bc) (l := loadForm [.nodal loads])
    (R := ∑ i ∈ Finset.univ.erase j, stiffForm SF.square8 IC.gauss9Square x elements[i]
      (tensorAt T (A y₀) (B y₀) (C y₀) i))
    (Q := fun y => stiffForm SF.square8 IC.gauss9Square x elements[j] (D y))
    (g := fun y => valOf (U (A y) (B y) (C y))) (y₀ := y₀)
    (fun v w => by
      simp only [LinearMap.sum_apply]
      exact Finset.sum_congr rfl fun i _ => stiffForm_symm _ _ _ _ (hpos i i.2).1 v w)
    (fun v => by
      simp only [LinearMap.sum_apply]
      exact Finset.sum_nonneg fun i _ => stiffForm_nonneg (quads8_positive hQ (List.getElem_mem i.2)).2.2
        (hpos i i.2) v)
    (fun y v w => stiffForm_symm _ _ _ _ (hsym y) v w)
    (fun v => stiffForm_nonneg hmeas hp0 v) (M := M)
    (by
      filter_upwards [hM] with y hy v
      exact stiffForm_relative hmeas hy v)
    (by
      filter_upwards [hnear] with y hy
      obtain ⟨s1, s2⟩ := lattice_solves hQ ha hb hl hU hy
      refine ⟨s1, fun w hw => ?_⟩
      rw [← s2 w hw, ← Finset.add_sum_erase _ _ (Finset.mem_univ j), hj y]
      simp only [LinearMap.sum_apply]
      congr 1
      refine Finset.sum_congr rfl fun i hi => ?_
      rw [ho y i fun e => (Finset.ne_of_mem_erase hi) (Fin.ext e)])
    (stiffForm_deriv hD _)
  refine key.congr_of_eventuallyEq ?_
  filter_upwards [hnear] with y hy
  obtain ⟨d, hd, -⟩ := latticeCompliance_eq hQ ha hb hl hn hU hy
  rw [hd]
  rfl

/-- **C119**: the compliance is the work of the loads, and `dfda`, `dfdb` and `dfdt` are its derivatives, for symmetric
tables and designs whose tensors are positive definite, if `U` gives displacements in equilibrium. -/
theorem C119_sensitivity (hQ : Quads8 x elements) (ha : Function.Injective T.as) (hb : Function.Injective T.bs)
    (hs : ∀ i j, (T.CH i j)ᵀ = T.CH i j)
    (hl : ∀ r ∈ loads, r.1.1 < x.length ∧ r.1.2 < 2)
    (hn : ntg.map List.length = (freeTable x.length 2).map List.length)
    (hU : LatticeDisplacements x elements T bc loads U) {a b t : List ℝ}
    (hd : LatticeDesign T elements.length a b t) :
    ∃ f d, latticeCompliance SF.square8 IC.gauss9Square x elements T ntg a b t (U a b t) = some (f, d) ∧
      d.length = elements.length ∧ f = (loads.map fun r => valOf (U a b t) r.1.1 r.1.2 * r.2).sum ∧
      ∀ j < elements.length,
        HasDerivAt (fun y => ((latticeCompliance SF.square8 IC.gauss9Square x elements T ntg (a.set j y) b t
          (U (a.set j y) b t)).map Prod.fst).getD 0) (d[j]?.getD 0).1 (a[j]?.getD 0) ∧
        HasDerivAt (fun y => ((latticeCompliance SF.square8 IC.gauss9Square x elements T ntg a (b.set j y) t
          (U a (b.set j y) t)).map Prod.fst).getD 0) (d[j]?.getD 0).2.1 (b[j]?.getD 0) ∧
        HasDerivAt (fun y => ((latticeCompliance SF.square8 IC.gauss9Square x elements T ntg a b (t.set j y)
          (U a b (t.set j y))).map Prod.fst).getD 0) (d[j]?.getD 0).2.2 (t[j]?.getD 0) := by
  obtain ⟨d, h1, h2⟩ := latticeCompliance_eq hQ ha hb hl hn hU hd
  refine ⟨_, _, h1, by simp, loadForm_nodal _ _, fun j hj => ?_⟩
  obtain ⟨Da, Db, Dt, h3, h4⟩ := h2 ⟨j, hj⟩
  rw [show ((List.ofFn d)[j]?.getD 0) = d ⟨j, hj⟩ by rw [List.getElem?_ofFn, dif_pos hj]; rfl, h4]
  obtain ⟨Da', Db', Dt', h5, ea, eb, et⟩ := latticeDerivs_eq ha hb (a[j]?.getD 0) (b[j]?.getD 0) (t[j]?.getD 0)
  rw [show latticeDerivs T (a[j]?.getD 0) (b[j]?.getD 0) (t[j]?.getD 0) = _ from h3] at h5
  cases h5
  have hself : ∀ l : List ℝ, l.length = elements.length → l.set j (l[j]?.getD 0) = l := by
    intro l hl
    have hj' : j < l.length := by rw [hl]; exact hj
    rw [List.getElem?_eq_getElem hj', Option.getD_some]
    exact List.set_getElem_self hj'
  have hat : ∀ (l : List ℝ) (y : ℝ), l.length = elements.length → (l.set j y)[j]?.getD 0 = y := by
    intro l y hl
    have hj' : j < l.length := by rw [hl]; exact hj
    simp [hj']
  have hoff : ∀ (l : List ℝ) (y : ℝ) (i : ℕ), i ≠ j → (l.set j y)[i]?.getD 0 = l[i]?.getD 0 := by
    intro l y i hi
    rw [List.getElem?_set_ne (Ne.symm hi)]
  refine ⟨?_, ?_, ?_⟩
  · have := lattice_path hQ ha hb hs hl hn hU (A := fun y => a.set j y) (B := fun _ => b) (C := fun _ => t)
      (y₀ := a[j]?.getD 0) (by simp only [hself a hd.la]; exact hd) ⟨j, hj⟩ ea
      (fun y => ⟨by rw [List.length_set, hd.la], hd.lb, hd.lt⟩)
      (fun y => by simp only [tensorAt, hat a y hd.la])
      (fun y i hi => by simp only [tensorAt, hoff a _ i hi])
    simp only [hself a hd.la] at this
    exact this
  · have := lattice_path hQ ha hb hs hl hn hU (A := fun _ => a) (B := fun y => b.set j y) (C := fun _ => t)
      (y₀ := b[j]?.getD 0) (by simp only [hself b hd.lb]; exact hd) ⟨j, hj⟩ eb
      (fun y => ⟨hd.la, by rw [List.length_set, hd.lb], hd.lt⟩)
      (fun y => by simp only [tensorAt, hat b y hd.lb])
      (fun y i hi => by simp only [tensorAt, hoff b _ i hi])
    simp only [hself b hd.lb] at this
    exact this
  · have := lattice_path hQ ha hb hs hl hn hU (A := fun _ => a) (B := fun _ => b) (C := fun y => t.set j y)
      (y₀ := t[j]?.getD 0) (by simp only [hself t hd.lt]; exact hd) ⟨j, hj⟩ et
      (fun y => ⟨hd.la, hd.lb, by rw [List.length_set, hd.lt]⟩)
      (fun y => by simp only [tensorAt, hat t y hd.lt])
      (fun y i hi => by simp only [tensorAt, hoff t _ i hi])
    simp only [hself t hd.lt] at this
    exact this

/-- On a held mesh a field that vanishes at the supports and has no energy is zero. -/
theorem stiffItems_definite (hQ : Quads8 x elements) (hs : HeldMesh x elements bc)
    {D : ℕ → Matrix (Fin 3) (Fin 3) ℝ} (hpos : ∀ i < elements.length, PosTensor (D i)) {w : ℕ → ℕ → ℝ}
    (hw : ZeroAtSupports x bc w) (h0 : energy ((stiffItems x elements D).map ElemData.call) w w = 0) : w = 0 := by
  refine hs w hw fun e he g => ?_
  rw [stiffItems_energy hQ] at h0
  obtain ⟨i, hi, rfl⟩ := List.getElem_of_mem he
  have h1 := (Finset.sum_eq_zero_iff_of_nonneg fun (i : Fin elements.length) _ => stiffForm_nonneg
    (quads8_positive hQ (List.getElem_mem i.2)).2.2 (hpos i i.2) w).1 h0 ⟨i, hi⟩ (Finset.mem_univ _)
  rw [stiffForm_apply] at h1
  have hm := (quads8_positive hQ he).2.2
  have hterm : ∀ g : Fin IC.gauss9Square.N, ∀ s : Fin 3 → ℝ,
      0 ≤ measure2 SF.square8 IC.gauss9Square (nodeRows 8 x elements[i]) g * 1 *
        (s ⬝ᵥ (D i *ᵥ s)) := by
    intro g s
    refine mul_nonneg (by linarith [hm g]) ?_
    by_cases hz : s = 0
    · simp [hz]
    · exact ((hpos i hi).2 s hz).le
  have h2 := (Finset.sum_eq_zero_iff_of_nonneg fun g _ => hterm g _).1 h1 g (Finset.mem_univ g)
  rw [mul_one] at h2
  have h3 := (mul_eq_zero.1 h2).resolve_left (hm g).ne'
  by_contra hne
  refine absurd h3 (ne_of_gt ((hpos i hi).2 _ fun h4 => hne ?_))
  refine Eq.trans ?_ h4
  funext r
  fin_cases r <;>
    simp [strainAt, planeB, mulVec, dotProduct, Fintype.sum_prod_type, Fin.sum_univ_two, localField, gradAt,
      Finset.sum_add_distrib]

/-- **C119**: displacements as `C119_sensitivity` asks for exist if the supports hold the mesh. -/
theorem C119_displacements (hQ : Quads8 x elements) (ha : Function.Injective T.as) (hb : Function.Injective T.bs)
    (hl : ∀ r ∈ loads, r.1.1 < x.length ∧ r.1.2 < 2) (hs : HeldMesh x elements bc) :
    ∃ U, LatticeDisplacements x elements T bc loads U := by
  have key : ∀ a b t, ∃ u, Shaped u (freeTable x.length 2) ∧ ∀ its, LatticeDesign T elements.length a b t →
      latticeItems SF.square8 IC.gauss9Square x elements T a b t = some its →
      Equilibrium (freeTable x.length 2) bc (its.map ElemData.call ++ [.nodal loads]) u := by
    intro a b t
    by_cases hd : LatticeDesign T elements.length a b t
    · have hpos := ((design_iff ha hb).1 hd).2
      obtain ⟨u, h1, h2⟩ := equilibrium_exists (N := x.length) (k := 2) (bc := bc)
        (items := stiffItems x elements (tensorAt T a b t)) (loads := [.nodal loads]) (by
          intro c hc r hr
          rcases List.mem_append.1 hc with hc | hc
          · obtain ⟨it, hit, rfl⟩ := List.mem_map.1 hc
            obtain ⟨e, he, D, rfl⟩ := stiffItems_mem hit
            obtain ⟨h1, h2, h3⟩ := quads8_positive hQ he
            exact ((stiffItem_fits h1 h2 h3 D (shaped_zeroField x.length 2)).1 r hr).1
          · rw [List.mem_singleton] at hc
            subst hc
            simp only [AsmCall.dofs, List.mem_map] at hr
            obtain ⟨s, hs, rfl⟩ := hr
            have := hl s.1 (List.fst_mem_of_mem_zipIdx hs)
            exact freeTable_isSome this.1 this.2) (by
          intro c hc r s
          rw [List.mem_singleton] at hc
          subst hc
          rfl) (by
          intro w hw h0
          exact stiffItems_definite hQ hs hpos (fun m j hm => hw m j fun hf => hm (free_table.1 hf)) h0)
      refine ⟨u, h1, fun its _ hi => ?_⟩
      rw [latticeItems_eq hQ ha hb hd.la hd.lb hd.lt] at hi
      cases hi
      exact h2
    · exact ⟨zeroField x.length 2, shaped_zeroField _ _, fun its h => absurd h hd⟩
  choose U h1 h2 using key
  exact ⟨U, ⟨h1, fun a b t its => h2 a b t its⟩⟩

end

/-! ### Weight -/

theorem weight_eq {w : ℝ} (hw : w ≠ 0) {N : ℕ} (hN : N ≠ 0) {a b : List ℝ} (la : a.length = N) (lb : b.length = N) :
    latticeWeight w N a b = some
      ((∑ i : Fin N, (1 - (1 - a[(i : ℕ)]?.getD 0) * (1 - b[(i : ℕ)]?.getD 0)) / (w * N)) - 1,
        List.ofFn fun i : Fin N => ((1 - b[(i : ℕ)]?.getD 0) / (w * N), (1 - a[(i : ℕ)]?.getD 0) / (w * N), 0)) := by
  have hz : w * (N : ℝ) ≠ 0 := mul_ne_zero hw (Nat.cast_ne_zero.2 hN)
  have ha : ∀ i < N, a[i]? = some (a[i]?.getD 0) := by
    intro i hi
    rw [List.getElem?_eq_getElem (by omega)]; rfl
  have hb : ∀ i < N, b[i]? = some (b[i]?.getD 0) := by
    intro i hi
    rw [List.getElem?_eq_getElem (by omega)]; rfl
  have hfold : ∀ m ≤ N, (List.range m).foldlM (fun g i => do
      return g + (← div? (1 - (1 - (← a[i]?)) * (1 - (← b[i]?))) (w * N))) (0 : ℝ) =
      some (∑ i ∈ Finset.range m, (1 - (1 - a[i]?.getD 0) * (1 - b[i]?.getD 0)) / (w * N)) := by
    intro m
    induction m with
    | zero => intro _; simp
    | succ m ih =>
      intro hm
      rw [List.range_succ, List.foldlM_append, ih (by omega), Option.bind_eq_bind, Option.bind_some]
      simp only [List.foldlM_cons, List.foldlM_nil]
      rw [ha m (by omega), hb m (by omega)]
      simp only [Option.bind_eq_bind, Option.bind_some, div?, hz, if_false, Option.pure_def, Option.getD_some,
        Finset.sum_range_succ]
  unfold latticeWeight
  rw [hfold N le_rfl, Finset.sum_range]
  rw [range_mapM (g := fun i : Fin N => ((1 - b[(i : ℕ)]?.getD 0) / (w * N), (1 - a[(i : ℕ)]?.getD 0) / (w * N), 0))]
  · rfl
  · intro i
    rw [ha i i.2, hb i i.2]
    simp [div?, hz]

/-- **C119**: the weight is the mean of the occupied areas over the limit, less one, and `dgda`, `dgdb`, `dgdt` are its
derivatives; for sizes between 0 and 1 the area is between 0 and 1 and grows with the sizes. -/
theorem C119_weight {w : ℝ} (hw : 0 < w) {N : ℕ} (hN : N ≠ 0) {a b : List ℝ} (la : a.length = N) (lb : b.length = N) :
    ∃ g d, latticeWeight w N a b = some (g, d) ∧ d.length = N ∧
      g = (∑ i : Fin N, (a[(i : ℕ)]?.getD 0 + b[(i : ℕ)]?.getD 0 - a[(i : ℕ)]?.getD 0 * b[(i : ℕ)]?.getD 0)) / N / w - 1 ∧
      (∀ j < N, HasDerivAt (fun y => ((latticeWeight w N (a.set j y) b).map Prod.fst).getD 0) (d[j]?.getD 0).1
          (a[j]?.getD 0) ∧
        HasDerivAt (fun y => ((latticeWeight w N a (b.set j y)).map Prod.fst).getD 0) (d[j]?.getD 0).2.1
          (b[j]?.getD 0) ∧ (d[j]?.getD 0).2.2 = 0) ∧
      ((∀ v ∈ a, 0 ≤ v ∧ v ≤ 1) → (∀ v ∈ b, 0 ≤ v ∧ v ≤ 1) → -1 ≤ g ∧ g ≤ 1 / w - 1 ∧
        ∀ v ∈ d, 0 ≤ v.1 ∧ 0 ≤ v.2.1) := by
  have hN0 : (0 : ℝ) < N := Nat.cast_pos.2 (Nat.pos_of_ne_zero hN)
  refine ⟨_, _, weight_eq hw.ne' hN la lb, by simp, ?_, ?_, ?_⟩
  · rw [div_div, mul_comm (N : ℝ) w, div_eq_mul_inv (∑ i : Fin N, _), Finset.sum_mul]
    congr 1
    exact Finset.sum_congr rfl fun i _ => by ring
  · intro j hj
    have hget : ∀ (l : List ℝ) (y : ℝ) (i : ℕ), l.length = N →
        (l.set j y)[i]?.getD 0 = if i = j then y else l[i]?.getD 0 := by
      intro l y i hl
      split_ifs with h
      · subst h
        have : i < l.length := by omega
        simp [this]
      · rw [List.getElem?_set_ne (Ne.symm h)]
    rw [show ∀ f : Fin N → ℝ × ℝ × ℝ, ((List.ofFn f)[j]?.getD 0) = f ⟨j, hj⟩ by
      intro f; rw [List.getElem?_ofFn, dif_pos hj]; rfl]
    refine ⟨?_, ?_, rfl⟩
    · simp only [fun y => weight_eq hw.ne' hN (a := a.set j y) (by rw [List.length_set, la]) lb, Option.map_some,
        Option.getD_some, hget a _ _ la]
      refine ((HasDerivAt.fun_sum (u := Finset.univ) (A' := fun i : Fin N => if (i : ℕ) = j then
        (1 - b[j]?.getD 0) / (w * N) else 0) fun i _ => ?_).sub_const 1).congr_deriv ?_
      · split_ifs with h
        · rw [h]
          exact (((((hasDerivAt_id _).const_sub 1).mul_const _).const_sub 1).div_const _).congr_deriv (by ring)
        · exact hasDerivAt_const _ _
      · rw [Finset.sum_eq_single ⟨j, hj⟩]
        · simp
        · intro i _ hi
          rw [if_neg fun h => hi (Fin.ext h)]
        · intro h; exact absurd (Finset.mem_univ _) h
    · simp only [fun y => weight_eq hw.ne' hN (b := b.set j y) la (by rw [List.length_set, lb]), Option.map_some,
        Option.getD_some, hget b _ _ lb]
      refine ((HasDerivAt.fun_sum (u := Finset.univ) (A' := fun i : Fin N => if (i : ℕ) = j then
        (1 - a[j]?.getD 0) / (w * N) else 0) fun i _ => ?_).sub_const 1).congr_deriv ?_
      · split_ifs with h
        · rw [h]
          exact (((((hasDerivAt_id _).const_sub 1).const_mul _).const_sub 1).div_const _).congr_deriv (by ring)
        · exact hasDerivAt_const _ _
      · rw [Finset.sum_eq_single ⟨j, hj⟩]
        · simp
        · intro i _ hi
          rw [if_neg fun h => hi (Fin.ext h)]
        · intro h; exact absurd (Finset.mem_univ _) h
  · intro ha hb
    have ha' : ∀ i : Fin N, 0 ≤ a[(i : ℕ)]?.getD 0 ∧ a[(i : ℕ)]?.getD 0 ≤ 1 := by
      intro i
      have : (i : ℕ) < a.length := by rw [la]; exact i.2
      rw [List.getElem?_eq_getElem this]
      exact ha _ (List.getElem_mem this)
    have hb' : ∀ i : Fin N, 0 ≤ b[(i : ℕ)]?.getD 0 ∧ b[(i : ℕ)]?.getD 0 ≤ 1 := by
      intro i
      have : (i : ℕ) < b.length := by rw [lb]; exact i.2
      rw [List.getElem?_eq_getElem this]
      exact hb _ (List.getElem_mem this)
    have hp : 0 < w * N := mul_pos hw hN0
    refine ⟨?_, ?_, ?_⟩
    · have : 0 ≤ ∑ i : Fin N, (1 - (1 - a[(i : ℕ)]?.getD 0) * (1 - b[(i : ℕ)]?.getD 0)) / (w * N) :=
        Finset.sum_nonneg fun i _ => div_nonneg (by nlinarith [ha' i, hb' i]) hp.le
      linarith
    · have : ∑ i : Fin N, (1 - (1 - a[(i : ℕ)]?.getD 0) * (1 - b[(i : ℕ)]?.getD 0)) / (w * N) ≤
          ∑ _i : Fin N, 1 / (w * N) :=
        Finset.sum_le_sum fun i _ => div_le_div_of_nonneg_right (by nlinarith [ha' i, hb' i]) hp.le
      rw [Finset.sum_const, Finset.card_univ, Fintype.card_fin, nsmul_eq_mul,
        show (N : ℝ) * (1 / (w * N)) = 1 / w by field_simp] at this
      linarith
    · intro v hv
      obtain ⟨i, rfl⟩ := List.mem_ofFn.1 hv
      exact ⟨div_nonneg (by linarith [(hb' i).2]) hp.le, div_nonneg (by linarith [(ha' i).2]) hp.le⟩

theorem pack_get (d : List (ℝ × ℝ × ℝ)) (i : ℕ) : (latticePack d)[3 * i]? = d[i]?.map (·.1) ∧
    (latticePack d)[3 * i + 1]? = d[i]?.map (·.2.1) ∧ (latticePack d)[3 * i + 2]? = d[i]?.map (·.2.2) := by
  induction d generalizing i with
  | nil => simp [latticePack]
  | cons v d ih =>
    have : latticePack (v :: d) = v.1 :: v.2.1 :: v.2.2 :: latticePack d := by simp [latticePack]
    rw [this]
    cases i with
    | zero => simp
    | succ i =>
      have := ih i
      rw [show 3 * (i + 1) = 3 * i + 1 + 1 + 1 by ring]
      simpa using this

/-- **C119**: the design handed to the optimiser has three entries per element, and taking it apart gives it back. -/
theorem C119_pack (d : List (ℝ × ℝ × ℝ)) :
    (latticePack d).length = 3 * d.length ∧
    latticeUnpack d.length (latticePack d) = some (d.map (·.1), d.map (·.2.1), d.map (·.2.2)) ∧
    ∀ s : List ℝ, s.length = 3 * d.length → ∃ a b t, latticeUnpack d.length s = some (a, b, t) ∧
      a.length = d.length ∧ b.length = d.length ∧ t.length = d.length ∧
      (∀ v ∈ a, v ∈ s) ∧ (∀ v ∈ b, v ∈ s) ∧ ∀ v ∈ t, v ∈ s := by
  refine ⟨?_, ?_, ?_⟩
  · induction d with
    | nil => rfl
    | cons v d ih => simp [latticePack] at ih ⊢; omega
  · have h : ∀ (f : ℝ × ℝ × ℝ → ℝ) (k : ℕ), (∀ i, (latticePack d)[3 * i + k]? = d[i]?.map f) →
        (List.range d.length).mapM (fun i => (latticePack d)[3 * i + k]?) = some (d.map f) := by
      intro f k hk
      rw [range_mapM (g := fun i : Fin d.length => f d[i])]
      · congr 1
        apply List.ext_getElem (by simp)
        intro i h1 h2
        simp
      · intro i
        rw [hk, List.getElem?_eq_getElem i.2]
        rfl
    have h0 := h (·.1) 0 fun i => (pack_get d i).1
    have h1 := h (·.2.1) 1 fun i => (pack_get d i).2.1
    have h2 := h (·.2.2) 2 fun i => (pack_get d i).2.2
    simp only [Nat.add_zero] at h0
    simp only [latticeUnpack, h0, h1, h2, Option.bind_eq_bind, Option.bind_some, Option.pure_def]
  · intro s hs
    have h : ∀ k < 3, ∃ l, (List.range d.length).mapM (fun i => s[3 * i + k]?) = some l ∧ l.length = d.length ∧
        ∀ v ∈ l, v ∈ s := by
      intro k hk
      refine ⟨_, range_mapM (g := fun i : Fin d.length => s[3 * (i : ℕ) + k]'(by have := i.2; omega)) fun i => ?_,
        by simp, ?_⟩
      · exact List.getElem?_eq_getElem _
      · intro v hv
        obtain ⟨i, rfl⟩ := List.mem_ofFn.1 hv
        exact List.getElem_mem _
    obtain ⟨a, ha, la, ma⟩ := h 0 (by norm_num)
    obtain ⟨b, hb, lb, mb⟩ := h 1 (by norm_num)
    obtain ⟨t, ht, lt, mt⟩ := h 2 (by norm_num)
    simp only [Nat.add_zero] at ha
    refine ⟨a, b, t, ?_, la, lb, lt, ma, mb, mt⟩
    simp only [latticeUnpack, ha, hb, ht, Option.bind_eq_bind, Option.bind_some, Option.pure_def]

/-! ### Examples -/

/-- Two abscissae each; the stiffness grows with both sizes. -/
def squareTables : CellTables 2 2 where
  as := ![0, 1]
  bs := ![0, 1]
  CH := fun i j => (1 + (i : ℝ) + (j : ℝ)) • 1

theorem squareTables_as : Function.Injective squareTables.as ∧ Function.Injective squareTables.bs := by
  constructor <;> intro i j h <;> fin_cases i <;> fin_cases j <;> simp_all [squareTables]

theorem quad_held : HeldMesh quadNodes [[0, 1, 2, 3, 4, 5, 6, 7]] quadSupport := by
  intro v hv h
  have h0 : ∀ m j, (m, j) ≠ (2, 0) → v m j = 0 := by
    intro m j hm
    refine hv m j ?_
    rintro ⟨h1, h2, h3⟩
    simp [quadSupport] at h3
    simp [quadNodes] at h1
    have : j = 0 ∨ j = 1 := by omega
    simp at hm
    interval_cases m <;> rcases this with rfl | rfl <;> simp_all
  have h1 := congrFun (h _ (List.mem_singleton_self _) (8 : Fin 9)) 0
  simp only [strainAt, quad_jacobian, inv_one, Matrix.one_mul, Fin.sum_univ_eight] at h1
  simp [h0, IC.gauss9Square, SF.square8] at h1
  funext m j
  by_cases hm : (m, j) = (2, 0)
  · simp only [Prod.mk.injEq] at hm
    rw [hm.1, hm.2]
    rcases h1 with h1 | h1
    · exfalso
      have hs : 0 < √3 / √5 := by positivity
      generalize √3 / √5 = s at h1 hs
      nlinarith
    · exact h1
  · exact h0 m j hm

theorem square_design (a b t : ℝ) (ha : 0 ≤ a) (hb : 0 ≤ b) : LatticeDesign squareTables 1 [a] [b] [t] := by
  obtain ⟨h1, h2⟩ := squareTables_as
  refine ⟨rfl, rfl, rfl, fun i hi D hD => ?_⟩
  obtain rfl : i = 0 := by omega
  simp only [List.getElem?_cons_zero, Option.getD_some] at hD
  obtain ⟨D', C, e1, e2, -, -, -, e3⟩ := C119_tensor h1 h2 a b t
  rw [hD] at e1
  cases e1
  refine (e3 fun i j => by simp [squareTables]).2 ?_
  have hC : C = (1 + a + b) • 1 := by
    rw [latticeTensor_eq h1 h2] at e2
    cases e2
    have h0 : latticeR (latticeAngle 0.5) = 1 := by
      have : latticeAngle 0.5 = 0 := by unfold latticeAngle; norm_num
      rw [this]
      ext i j
      fin_cases i <;> fin_cases j <;> simp [latticeR]
    rw [tensorOf, h0, transpose_one, Matrix.one_mul, Matrix.mul_one]
    simp only [CellTables.combine, Fin.sum_univ_two, squareTables, smul_smul, ← add_smul]
    congr 1
    simp [lagrangeW, Fin.prod_univ_two]
    ring
  rw [hC]
  refine ⟨by simp, fun v hv => ?_⟩
  rw [smul_mulVec, one_mulVec, dotProduct_smul, smul_eq_mul]
  refine mul_pos (by linarith) ?_
  have h := dotProduct_self_nonneg' v
  refine lt_of_le_of_ne h fun h0 => hv ?_
  exact dotProduct_self_eq_zero.1 h0.symm

/-- One element that may move one corner: the derivatives exist for all sizes and rotations. -/
example (a b t : ℝ) (ha : 0 ≤ a) (hb : 0 ≤ b) : ∃ U f d, LatticeDisplacements quadNodes [[0, 1, 2, 3, 4, 5, 6, 7]]
      squareTables quadSupport [((2, 0), 3)] U ∧
    latticeCompliance SF.square8 IC.gauss9Square quadNodes [[0, 1, 2, 3, 4, 5, 6, 7]] squareTables (freeTable 8 2)
      [a] [b] [t] (U [a] [b] [t]) = some (f, [d]) ∧ f = valOf (U [a] [b] [t]) 2 0 * 3 ∧
    HasDerivAt (fun y => ((latticeCompliance SF.square8 IC.gauss9Square quadNodes [[0, 1, 2, 3, 4, 5, 6, 7]] squareTables
      (freeTable 8 2) [a] [b] [y] (U [a] [b] [y])).map Prod.fst).getD 0) d.2.2 t := by
  obtain ⟨h1, h2⟩ := squareTables_as
  have hl : ∀ r ∈ [(((2, 0) : ℕ × ℕ), (3 : ℝ))], r.1.1 < quadNodes.length ∧ r.1.2 < 2 := by
    intro r hr
    rw [List.mem_singleton] at hr
    subst hr
    exact ⟨by decide, by decide⟩
  have hq := (quad_input (rho := 1) (by norm_num)).quads
  obtain ⟨U, hU⟩ := C119_displacements hq h1 h2 hl quad_held
  obtain ⟨f, d, e1, e2, e3, e4⟩ := C119_sensitivity hq h1 h2 (fun i j => by simp [squareTables]) hl (ntg := freeTable 8 2)
    rfl hU (square_design a b t ha hb)
  obtain ⟨d, rfl⟩ := List.length_eq_one_iff.1 e2
  refine ⟨U, f, d, hU, e1, by rw [e3]; simp, ?_⟩
  exact (e4 0 (by simp)).2.2

/-- Half of the first cell is filled. -/
example : ∃ d, latticeWeight 1 1 [1 / 2] [0] = some (-(1 / 2), d) := by
  obtain ⟨g, d, h1, -, h2, -⟩ := C119_weight (w := 1) (by norm_num) (N := 1) (by norm_num) (a := [1 / 2]) (b := [0]) rfl rfl
  refine ⟨d, ?_⟩
  rw [h1, h2]
  norm_num

end Pansfem
