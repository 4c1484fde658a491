/-
The element loops of the optimisation programs as weighted sums of fixed quadratic forms.
-/
import Verif.Spec.ProgramDesign
import Verif.Lemmas.Compliance
import Verif.Lemmas.ProgramPost
import Verif.Props.C110_Reactions

noncomputable section

open Matrix

namespace Pansfem

/-! ### Products of vectors -/

theorem vec_dot_eq {v w : Vec ℝ} {L : ℕ} (hv : v.size = L) (hw : w.size = L) :
    v.dot w = some ((List.range L).map fun i : ℕ => (v.at? (i : ℕ)).getD 0 * (w.at? (i : ℕ)).getD 0).sum := by
  unfold Vec.dot
  rw [if_pos (by rw [hv, hw]), sumM_some (g := fun i : Fin v.size => (v.at? ((i : ℕ) : ℤ)).getD 0 * (w.at? ((i : ℕ) : ℤ)).getD 0)]
  · congr 1
    subst hv
    rw [← List.sum_ofFn, List.ofFn_eq_map, ← List.map_coe_finRange_eq_range, List.map_map]
    rfl
  · intro i
    have h1 : (i : ℕ) < v.values.length := i.2
    have h2 : (i : ℕ) < w.values.length := by
      have : w.values.length = v.values.length := hw.trans hv.symm
      omega
    simp [vec_at_nat, List.getElem?_eq_getElem h1, List.getElem?_eq_getElem h2]

theorem vec_smul_eq (v : Vec ℝ) (a : ℝ) : v.smul a = some ⟨v.values.map (· * a)⟩ := by
  unfold Vec.smul
  rw [range_mapM (g := fun i : Fin v.size => v.values[(i : ℕ)] * a)]
  · simp only [Option.bind_eq_bind, Option.bind_some, Option.pure_def, Option.some.injEq, Vec.mk.injEq]
    apply List.ext_getElem
    · simp [Vec.size]
    · intro i h1 h2
      simp
  · intro i
    have h1 : (i : ℕ) < v.values.length := i.2
    simp [List.getElem?_eq_getElem h1]

/-- The quadratic form of an element matrix. -/
theorem element_work {it : ElemData ℝ} {t : List (List ℤ)} {u : List (Vec ℝ)} (h : it.Square) (hf : it.call.Fits t u) :
    ∃ ue f, elementVector u it.nte it.element = some ue ∧ it.Ke.mulVec ue = some f ∧
      ∀ a, ((ue.smul a).bind fun v => v.dot f) = some (a * callEnergy it.call (valOf u) (valOf u)) := by
  obtain ⟨ue, f, h1, h2, h3, h4, h5, h6⟩ := element_force h hf
  refine ⟨ue, f, h1, h2, fun a => ?_⟩
  rw [vec_smul_eq, Option.bind_some, vec_dot_eq (L := (localDofs it.nte it.element).length) (by
    rw [← h3]; simp [Vec.size]) h4]
  congr 1
  rw [← (h.2.1.map _).sum_eq, List.map_map]
  unfold callEnergy
  rw [list_sum_mul_left]
  show _ = ((localDofs it.nte it.element).map _).sum
  refine congrArg List.sum (List.map_congr_left fun p hp => ?_)
  have h7 := h5 p hp
  simp only [Function.comp_apply]
  rw [h6 p hp, vec_at_nat, List.getElem?_map]
  rw [vec_at_nat] at h7
  rw [h7]
  simp only [Option.map_some, Option.getD_some]
  ring

/-! ### Element matrices that are proportional to a coefficient -/

section
variable {n d k : ℕ} {core : ℝ → Matrix (Fin n) (Fin d) ℝ → Option (Matrix (Fin n × Fin k) (Fin n × Fin k) ℝ)}
  {dl : List ℕ} {x : List (Vec ℝ)} {elements : List (List ℕ)}

/-- The element matrix for the coefficient one. -/
def baseMat (core : ℝ → Matrix (Fin n) (Fin d) ℝ → Option (Matrix (Fin n × Fin k) (Fin n × Fin k) ℝ))
    (x : List (Vec ℝ)) (e : List ℕ) : Matrix (Fin n × Fin k) (Fin n × Fin k) ℝ :=
  ((gather x e n d).bind (core 1)).getD 0

/-- The element matrices exist, are proportional to the coefficient, symmetric and positive semidefinite. -/
structure LinearCore (core : ℝ → Matrix (Fin n) (Fin d) ℝ → Option (Matrix (Fin n × Fin k) (Fin n × Fin k) ℝ))
    (dl : List ℕ) (x : List (Vec ℝ)) (elements : List (List ℕ)) : Prop where
  dim : 0 < d
  two : k = 2
  len : dl.length = k
  lt : ∀ j ∈ dl, j < k
  lin : ∀ X A c, core 1 X = some A → core c X = some (c • A)
  base : ∀ e ∈ elements, ∃ X A, gather x e n d = some X ∧ core 1 X = some A ∧ Aᵀ = A ∧ ∀ v, 0 ≤ v ⬝ᵥ (A *ᵥ v)

theorem LinearCore.mat (h : LinearCore core dl x elements) {e : List ℕ} (he : e ∈ elements) :
    ∃ X, gather x e n d = some X ∧ core 1 X = some (baseMat core x e) ∧ (baseMat core x e)ᵀ = baseMat core x e ∧
      ∀ v, 0 ≤ v ⬝ᵥ (baseMat core x e *ᵥ v) := by
  obtain ⟨X, A, hX, hA, h1, h2⟩ := h.base e he
  have : baseMat core x e = A := by simp [baseMat, hX, hA]
  rw [this]
  exact ⟨X, hX, hA, h1, h2⟩

/-- One element with its coefficient. -/
def baseItem (core : ℝ → Matrix (Fin n) (Fin d) ℝ → Option (Matrix (Fin n × Fin k) (Fin n × Fin k) ℝ))
    (dl : List ℕ) (x : List (Vec ℝ)) (e : List ℕ) (c : ℝ) : ElemData ℝ :=
  ⟨flatM (c • baseMat core x e), interTable k n dl, e⟩

theorem designItems_eq (h : LinearCore core dl x elements) {c : List ℝ} (hc : c.length = elements.length) :
    designItems k core dl x elements c =
      some (List.ofFn fun i : Fin elements.length => baseItem core dl x elements[i] (c[(i : ℕ)]?.getD 0)) := by
  unfold designItems
  apply range_mapM
  intro i
  have h1 : (i : ℕ) < c.length := by rw [hc]; exact i.2
  obtain ⟨X, hX, hA, -, -⟩ := h.mat (List.getElem_mem i.2)
  have h2 := elemM_eq_some (k := k) (dl := dl) (core := core c[(i : ℕ)]) (x := x) (e := elements[(i : ℕ)])
    (Ke := flatM (c[(i : ℕ)] • baseMat core x elements[(i : ℕ)])) (nte := interTable k n dl) |>.2
    ⟨h.len, X, _, hX, h.lin X _ _ hA, rfl, rfl⟩
  simp [List.getElem?_eq_getElem i.2, List.getElem?_eq_getElem h1, h2, baseItem]

theorem baseItem_call (h : LinearCore core dl x elements) {e : List ℕ} (he : e ∈ elements) (c : ℝ) :
    (baseItem core dl x e c).Square ∧ ElemCall (core c) dl x e (baseItem core dl x e c).call := by
  obtain ⟨X, hX, hA, -, -⟩ := h.mat he
  have hl := gather_length hX
  obtain ⟨p1, p2⟩ := inter_perm hl h.len
  exact ⟨⟨by simp only [baseItem]; rw [interTable_length, hl], p1, by rw [show localDofs (baseItem core dl x e c).nte
    (baseItem core dl x e c).element = localDofs (interTable k n dl) e from rfl, p2]; rfl,
    by rw [show localDofs (baseItem core dl x e c).nte
    (baseItem core dl x e c).element = localDofs (interTable k n dl) e from rfl, p2]; rfl⟩,
    X, _, hX, h.lin X _ _ hA, rfl⟩

/-- The form of an element for the coefficient one. -/
def baseForm (core : ℝ → Matrix (Fin n) (Fin d) ℝ → Option (Matrix (Fin n × Fin k) (Fin n × Fin k) ℝ))
    (dl : List ℕ) (x : List (Vec ℝ)) (e : List ℕ) : (ℕ → ℕ → ℝ) →ₗ[ℝ] (ℕ → ℕ → ℝ) →ₗ[ℝ] ℝ :=
  LinearMap.mk₂ ℝ (fun v w => localField dl e v ⬝ᵥ (baseMat core x e *ᵥ localField dl e w))
    (fun a b w => by rw [show localField (n := n) (k := k) dl e (a + b) = localField dl e a + localField dl e b from rfl,
      add_dotProduct])
    (fun c a w => by rw [show localField (n := n) (k := k) dl e (c • a) = c • localField dl e a from rfl,
      smul_dotProduct])
    (fun a v w => by rw [show localField (n := n) (k := k) dl e (v + w) = localField dl e v + localField dl e w from rfl,
      mulVec_add, dotProduct_add])
    (fun c a w => by rw [show localField (n := n) (k := k) dl e (c • w) = c • localField dl e w from rfl,
      mulVec_smul, dotProduct_smul])

theorem baseForm_apply (e : List ℕ) (v w : ℕ → ℕ → ℝ) : baseForm core dl x e v w =
    localField dl e v ⬝ᵥ (baseMat core x e *ᵥ localField dl e w) := rfl

theorem baseForm_symm (h : LinearCore core dl x elements) {e : List ℕ} (he : e ∈ elements) (v w : ℕ → ℕ → ℝ) :
    baseForm core dl x e v w = baseForm core dl x e w v := by
  obtain ⟨X, -, -, hs, -⟩ := h.mat he
  rw [baseForm_apply, baseForm_apply, dotProduct_mulVec, dotProduct_comm, ← mulVec_transpose, hs]

theorem baseForm_nonneg (h : LinearCore core dl x elements) {e : List ℕ} (he : e ∈ elements) (v : ℕ → ℕ → ℝ) :
    0 ≤ baseForm core dl x e v v := by
  obtain ⟨X, -, -, -, hp⟩ := h.mat he
  exact hp _

theorem baseItem_energy (h : LinearCore core dl x elements) {e : List ℕ} (he : e ∈ elements) (c : ℝ) (v w : ℕ → ℕ → ℝ) :
    callEnergy (baseItem core dl x e c).call v w = c * baseForm core dl x e v w := by
  obtain ⟨X, hX, -⟩ := h.mat he
  rw [baseForm_apply]
  show callEnergy (.matrix (flatM (c • baseMat core x e)) (interTable k n dl) e) v w = _
  rw [matrix_energy _ (gather_length hX) h.len, smul_mulVec, dotProduct_smul, smul_eq_mul]

/-- The elements with their coefficients. -/
abbrev baseItems (core : ℝ → Matrix (Fin n) (Fin d) ℝ → Option (Matrix (Fin n × Fin k) (Fin n × Fin k) ℝ))
    (dl : List ℕ) (x : List (Vec ℝ)) (elements : List (List ℕ)) (c : Fin elements.length → ℝ) : List (ElemData ℝ) :=
  List.ofFn fun i : Fin elements.length => baseItem core dl x elements[i] (c i)

theorem baseItems_energy (h : LinearCore core dl x elements) (c : Fin elements.length → ℝ) (v w : ℕ → ℕ → ℝ) :
    energy ((baseItems core dl x elements c).map ElemData.call) v w =
      ∑ i : Fin elements.length, c i * baseForm core dl x elements[i] v w := by
  rw [energy_eq, List.map_map, List.map_ofFn, List.sum_ofFn]
  refine Finset.sum_congr rfl fun i _ => ?_
  exact baseItem_energy h (List.getElem_mem i.2) _ _ _

theorem mem_baseItems {c : Fin elements.length → ℝ} {it : ElemData ℝ} (hit : it ∈ baseItems core dl x elements c) :
    ∃ e ∈ elements, ∃ a, it = baseItem core dl x e a := by
  obtain ⟨i, rfl⟩ := List.mem_ofFn.1 hit
  exact ⟨_, List.getElem_mem i.2, _, rfl⟩

end

/-! ### Equilibrium -/

/-- The loads as a linear form. -/
def loadForm (loads : List (AsmCall ℝ)) : (ℕ → ℕ → ℝ) →ₗ[ℝ] ℝ where
  toFun w := (loads.map fun c => callLoad c w).sum
  map_add' v w := by
    simp only [callLoad, Pi.add_apply, add_mul, List.sum_map_add]
  map_smul' a w := by
    simp only [callLoad, Pi.smul_apply, smul_eq_mul, mul_assoc, list_sum_mul_left, RingHom.id_apply]

/-- The fields that vanish at the supports. -/
def Admissible (t : List (List ℤ)) (bc : List ((ℕ × ℕ) × ℝ)) : Set (ℕ → ℕ → ℝ) :=
  {v | ∀ n d, ¬ IsFree t bc (n, d) → v n d = 0}

theorem equilibrium_work {t : List (List ℤ)} {bc : List ((ℕ × ℕ) × ℝ)} {items : List (ElemData ℝ)}
    {loads : List (AsmCall ℝ)} {u : List (Vec ℝ)}
    (hd : ∀ c ∈ items.map ElemData.call ++ loads, ∀ p ∈ c.dofs, (dofNum t p.1 p.2.1).isSome)
    (hl : ∀ c ∈ loads, ∀ a b, c.mat a b = 0)
    (h : Equilibrium t bc (items.map ElemData.call ++ loads) u) {w : ℕ → ℕ → ℝ} (hw : w ∈ Admissible t bc) :
    energy (items.map ElemData.call) w (valOf u) = loadForm loads w := by
  have h1 := residual_work hd (valOf u) w
  have h0 : ((allDofs t).map fun p => w p.1 p.2 *
      residual (items.map ElemData.call ++ loads) (valOf u) p.1 p.2).sum = 0 := by
    apply List.sum_eq_zero
    intro y hy
    obtain ⟨p, hp, rfl⟩ := List.mem_map.1 hy
    by_cases hf : IsFree t bc p
    · rw [h.1 p (List.mem_filter.2 ⟨hp, by simpa using hf⟩), mul_zero]
    · rw [hw p.1 p.2 hf, zero_mul]
  rw [h0, energy_eq, List.map_append, List.sum_append, List.map_append, List.sum_append] at h1
  have h2 : (loads.map fun c => callEnergy c w (valOf u)).sum = 0 := by
    apply List.sum_eq_zero
    intro y hy
    obtain ⟨c, hc, rfl⟩ := List.mem_map.1 hy
    unfold callEnergy
    simp [hl c hc]
  have h3 : ((items.map ElemData.call).map fun c => callLoad c w).sum = 0 := by
    apply List.sum_eq_zero
    intro y hy
    rw [List.map_map] at hy
    obtain ⟨it, -, rfl⟩ := List.mem_map.1 hy
    simp [callLoad, ElemData.call, AsmCall.rhs]
  rw [h2, h3] at h1
  show _ = (loads.map fun c => callLoad c w).sum
  rw [energy_eq]
  linarith

/-! ### Compliance -/

theorem freeTable_lt {N k n d : ℕ} (h : (dofNum (freeTable N k) n d).isSome) : n < N ∧ d < k := by
  unfold dofNum freeTable at h
  by_cases h1 : n < N
  · refine ⟨h1, ?_⟩
    by_contra h2
    simp [h1, h2] at h
  · simp [h1] at h

theorem freeTable_isSome {N k n d : ℕ} (h1 : n < N) (h2 : d < k) : (dofNum (freeTable N k) n d).isSome := by
  simp [dofNum, freeTable, h1, h2]

theorem shaped_congr {u : List (Vec ℝ)} {t t' : List (List ℤ)} (h : t'.map List.length = t.map List.length)
    (hu : Shaped u t) : Shaped u t' := by
  refine ⟨?_, fun n d => ?_⟩
  · have := congrArg List.length h
    simp only [List.length_map] at this
    rw [hu.1, this]
  · rw [hu.2, ← mem_allDofs_iff, ← mem_allDofs_iff, allDofs_lengths h]

theorem shaped_zeroField (N k : ℕ) : Shaped (zeroField N k) (freeTable N k) := by
  refine ⟨by simp [zeroField, freeTable], fun n d => ⟨fun h => ?_, fun h => ?_⟩⟩
  · have h1 : n < N := by
      by_contra h1
      simp [zeroField, nodal, h1] at h
    refine freeTable_isSome h1 ?_
    by_contra h2
    simp [zeroField, nodal, h1, h2, Vec.at?, Vec.size] at h
  · obtain ⟨h1, h2⟩ := freeTable_lt h
    rw [nodal_zeroField h1 h2]; rfl

section
variable {n d : ℕ} {core : ℝ → Matrix (Fin n) (Fin d) ℝ → Option (Matrix (Fin n × Fin 2) (Fin n × Fin 2) ℝ)}
  {dl : List ℕ} {x : List (Vec ℝ)} {elements : List (List ℕ)}

theorem baseItem_fits (h : LinearCore core dl x elements) {e : List ℕ} (he : e ∈ elements) (c : ℝ)
    {u : List (Vec ℝ)} (hu : Shaped u (freeTable x.length 2)) :
    (baseItem core dl x e c).call.Fits (freeTable x.length 2) u := by
  obtain ⟨a, b⟩ := elem_fits h.len h.lt h.dim (baseItem_call h he c).2
  exact ⟨fun p hp => ⟨(a p hp).1, (hu.2 _ _).2 (a p hp).1⟩, b⟩

theorem complianceOf_eq (h : LinearCore core dl x elements) (scale : ℝ) {ntg : List (List ℤ)}
    (hn : ntg.map List.length = (freeTable x.length 2).map List.length) (c : Fin elements.length → ℝ)
    {u : List (Vec ℝ)} (hu : Shaped u (freeTable x.length 2)) :
    complianceOf scale x.length ntg u (baseItems core dl x elements c) =
      some (scale * ∑ i : Fin elements.length, c i * baseForm core dl x elements[i] (valOf u) (valOf u)) := by
  have hsq : ∀ it ∈ baseItems core dl x elements c, it.Square := by
    intro it hit
    obtain ⟨e, he, a, rfl⟩ := mem_baseItems hit
    exact (baseItem_call h he a).1
  have hfit : ∀ it ∈ baseItems core dl x elements c, it.call.Fits ntg u := by
    intro it hit
    obtain ⟨e, he, a, rfl⟩ := mem_baseItems hit
    obtain ⟨f1, f2⟩ := baseItem_fits h he a hu
    refine ⟨fun p hp => ⟨?_, (f1 p hp).2⟩, f2⟩
    rw [← mem_allDofs_iff, allDofs_lengths hn, mem_allDofs_iff]
    exact (f1 p hp).1
  have hz := shaped_congr hn (shaped_zeroField x.length 2)
  have hr : ∀ n d, (dofNum ntg n d).isSome → (nodal (zeroField x.length 2) n d).isSome :=
    fun n d => (hz.2 n d).2
  obtain ⟨r, h1, -⟩ := C110_reactions u (zeroField x.length 2) ntg _ hsq hfit hr
  have h2 := (C110_work u _ r ntg _ hsq hfit hr h1).2 (shaped_congr hn hu) hz
  unfold complianceOf
  rw [h1]
  simp only [Option.bind_eq_bind, Option.bind_some, h2, Option.pure_def]
  rw [baseItems_energy h]

variable {m : ℝ → ℝ} {bc q : List ((ℕ × ℕ) × ℝ)} {U : List ℝ → List (Vec ℝ)}

/-- The coefficient of an element. -/
def coeff (m : ℝ → ℝ) (s : List ℝ) (i : ℕ) : ℝ := (s.map m)[i]?.getD 0

theorem displacements_solve (h : LinearCore core dl x elements) (hq : ∀ p ∈ q, p.1.1 < x.length ∧ p.1.2 < 2)
    (hU : Displacements x.length bc [.nodal q] m elements.length
      (fun s => designItems 2 core dl x elements (s.map m)) U) {s : List ℝ} (hs : s.length = elements.length)
    (hp : ∀ a ∈ s, 0 < m a) :
    Solves (fun i : Fin elements.length => baseForm core dl x elements[i]) (loadForm [.nodal q])
      (Admissible (freeTable x.length 2) bc) (fun i => coeff m s i) (valOf (U s)) := by
  have heq := designItems_eq h (c := s.map m) (by rw [List.length_map, hs])
  have he := hU.solves s _ hs hp heq
  refine ⟨he.2, fun w hw => ?_⟩
  rw [← baseItems_energy h]
  refine equilibrium_work ?_ ?_ he hw
  · intro c hc p hp
    rcases List.mem_append.1 hc with hc | hc
    · obtain ⟨it, hit, rfl⟩ := List.mem_map.1 hc
      obtain ⟨e, he, a, rfl⟩ := mem_baseItems (c := fun i => coeff m s i) hit
      exact ((baseItem_fits h he a (hU.shaped [])).1 p hp).1
    · rw [List.mem_singleton] at hc
      subst hc
      simp only [AsmCall.dofs, List.mem_map] at hp
      obtain ⟨r, hr, rfl⟩ := hp
      have := hq r.1 (List.fst_mem_of_mem_zipIdx hr)
      exact freeTable_isSome this.1 this.2
  · intro c hc a b
    rw [List.mem_singleton] at hc
    subst hc
    rfl

/-- The compliance is the work of the loads. -/
theorem compliance_eq (h : LinearCore core dl x elements) (hq : ∀ p ∈ q, p.1.1 < x.length ∧ p.1.2 < 2)
    (hU : Displacements x.length bc [.nodal q] m elements.length
      (fun s => designItems 2 core dl x elements (s.map m)) U) {s : List ℝ} (hs : s.length = elements.length)
    (hp : ∀ a ∈ s, 0 < m a) (scale : ℝ) {ntg : List (List ℤ)}
    (hn : ntg.map List.length = (freeTable x.length 2).map List.length) :
    ((designItems 2 core dl x elements (s.map m)).bind fun its => complianceOf scale x.length ntg (U s) its) =
      some (scale * loadForm [.nodal q] (valOf (U s))) := by
  have hsol := displacements_solve h hq hU hs hp
  rw [designItems_eq h (c := s.map m) (by rw [List.length_map, hs]), Option.bind_some]
  have := complianceOf_eq h scale hn (fun i => coeff m s i) (hU.shaped s)
  unfold coeff at this
  rw [this]
  congr 2
  exact hsol.2 _ hsol.1

/-- The compliance of designs that differ in one variable. -/
theorem design_deriv (h : LinearCore core dl x elements) (hq : ∀ p ∈ q, p.1.1 < x.length ∧ p.1.2 < 2)
    (hU : Displacements x.length bc [.nodal q] m elements.length
      (fun s => designItems 2 core dl x elements (s.map m)) U) {s : List ℝ} (hs : s.length = elements.length)
    (hp : ∀ a ∈ s, 0 < m a) (j : Fin elements.length) {m' : ℝ}
    (hm : HasDerivAt m m' (s[(j : ℕ)]?.getD 0)) :
    HasDerivAt (fun y => loadForm [.nodal q] (valOf (U (s.set j y))))
      (-(m' * baseForm core dl x elements[j] (valOf (U s)) (valOf (U s)))) (s[(j : ℕ)]?.getD 0) := by
  have hj : (j : ℕ) < s.length := by rw [hs]; exact j.2
  have hget : s[(j : ℕ)]?.getD 0 = s[(j : ℕ)] := by simp [List.getElem?_eq_getElem hj]
  have hself : s.set j (s[(j : ℕ)]?.getD 0) = s := by rw [hget]; exact List.set_getElem_self hj
  have hpos : ∀ i : Fin elements.length, 0 < coeff m s i := by
    intro i
    have hi : (i : ℕ) < s.length := by rw [hs]; exact i.2
    simp only [coeff, List.getElem?_map, List.getElem?_eq_getElem hi, Option.map_some, Option.getD_some]
    exact hp _ (List.getElem_mem hi)
  have := compliance_deriv (q := fun i : Fin elements.length => baseForm core dl x elements[i])
    (l := loadForm [.nodal q]) (S := Admissible (freeTable x.length 2) bc) (c := fun i => coeff m s i) (j := j)
    (fun i v w => baseForm_symm h (List.getElem_mem i.2) v w) (fun i v => baseForm_nonneg h (List.getElem_mem i.2) v)
    hpos hm (by simp [coeff, List.getElem?_eq_getElem hj]) (g := fun y => valOf (U (s.set j y))) (by
      intro y hy
      have h1 := displacements_solve h hq hU (s := s.set j y) (by rw [List.length_set, hs]) (by
        intro a ha
        rcases List.mem_or_eq_of_mem_set ha with ha | rfl
        · exact hp a ha
        · exact hy)
      convert h1 using 1
      funext i
      by_cases hi : i = j
      · subst hi
        simp [coeff, hj]
      · have : (j : ℕ) ≠ i := fun e => hi (Fin.ext e.symm)
        simp [coeff, hi, this])
  simp only [hself] at this
  exact this

end

end Pansfem
