/-
The assembling calls of mixed elements, a time step and a run of the programs with velocities and pressure in one system.
-/
import Verif.Spec.ProgramFlow
import Verif.Lemmas.DecoupledStep

noncomputable section

open Matrix

namespace Pansfem

variable {m n : ℕ}

/-! ### Mixed elements -/

theorem mixM_dense {K : Type} (A : Matrix (Flu m n) (Flu m n) K) :
    mixM A = dense (A.submatrix (fluEquiv m n).symm (fluEquiv m n).symm) := rfl

theorem mixV_dense {K : Type} (f : Flu m n → K) : mixV f = densev (f ∘ (fluEquiv m n).symm) := rfl

theorem mixM_entry {K : Type} (A : Matrix (Flu m n) (Flu m n) K) (p q : Flu m n) :
    (mixM A).at? ((fluEquiv m n p : ℕ) : ℤ) ((fluEquiv m n q : ℕ) : ℤ) = some (A p q) := by
  rw [mixM_dense, dense_at _ (fluEquiv m n p).2 (fluEquiv m n q).2]
  simp

theorem mixV_entry {K : Type} (f : Flu m n → K) (p : Flu m n) :
    (mixV f).at? ((fluEquiv m n p : ℕ) : ℤ) = some (f p) := by
  rw [mixV_dense, densev_at _ (fluEquiv m n p).2]
  simp

/-- The table of the pressure nodes. -/
def pressTable (m n : ℕ) : List (List (ℕ × ℕ)) := (List.range n).map fun i => [(2, 2 * m + i)]

theorem blocked_eq (m n : ℕ) : blocked m n [0, 1, 2] = some (blockTable m, pressTable m n) := rfl

/-- Node and component of a local unknown. -/
def mixNode (e : List ℕ × List ℕ) : Flu m n → ℕ
  | .inl (.inl i) => e.1[(i : ℕ)]?.getD 0
  | .inl (.inr i) => e.1[(i : ℕ)]?.getD 0
  | .inr j => e.2[(j : ℕ)]?.getD 0

/-- Component of a local unknown. -/
def mixComp : Flu m n → ℕ
  | .inl (.inl _) => 0
  | .inl (.inr _) => 1
  | .inr _ => 2

/-- A local unknown as a triple of the tables. -/
def mixDof (e : List ℕ × List ℕ) (p : Flu m n) : ℕ × ℕ × ℕ := (mixNode e p, mixComp p, fluEquiv m n p)

/-- The values of a field at the local unknowns. -/
def mixField (m n : ℕ) {K : Type} (e : List ℕ × List ℕ) (v : ℕ → ℕ → K) (p : Flu m n) : K := v (mixNode e p) (mixComp p)

/-- The order of the unknowns in the tables. -/
def orderU (m n : ℕ) : List (Flu m n) := (List.finRange m).flatMap fun i => [.inl (.inl i), .inl (.inr i)]

def orderP (m n : ℕ) : List (Flu m n) := (List.finRange n).map .inr

theorem sum_order {M : Type} [AddCommMonoid M] (f : Flu m n → M) :
    ((orderU m n).map f).sum + ((orderP m n).map f).sum = ∑ p, f p := by
  rw [Fintype.sum_sum_type, Fintype.sum_sum_type]
  congr 1
  · unfold orderU
    rw [List.map_flatMap, List.flatMap_def, List.sum_flatten, List.map_map, ← Fin.sum_univ_def, ← Finset.sum_add_distrib]
    refine Finset.sum_congr rfl fun i _ => ?_
    simp
  · unfold orderP
    rw [List.map_map, ← Fin.sum_univ_def]
    rfl

theorem mem_order (p : Flu m n) : p ∈ orderU m n ++ orderP m n := by
  rcases p with (i | i) | j <;> simp [orderU, orderP]

theorem nodup_order : (orderU m n ++ orderP m n).Nodup := by
  rw [List.nodup_append]
  refine ⟨?_, (List.nodup_finRange n).map Sum.inr_injective, ?_⟩
  · unfold orderU
    rw [List.nodup_flatMap]
    refine ⟨fun i _ => by simp, ?_⟩
    refine (List.nodup_finRange m).pairwise_of_forall_ne fun i _ i' _ hne => ?_
    intro a ha ha'
    simp only [List.mem_cons, List.not_mem_nil, or_false] at ha ha'
    rcases ha with rfl | rfl <;> simp_all
  · intro a ha b hb hab
    subst hab
    simp [orderU, orderP] at ha hb
    obtain ⟨j, rfl⟩ := hb
    simp at ha

section
variable {e : List ℕ × List ℕ}

theorem localDofs_velocity (h1 : e.1.length = m) : localDofs (blockTable m) e.1 = (orderU m n).map (mixDof e) := by
  rw [localDofs_block h1]
  unfold orderU
  rw [List.map_flatMap]
  refine List.flatMap_congr fun i _ => ?_
  have hi : (i : ℕ) < e.1.length := by rw [h1]; exact i.2
  simp [List.finRange_succ, mixDof, mixNode, mixComp, fluEquiv, hi, add_comm]

theorem localDofs_pressure (h2 : e.2.length = n) : localDofs (pressTable m n) e.2 = (orderP m n).map (mixDof e) := by
  unfold localDofs pressTable orderP
  rw [zip_map_range _ h2, List.flatMap_map, List.map_map, List.map_eq_flatMap]
  refine List.flatMap_congr fun i _ => ?_
  have hi : (i : ℕ) < e.2.length := by rw [h2]; exact i.2
  simp [mixDof, mixNode, mixComp, fluEquiv, hi, two_mul]

theorem localDofs2_mix (h1 : e.1.length = m) (h2 : e.2.length = n) :
    localDofs2 [blockTable m, pressTable m n] [e.1, e.2] = (orderU m n ++ orderP m n).map (mixDof e) := by
  unfold localDofs2
  simp only [List.zip_cons_cons, List.zip_nil_right, List.flatMap_cons, List.flatMap_nil, List.append_nil]
  rw [localDofs_velocity h1, localDofs_pressure h2, List.map_append]

theorem sum_mix {M : Type} [AddCommMonoid M] (h1 : e.1.length = m) (h2 : e.2.length = n) (f : ℕ × ℕ × ℕ → M) :
    ((localDofs2 [blockTable m, pressTable m n] [e.1, e.2]).map f).sum = ∑ p : Flu m n, f (mixDof e p) := by
  rw [localDofs2_mix h1 h2, List.map_map, List.map_append, List.sum_append, sum_order]
  rfl

variable {K : Type} [CommRing K]

theorem mix_energy (A : Matrix (Flu m n) (Flu m n) K) (h1 : e.1.length = m) (h2 : e.2.length = n) (w v : ℕ → ℕ → K) :
    callEnergy (.fields (mixM A) [blockTable m, pressTable m n] [e.1, e.2]) w v =
      mixField m n e w ⬝ᵥ (A *ᵥ mixField m n e v) := by
  unfold callEnergy
  simp only [AsmCall.dofs]
  rw [sum_mix h1 h2, dotProduct]
  refine Finset.sum_congr rfl fun p _ => ?_
  rw [sum_mix h1 h2, mulVec, dotProduct]
  refine congrArg (w _ _ * ·) (Finset.sum_congr rfl fun q _ => ?_)
  simp only [mixDof, AsmCall.mat]
  rw [mixM_entry]
  rfl

theorem mix_work (f : Flu m n → K) (h1 : e.1.length = m) (h2 : e.2.length = n) (w : ℕ → ℕ → K) :
    callLoad (.load (mixV f) (blockTable m) e.1) w + callLoad (.load (mixV f) (pressTable m n) e.2) w =
      mixField m n e w ⬝ᵥ f := by
  unfold callLoad
  simp only [AsmCall.dofs, AsmCall.rhs]
  rw [localDofs_velocity (n := n) h1, localDofs_pressure h2, List.map_map, List.map_map, sum_order, dotProduct]
  refine Finset.sum_congr rfl fun p _ => ?_
  simp only [Function.comp_apply, mixDof]
  rw [mixV_entry]
  rfl

omit [CommRing K] in
theorem mix_fits (A : Matrix (Flu m n) (Flu m n) K) (h1 : e.1.length = m) (h2 : e.2.length = n) {t : List (List ℤ)}
    {u : List (Vec K)} (h : ∀ p : Flu m n, (dofNum t (mixNode e p) (mixComp p)).isSome ∧
      (nodal u (mixNode e p) (mixComp p)).isSome) :
    (AsmCall.fields (mixM A) [blockTable m, pressTable m n] [e.1, e.2]).Fits t u := by
  refine ⟨fun p hp => ?_, ?_, fun p hp q hq => ?_⟩
  · simp only [AsmCall.dofs] at hp
    rw [localDofs2_mix h1 h2] at hp
    obtain ⟨a, -, rfl⟩ := List.mem_map.1 hp
    exact h a
  · exact .cons (by simp [blockTable, h1]) (.cons (by simp [pressTable, h2]) .nil)
  · rw [localDofs2_mix h1 h2] at hp hq
    obtain ⟨a, -, rfl⟩ := List.mem_map.1 hp
    obtain ⟨b, -, rfl⟩ := List.mem_map.1 hq
    simp only [mixDof]
    rw [mixM_entry]
    rfl

omit [CommRing K] in
theorem mix_load_fits (f : Flu m n → K) (h1 : e.1.length = m) (h2 : e.2.length = n) {t : List (List ℤ)}
    {u : List (Vec K)} (h : ∀ p : Flu m n, (dofNum t (mixNode e p) (mixComp p)).isSome ∧
      (nodal u (mixNode e p) (mixComp p)).isSome) :
    (AsmCall.load (mixV f) (blockTable m) e.1).Fits t u ∧ (AsmCall.load (mixV f) (pressTable m n) e.2).Fits t u := by
  refine ⟨⟨fun p hp => ?_, by simp [blockTable, h1], fun p hp => ?_⟩, ⟨fun p hp => ?_, by simp [pressTable, h2], fun p hp => ?_⟩⟩
  · simp only [AsmCall.dofs] at hp
    rw [localDofs_velocity (n := n) h1] at hp
    obtain ⟨a, -, rfl⟩ := List.mem_map.1 hp
    exact h a
  · rw [localDofs_velocity (n := n) h1] at hp
    obtain ⟨a, -, rfl⟩ := List.mem_map.1 hp
    simp only [mixDof]
    rw [mixV_entry]
    rfl
  · simp only [AsmCall.dofs] at hp
    rw [localDofs_pressure h2] at hp
    obtain ⟨a, -, rfl⟩ := List.mem_map.1 hp
    exact h a
  · rw [localDofs_pressure h2] at hp
    obtain ⟨a, -, rfl⟩ := List.mem_map.1 hp
    simp only [mixDof]
    rw [mixV_entry]
    rfl

/-- `ElementVector` with the tables of velocities and pressure. -/
theorem mix_elementVector {u : List (Vec ℝ)} (h1 : e.1.length = m) (h2 : e.2.length = n)
    (h : ∀ p : Flu m n, (nodal u (mixNode e p) (mixComp p)).isSome) :
    elementVector2 u [blockTable m, pressTable m n] [e.1, e.2] = some (mixV (mixField m n e (valOf u))) := by
  have hl : (localDofs2 [blockTable m, pressTable m n] [e.1, e.2]).length = m + m + n := by
    rw [localDofs2_mix h1 h2]
    simp [orderU, orderP, List.length_flatMap]
    ring
  obtain ⟨v, a1, a2, a3⟩ := C110_elementVector2 u [blockTable m, pressTable m n] [e.1, e.2]
    (.cons (by simp [blockTable, h1]) (.cons (by simp [pressTable, h2]) .nil))
    (fun p hp => by
      rw [localDofs2_mix h1 h2] at hp
      obtain ⟨a, -, rfl⟩ := List.mem_map.1 hp
      exact h a)
    (by
      rw [localDofs2_mix h1 h2, List.map_map]
      refine nodup_order.map fun p q hpq => ?_
      exact (fluEquiv m n).injective (Fin.ext hpq))
    (fun p hp => by
      rw [hl]
      rw [localDofs2_mix h1 h2] at hp
      obtain ⟨a, -, rfl⟩ := List.mem_map.1 hp
      exact (fluEquiv m n a).2)
  rw [a1]
  rw [hl] at a2
  obtain ⟨w, rfl⟩ := exists_densev_size a2
  rw [mixV_dense]
  congr 2
  funext q
  obtain ⟨p, rfl⟩ := (fluEquiv m n).surjective q
  have h4 := a3 (mixDof e p) (by
    rw [localDofs2_mix h1 h2]
    exact List.mem_map.2 ⟨p, mem_order p, rfl⟩)
  simp only [mixDof] at h4
  rw [densev_at _ (fluEquiv m n p).2] at h4
  simp only [Function.comp_apply, Equiv.symm_apply_apply]
  show _ = (nodal u (mixNode e p) (mixComp p)).getD 0
  rw [← h4]
  rfl

end

/-! ### The calls of a step -/

/-- Matrices, tables and nodes of an element, with the equation `F` they stand for. -/
structure FlowSound (m n nodes : ℕ) (dt theta : ℝ) (e : List ℕ × List ℕ) (it : FlowItem)
    (F : (ℕ → ℕ → ℝ) → (ℕ → ℕ → ℝ) → (ℕ → ℕ → ℝ) → ℝ) : Prop where
  lengthu : e.1.length = m
  lengthp : e.2.length = n
  nodesu : ∀ a ∈ e.1, a < nodes
  nodesp : ∀ a ∈ e.2, a < nodes
  data : ∃ (M N : Matrix (Flu m n) (Flu m n) ℝ) (C : Option (Matrix (Flu m n) (Flu m n) ℝ)),
    it = ⟨mixM M, mixM N, C.map mixM, blockTable m, pressTable m n, e.1, e.2⟩ ∧
    ∀ u v w, F u v w = mixField m n e w ⬝ᵥ (M *ᵥ mixField m n e (dt⁻¹ • (v - u))) +
      mixField m n e w ⬝ᵥ (N *ᵥ mixField m n e (theta • v + (1 - theta) • u)) +
      mixField m n e w ⬝ᵥ (C.getD 0 *ᵥ mixField m n e v)

theorem FlowSound.dof {nodes : ℕ} {dt theta : ℝ} {e : List ℕ × List ℕ} {it : FlowItem}
    {F : (ℕ → ℕ → ℝ) → (ℕ → ℕ → ℝ) → (ℕ → ℕ → ℝ) → ℝ} (h : FlowSound m n nodes dt theta e it F) (p : Flu m n) :
    mixNode e p < nodes ∧ mixComp p < 3 := by
  rcases p with (i | i) | j
  · have hi : (i : ℕ) < e.1.length := by rw [h.lengthu]; exact i.2
    refine ⟨?_, by simp [mixComp]⟩
    simp only [mixNode, List.getElem?_eq_getElem hi, Option.getD_some]
    exact h.nodesu _ (List.getElem_mem hi)
  · have hi : (i : ℕ) < e.1.length := by rw [h.lengthu]; exact i.2
    refine ⟨?_, by simp [mixComp]⟩
    simp only [mixNode, List.getElem?_eq_getElem hi, Option.getD_some]
    exact h.nodesu _ (List.getElem_mem hi)
  · have hi : (j : ℕ) < e.2.length := by rw [h.lengthp]; exact j.2
    refine ⟨?_, by simp [mixComp]⟩
    simp only [mixNode, List.getElem?_eq_getElem hi, Option.getD_some]
    exact h.nodesp _ (List.getElem_mem hi)

theorem mixField_add (e : List ℕ × List ℕ) (v w : ℕ → ℕ → ℝ) :
    mixField m n e (v + w) = mixField m n e v + mixField m n e w := rfl

theorem mixField_sub (e : List ℕ × List ℕ) (v w : ℕ → ℕ → ℝ) :
    mixField m n e (v - w) = mixField m n e v - mixField m n e w := rfl

theorem mixField_smul (e : List ℕ × List ℕ) (c : ℝ) (w : ℕ → ℕ → ℝ) : mixField m n e (c • w) = c • mixField m n e w := rfl

theorem flowElem_spec {nodes : ℕ} {dt theta : ℝ} (hdt : dt ≠ 0) {e : List ℕ × List ℕ} {it : FlowItem}
    {F : (ℕ → ℕ → ℝ) → (ℕ → ℕ → ℝ) → (ℕ → ℕ → ℝ) → ℝ} (h : FlowSound m n nodes dt theta e it F) {up : List (Vec ℝ)}
    (hup : ∀ a < nodes, ∀ d < 3, (nodal up a d).isSome) :
    ∃ (A : Matrix (Flu m n) (Flu m n) ℝ) (b : Flu m n → ℝ), flowElem dt theta up it = some (mixM A, mixV b) ∧
      (∀ v w, F (valOf up) v w = mixField m n e w ⬝ᵥ (A *ᵥ mixField m n e v) - mixField m n e w ⬝ᵥ b) ∧
      ∀ v w, F 0 v w = mixField m n e w ⬝ᵥ (A *ᵥ mixField m n e v) := by
  obtain ⟨M, N, C, rfl, hF⟩ := h.data
  refine ⟨dt⁻¹ • M + theta • N + C.getD 0, (dt⁻¹ • M - (1 - theta) • N) *ᵥ mixField m n e (valOf up), ?_, fun v w => ?_,
    fun v w => ?_⟩
  · have h1 := mix_elementVector h.lengthu h.lengthp (u := up) fun p => hup _ (h.dof p).1 _ (h.dof p).2
    unfold flowElem
    simp only [h1, Option.bind_eq_bind, Option.bind_some, Option.pure_def, mixM_dense, mixV_dense, C01_mat_sdiv _ _ hdt,
      C01_mat_smul, C01_mat_add, C01_mat_sub, C01_mat_vec]
    have hv : ∀ (A : Matrix (Flu m n) (Flu m n) ℝ) (z : Flu m n → ℝ),
        A.submatrix (fluEquiv m n).symm (fluEquiv m n).symm *ᵥ (z ∘ (fluEquiv m n).symm) = (A *ᵥ z) ∘ (fluEquiv m n).symm := by
      intro A z
      rw [Matrix.submatrix_mulVec_equiv]
      simp [Function.comp_assoc]
    have hb : (dt⁻¹ • M.submatrix (fluEquiv m n).symm (fluEquiv m n).symm -
        (1 - theta) • N.submatrix (fluEquiv m n).symm (fluEquiv m n).symm) =
        (dt⁻¹ • M - (1 - theta) • N).submatrix (fluEquiv m n).symm (fluEquiv m n).symm := rfl
    cases C with
    | none =>
      simp only [Option.map_none, Option.getD_none, add_zero]
      rw [hb, hv]
      rfl
    | some C =>
      simp only [Option.map_some, mixM_dense, C01_mat_add, Option.bind_some, Option.getD_some]
      rw [hb, hv]
      rfl
  · rw [hF]
    simp only [mixField_add, mixField_sub, mixField_smul, Matrix.add_mulVec, Matrix.sub_mulVec, Matrix.mulVec_add,
      Matrix.mulVec_sub, Matrix.mulVec_smul, Matrix.smul_mulVec, dotProduct_add, dotProduct_sub, dotProduct_smul, smul_eq_mul]
    ring
  · have h0 : mixField m n e (0 : ℕ → ℕ → ℝ) = 0 := rfl
    rw [hF]
    simp only [mixField_add, mixField_sub, mixField_smul, h0, Matrix.add_mulVec, Matrix.mulVec_add,
      Matrix.mulVec_sub, Matrix.mulVec_smul, Matrix.smul_mulVec, dotProduct_add, dotProduct_sub, dotProduct_smul, smul_eq_mul,
      Matrix.mulVec_zero, dotProduct_zero]
    ring

theorem callEnergy_load {K : Type} [Ring K] (f : Vec K) (nte : List (List (ℕ × ℕ))) (e : List ℕ) (w v : ℕ → ℕ → K) :
    callEnergy (.load f nte e) w v = 0 := by
  unfold callEnergy
  simp [AsmCall.mat]

theorem callLoad_fields {K : Type} [Ring K] (A : Mat K) (ntes : List (List (List (ℕ × ℕ)))) (es : List (List ℕ))
    (w : ℕ → ℕ → K) : callLoad (.fields A ntes es) w = 0 := by
  unfold callLoad
  simp [AsmCall.rhs]

theorem flowCalls_spec {nodes : ℕ} {dt theta : ℝ} (hdt : dt ≠ 0) {f : List ℕ × List ℕ → Option FlowItem}
    {F : List ℕ × List ℕ → (ℕ → ℕ → ℝ) → (ℕ → ℕ → ℝ) → (ℕ → ℕ → ℝ) → ℝ} {up : List (Vec ℝ)} {t : List (List ℤ)}
    (hup : ∀ a < nodes, ∀ d < 3, (nodal up a d).isSome) (ht : ∀ a < nodes, ∀ d < 3, (dofNum t a d).isSome) :
    ∀ (elements : List (List ℕ × List ℕ)) (items : List FlowItem), elements.mapM f = some items →
      (∀ e ∈ elements, ∀ it, f e = some it → FlowSound m n nodes dt theta e it (F e)) →
      ∃ calls, flowCalls dt theta up items = some calls ∧ (∀ c ∈ calls, c.Fits t up) ∧
        (∀ w v, energy calls w v - (calls.map fun c => callLoad c w).sum = (elements.map fun e => F e (valOf up) v w).sum) ∧
        ∀ w v, energy calls w v = (elements.map fun e => F e 0 v w).sum := by
  intro elements
  induction elements with
  | nil =>
    intro items h _
    cases h
    exact ⟨[], rfl, by simp, by simp [energy], by simp [energy]⟩
  | cons e es ih =>
    intro items h hs
    simp only [List.mapM_cons, Option.pure_def, Option.bind_eq_bind, Option.bind_eq_some_iff] at h
    obtain ⟨it, h1, its, h2, h⟩ := h
    cases h
    have hsd := hs e (by simp) it h1
    obtain ⟨A, b, e1, e2, e3⟩ := flowElem_spec hdt hsd hup
    obtain ⟨calls, c1, c2, c3, c4⟩ := ih its h2 fun e' he' => hs e' (by simp [he'])
    obtain ⟨M, N, C, rfl, -⟩ := hsd.data
    have hd : ∀ p : Flu m n, (dofNum t (mixNode e p) (mixComp p)).isSome ∧ (nodal up (mixNode e p) (mixComp p)).isSome :=
      fun p => ⟨ht _ (hsd.dof p).1 _ (hsd.dof p).2, hup _ (hsd.dof p).1 _ (hsd.dof p).2⟩
    have hl := mix_load_fits b hsd.lengthu hsd.lengthp hd
    refine ⟨[.fields (mixM A) [blockTable m, pressTable m n] [e.1, e.2], .load (mixV b) (blockTable m) e.1,
      .load (mixV b) (pressTable m n) e.2] ++ calls, ?_, ?_, fun w v => ?_, fun w v => ?_⟩
    · unfold flowCalls at c1 ⊢
      simp only [Option.bind_eq_bind, Option.bind_eq_some_iff, Option.pure_def, Option.some.injEq] at c1
      obtain ⟨cs, c1, rfl⟩ := c1
      simp only [List.mapM_cons, Option.bind_eq_bind, Option.pure_def, e1, Option.bind_some, c1]
      rfl
    · intro c hc
      rcases List.mem_append.1 hc with hc | hc
      · simp only [List.mem_cons, List.not_mem_nil, or_false] at hc
        rcases hc with rfl | rfl | rfl
        · exact mix_fits A hsd.lengthu hsd.lengthp hd
        · exact hl.1
        · exact hl.2
      · exact c2 c hc
    · have := c3 w v
      rw [energy_eq] at this ⊢
      simp only [List.map_append, List.sum_append, List.map_cons, List.map_nil, List.sum_cons, List.sum_nil, callEnergy_load,
        callLoad_fields, mix_energy A hsd.lengthu hsd.lengthp]
      rw [e2, ← this, ← mix_work b hsd.lengthu hsd.lengthp]
      ring
    · have := c4 w v
      rw [energy_eq] at this ⊢
      simp only [List.map_append, List.sum_append, List.map_cons, List.map_nil, List.sum_cons, List.sum_nil, callEnergy_load,
        mix_energy A hsd.lengthu hsd.lengthp]
      rw [e3, ← this]
      ring

/-! ### One step -/

theorem dofNum_free {nodes : ℕ} : ∀ a < nodes, ∀ d < 3, (dofNum (freeTable nodes 3) a d).isSome := by
  intro a ha d hd
  rw [dofNum_freeTable ha hd]
  rfl

/-- The calls of the load loop with the work `L` they stand for. -/
structure LoadSound (nodes : ℕ) (extra : List (AsmCall ℝ)) (L : (ℕ → ℕ → ℝ) → ℝ) : Prop where
  fits : ∀ c ∈ extra, c.Fits (freeTable nodes 3) (zeroField nodes 3)
  energy : ∀ w v, energy extra w v = 0
  work : ∀ w, (extra.map fun c => callLoad c w).sum = L w

theorem loadSound_nil (nodes : ℕ) : LoadSound nodes [] fun _ => 0 := ⟨by simp, fun _ _ => rfl, fun _ => rfl⟩

theorem fits_congr {t t' : List (List ℤ)} {u u' : List (Vec ℝ)} (ht : t'.map List.length = t.map List.length)
    (hu : SameDofs u u') {c : AsmCall ℝ} (h : c.Fits t u) : c.Fits t' u' :=
  ⟨fun p hp => ⟨by rw [isSome_of_lengths ht]; exact (h.1 p hp).1, by rw [← hu]; exact (h.1 p hp).2⟩, h.2⟩

section
variable {nodes : ℕ} {bc : List ((ℕ × ℕ) × ℝ)} {dt theta : ℝ} {elements : List (List ℕ × List ℕ)}
  {f : List (Vec ℝ) → List ℕ × List ℕ → Option FlowItem} {extra : Option (List (AsmCall ℝ))}
  {F : (ℕ → ℕ → ℝ) → List ℕ × List ℕ → (ℕ → ℕ → ℝ) → (ℕ → ℕ → ℝ) → (ℕ → ℕ → ℝ) → ℝ} {L : (ℕ → ℕ → ℝ) → ℝ}
  {w : List (Vec ℝ)} {t₁ : List (List ℤ)}

/-- The assembled equations of a step. -/
theorem flow_calls (hdt : dt ≠ 0) (hset : setDirichlet (zeroField nodes 3) (freeTable nodes 3) bc = some (w, t₁))
    {up ubar : List (Vec ℝ)} {items : List FlowItem} {ex : List (AsmCall ℝ)} (hu : SameDofs (zeroField nodes 3) up)
    (hf : ∀ e ∈ elements, ∀ it, f ubar e = some it → FlowSound m n nodes dt theta e it (F (valOf ubar) e))
    (hi : elements.mapM (f ubar) = some items) (hex : LoadSound nodes ex L) :
    ∃ calls, flowCalls dt theta up items = some calls ∧ (∀ c ∈ calls ++ ex, c.Fits t₁ up) ∧
      (∀ v a d, residual (calls ++ ex) v a d =
        (elements.map fun e => F (valOf ubar) e (valOf up) v (unitField a d)).sum - L (unitField a d)) ∧
      ∀ w v, energy (calls ++ ex) w v = (elements.map fun e => F (valOf ubar) e 0 v w).sum := by
  have hl := (C21_setDirichlet _ _ _ _ _ hset).1
  obtain ⟨calls, c1, c2, c3, c4⟩ := flowCalls_spec (t := t₁) (up := up) hdt
    (fun a ha d hd => by rw [← hu, nodal_zeroField ha hd]; rfl)
    (fun a ha d hd => by rw [isSome_of_lengths hl]; exact dofNum_free a ha d hd) elements items hi hf
  have he : ∀ w v, energy (calls ++ ex) w v = energy calls w v := by
    intro w v
    have := hex.energy w v
    rw [energy_eq] at this
    rw [energy_eq, energy_eq, List.map_append, List.sum_append, this, add_zero]
  refine ⟨calls, c1, fun c hc => ?_, fun v a d => ?_, fun w v => by rw [he, c4]⟩
  · rcases List.mem_append.1 hc with hc | hc
    · exact c2 c hc
    · exact fits_congr hl hu (hex.fits c hc)
  · rw [residual_eq, he, List.map_append, List.sum_append, hex.work, ← c3]
    ring

theorem flow_step (s : LinSolver) (hs : s.Certifies) (hdt : dt ≠ 0)
    (hset : setDirichlet (zeroField nodes 3) (freeTable nodes 3) bc = some (w, t₁))
    {up ubar up' ubar' : List (Vec ℝ)} {conv : Bool} (hu : SameDofs (zeroField nodes 3) up)
    (hf : ∀ e ∈ elements, ∀ it, f ubar e = some it → FlowSound m n nodes dt theta e it (F (valOf ubar) e))
    (hex : ∀ ex, extra = some ex → LoadSound nodes ex L)
    (h : flowStep s dt theta (fun b => elements.mapM (f b)) extra (renumbering t₁).1 (renumbering t₁).2 up ubar =
      some (up', ubar', conv)) :
    SameDofs (zeroField nodes 3) up' ∧ up'.mapM (fun v => v.segment 0 2) = some ubar' ∧
    (∀ a d, ¬ IsFree (freeTable nodes 3) bc (a, d) → nodal up' a d = nodal up a d) ∧
    (conv = true ↔ FlowMet nodes bc (fun u v w => (elements.map fun e => F (valOf ubar) e u v w).sum - L w)
      (valOf up) (valOf up')) := by
  unfold flowStep at h
  simp only [Option.bind_eq_bind, Option.bind_eq_some_iff, Option.pure_def, Option.some.injEq, Prod.mk.injEq,
    Prod.exists] at h
  obtain ⟨items, hi, calls, hc, ex, hx, v, c, h1, ub, h2, rfl, rfl, rfl⟩ := h
  obtain ⟨calls', c1, c2, c3, -⟩ := flow_calls hdt hset hu hf hi (hex ex hx)
  obtain rfl := Option.some.inj (hc.symm.trans c1)
  have h0 : setDirichlet up t₁ [] = some (up, t₁) := rfl
  obtain ⟨a1, a2⟩ := solveStep_spec hs (renumbering_numbered t₁) (fun c hc => fits_renumbered h0 (c2 c hc)) h1
  refine ⟨fun a d => by rw [hu, solveStep_same h1], h2, fun a d hn => a1 a d ?_, ?_⟩
  · by_contra hc'
    exact hn ((isFree_marked hset a d).1 ((numOf_renumbered h0 a d).1 hc'))
  · rw [given_dirichlet h0, norm_renumbered h0 c2, norm_renumbered h0 c2, freeDofs_marked hset] at a2
    rw [a2, held_given up _ bc t₁ (isFree_marked hset)]
    unfold FlowMet dofNorm
    simp only [c3]

end

/-! ### All steps -/

theorem segment_two {v w : Vec ℝ} (h : v.segment 0 2 = some w) (d : ℕ) :
    w.at? (d : ℕ) = if d < 2 then v.at? (d : ℕ) else none := by
  unfold Vec.segment at h
  split_ifs at h with hc
  obtain ⟨-, h2, -⟩ := hc
  have h3 : 2 ≤ v.values.length := by
    unfold Vec.size at h2
    exact_mod_cast h2
  have h0 : v.values[0]? = some (v.values[0]'(by omega)) := List.getElem?_eq_getElem _
  have h1 : v.values[1]? = some (v.values[1]'(by omega)) := List.getElem?_eq_getElem _
  rw [show ((2 : ℤ) - 0).toNat = 2 from rfl] at h
  simp only [Int.toNat_zero, Nat.zero_add, List.range_succ, List.range_zero, List.nil_append,
    List.cons_append, List.mapM_cons, List.mapM_nil, Option.bind_eq_bind, Option.pure_def, h0, h1, Option.bind_some,
    Option.some.injEq] at h
  subst h
  match d with
  | 0 =>
    rw [if_pos (by omega), Vec.at?, Vec.at?, if_pos (by simp [Vec.size]), if_pos (by unfold Vec.size; omega)]
    simp [h0]
  | 1 =>
    rw [if_pos (by omega), Vec.at?, Vec.at?, if_pos (by simp [Vec.size]), if_pos (by unfold Vec.size; omega)]
    simp [h1]
  | d + 2 =>
    rw [if_neg (by omega), Vec.at?, if_neg]
    simp only [Vec.size, List.length_cons, List.length_nil]
    omega

theorem nodal_velocity : ∀ {up ubar : List (Vec ℝ)}, up.mapM (fun v => v.segment 0 2) = some ubar → ∀ a d : ℕ,
    nodal ubar a d = if d < 2 then nodal up a d else none := by
  intro up
  induction up with
  | nil =>
    intro ubar h a d
    cases h
    simp [nodal]
  | cons v up ih =>
    intro ubar h a d
    simp only [List.mapM_cons, Option.pure_def, Option.bind_eq_bind, Option.bind_eq_some_iff] at h
    obtain ⟨w, h1, ws, h2, h⟩ := h
    cases h
    cases a with
    | zero => exact segment_two h1 d
    | succ a => exact ih h2 a d

theorem zeroField_isSome {nodes k a d : ℕ} : (nodal (zeroField nodes k) a d).isSome ↔ a < nodes ∧ d < k := by
  constructor
  · intro h
    by_contra hc
    rw [not_and_or] at hc
    rcases hc with hc | hc
    · simp [zeroField, nodal, hc] at h
    · by_cases ha : a < nodes
      · simp [zeroField, nodal, ha, Vec.at?, Vec.size, hc] at h
      · simp [zeroField, nodal, ha] at h
  · rintro ⟨h1, h2⟩
    rw [nodal_zeroField h1 h2]
    rfl

section
variable {nodes : ℕ} {bc : List ((ℕ × ℕ) × ℝ)} {dt theta : ℝ} {elements : List (List ℕ × List ℕ)}
  {f : List (Vec ℝ) → List ℕ × List ℕ → Option FlowItem} {extra : Option (List (AsmCall ℝ))}
  {F : (ℕ → ℕ → ℝ) → List ℕ × List ℕ → (ℕ → ℕ → ℝ) → (ℕ → ℕ → ℝ) → (ℕ → ℕ → ℝ) → ℝ} {L : (ℕ → ℕ → ℝ) → ℝ}
  {w : List (Vec ℝ)} {t₁ : List (List ℤ)}

theorem flow_steps (s : LinSolver) (hs : s.Certifies) (hdt : dt ≠ 0)
    (hset : setDirichlet (zeroField nodes 3) (freeTable nodes 3) bc = some (w, t₁))
    (hf : ∀ ubar, (∀ a d, (nodal ubar a d).isSome → a < nodes) → ∀ e ∈ elements, ∀ it, f ubar e = some it →
      FlowSound m n nodes dt theta e it (F (valOf ubar) e))
    (hF : ∀ b b' : ℕ → ℕ → ℝ, (∀ a, ∀ d < 2, b a d = b' a d) → F b = F b')
    (hex : ∀ ex, extra = some ex → LoadSound nodes ex L) :
    ∀ (steps : ℕ) (up ubar up' : List (Vec ℝ)) (conv : Bool), SameDofs (zeroField nodes 3) up →
      (∀ a d, (nodal ubar a d).isSome → a < nodes) →
      flowSteps s dt theta (fun b => elements.mapM (f b)) extra (renumbering t₁).1 (renumbering t₁).2 steps up ubar =
        some (up', conv) →
      ∃ U : ℕ → List (Vec ℝ), U 0 = up ∧ U steps = up' ∧
        (∀ k < steps, ∀ a d, ¬ IsFree (freeTable nodes 3) bc (a, d) → nodal (U (k + 1)) a d = nodal (U k) a d) ∧
        (∀ k ≤ steps, SameDofs (zeroField nodes 3) (U k)) ∧
        (conv = true ↔ ∀ k < steps, FlowMet nodes bc (fun u v w => (elements.map fun e =>
          F (if k = 0 then valOf ubar else valOf (U k)) e u v w).sum - L w) (valOf (U k)) (valOf (U (k + 1)))) := by
  intro steps
  induction steps with
  | zero =>
    intro up ubar up' conv hu _ h
    simp only [flowSteps, Option.some.injEq, Prod.mk.injEq] at h
    obtain ⟨rfl, rfl⟩ := h
    exact ⟨fun _ => up, rfl, rfl, by simp, fun _ _ => hu, by simp⟩
  | succ k ih =>
    intro up ubar up' conv hu hb h
    simp only [flowSteps, Option.bind_eq_bind, Option.bind_eq_some_iff, Option.pure_def, Option.some.injEq,
      Prod.mk.injEq, Prod.exists] at h
    obtain ⟨v, vb, c, h1, v', c', h2, rfl, rfl⟩ := h
    obtain ⟨a1, a2, a3, a4⟩ := flow_step s hs hdt hset hu (hf ubar hb) hex h1
    obtain ⟨U, b1, b2, b3, b4, b5⟩ := ih v vb v' c' a1 (fun a d hd => by
      rw [nodal_velocity a2] at hd
      split_ifs at hd with h2
      · rw [← a1] at hd
        exact (zeroField_isSome.1 hd).1
      · simp at hd) h2
    have hbar : F (valOf vb) = F (valOf v) := hF _ _ fun a d hd => by
      unfold valOf
      rw [nodal_velocity a2, if_pos hd]
    refine ⟨fun i => if i = 0 then up else U (i - 1), rfl, ?_, ?_, ?_, ?_⟩
    · simpa using b2
    · intro i hi' a d hn
      cases i with
      | zero => simpa [b1] using a3 a d hn
      | succ i => simpa using b3 i (by omega) a d hn
    · intro i hi'
      cases i with
      | zero => simpa using hu
      | succ i => simpa using b4 i (by omega)
    · rw [Bool.and_eq_true, a4, b5]
      constructor
      · rintro ⟨g1, g2⟩ i hi'
        cases i with
        | zero => simpa [b1] using g1
        | succ i =>
          have := g2 i (by omega)
          cases i with
          | zero =>
            simp only [if_true, hbar] at this
            simpa [b1] using this
          | succ i => simpa using this
      · intro g
        refine ⟨by simpa [b1] using g 0 (by omega), fun i hi' => ?_⟩
        have := g (i + 1) (by omega)
        cases i with
        | zero =>
          simp only [if_true, hbar]
          simpa [b1] using this
        | succ i => simpa using this

theorem flow_run (s : LinSolver) (hs : s.Certifies) (hdt : dt ≠ 0)
    (hf : ∀ ubar, (∀ a d, (nodal ubar a d).isSome → a < nodes) → ∀ e ∈ elements, ∀ it, f ubar e = some it →
      FlowSound m n nodes dt theta e it (F (valOf ubar) e))
    (hF : ∀ b b' : ℕ → ℕ → ℝ, (∀ a, ∀ d < 2, b a d = b' a d) → F b = F b')
    (hex : ∀ ex, extra = some ex → LoadSound nodes ex L) {steps : ℕ} {up' : List (Vec ℝ)} {conv : Bool}
    (h : flowAnalysis s dt theta (fun b => elements.mapM (f b)) extra nodes bc steps = some (up', conv)) :
    ∃ U : ℕ → List (Vec ℝ), FlowRun nodes bc steps U ∧ U steps = up' ∧
      (conv = true ↔ ∀ k < steps, FlowMet nodes bc (fun u v w => (elements.map fun e =>
        F (advecting U k) e u v w).sum - L w) (valOf (U k)) (valOf (U (k + 1)))) := by
  unfold flowAnalysis at h
  simp only [Option.bind_eq_bind, Option.bind_eq_some_iff, Prod.exists] at h
  obtain ⟨w, t₁, h1, h2⟩ := h
  obtain ⟨U, b1, b2, b3, b4, b5⟩ := flow_steps s hs hdt h1 hf hF hex steps w (zeroField nodes 2) up' conv
    (setDirichlet_same h1) (fun a d hd => (zeroField_isSome.1 hd).1) h2
  have h0 := (C21_setDirichlet _ _ _ _ _ h1).2.2
  have hz : valOf (zeroField nodes 2) = 0 := by
    funext a d
    exact zeroField_val nodes 2 a d
  have hbd : ∀ k ≤ steps, ∀ a d c, lastValue bc a d = some c → nodal (U k) a d = some c := by
    intro k
    induction k with
    | zero =>
      intro _ a d c hc
      rw [b1, (h0 a d).2, hc]
      rfl
    | succ k ih =>
      intro hk a d c hc
      rw [b3 k (by omega) a d ?_]
      · exact ih (by omega) a d c hc
      · rintro ⟨-, hn⟩
        exact hn (key_of_lastValue hc)
  refine ⟨U, ⟨fun a ha d hd => ?_, fun k hk a d => ?_, hbd⟩, b2, ?_⟩
  · rw [b1, (h0 a d).2, nodal_zeroField ha hd]
    cases lastValue bc a d <;> rfl
  · rw [← b4 k hk]
    exact zeroField_isSome
  · rw [b5, hz]
    rfl

end

end Pansfem
