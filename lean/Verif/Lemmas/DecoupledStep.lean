/-
The velocity and pressure steps of the decoupled Navier-Stokes program.
-/
import Verif.Spec.ProgramDecoupled
import Verif.Lemmas.Diagonal
import Verif.Lemmas.LevelSetUpdate
import Verif.Lemmas.CellForm
import Verif.Props.C34_QuadKernel
import Verif.Props.C64_Fluid

noncomputable section

open Matrix

namespace Pansfem

/-! ### Loops -/

theorem mapM_choose {α β γ : Type} [Nonempty γ] {l : List α} {g : α → Option β} {pair : α → γ → β} {Q : α → γ → Prop}
    (h : ∀ a ∈ l, ∃ f, g a = some (pair a f) ∧ Q a f) :
    ∃ F : α → γ, l.mapM g = some (l.map fun a => pair a (F a)) ∧ ∀ a ∈ l, Q a (F a) := by
  choose! F hF using h
  exact ⟨F, mapM_some fun a ha => (hF a ha).1, fun a ha => (hF a ha).2⟩

theorem sum_map_neg' {α : Type} (l : List α) (f : α → ℝ) : (l.map fun a => - f a).sum = - (l.map f).sum := by
  induction l with
  | nil => simp
  | cons x l ih => simp only [List.map_cons, List.sum_cons, ih, neg_add]

theorem sum_flatMap_two {α β : Type} (l : List α) (a b : α → β) (f : β → ℝ) :
    ((l.flatMap fun e => [a e, b e]).map f).sum = (l.map fun e => f (a e) + f (b e)).sum := by
  induction l with
  | nil => rfl
  | cons x l ih =>
    simp only [List.flatMap_cons, List.map_append, List.sum_append, ih, List.map_cons, List.sum_cons, List.map_nil,
      List.sum_nil, add_zero]

section
variable {m : ℕ}

theorem joinM_mulVec (A : Matrix (Fin m ⊕ Fin m) (Fin m ⊕ Fin m) ℝ) (f : Fin m ⊕ Fin m → ℝ) :
    (joinM A).mulVec (joinV f) = some (joinV (A *ᵥ f)) := by
  rw [joinM_dense, joinV_dense, C01_mat_vec, joinV_dense]
  congr 2
  rw [submatrix_mulVec_equiv]
  congr 2
  funext i
  simp

theorem joinV_add (f g : Fin m ⊕ Fin m → ℝ) : (joinV f).add (joinV g) = some (joinV (f + g)) := by
  rw [joinV_dense, joinV_dense, C01_vec_add]
  rfl

theorem joinV_smul (f : Fin m ⊕ Fin m → ℝ) (a : ℝ) : (joinV f).smul a = some (joinV (a • f)) := by
  rw [joinV_dense, C01_vec_smul]
  rfl

end

variable {P : DecoupledProgram}

/-! ### The calls of a velocity step -/

/-- The mass at each node of an element. -/
def lumpOf (P : DecoupledProgram) (e : List ℕ) : ℝ :=
  P.rho * (∑ g, measure2 SF.square4 IC.gauss4Square (nodeCoords P.x e) g) / 4

/-- The calls for an element. -/
def velPair (P : DecoupledProgram) (e : List ℕ) (f : Fin 4 ⊕ Fin 4 → ℝ) : List (AsmCall ℝ) :=
  [.matrix (joinM (lumpOf P e • (1 : Matrix (Fin 4 ⊕ Fin 4) (Fin 4 ⊕ Fin 4) ℝ))) (blockTable 4) e,
    .load (joinV f) (blockTable 4) e]

theorem quad_gather (h : Quads P.x P.elements) {e : List ℕ} (he : e ∈ P.elements) :
    gather P.x e 4 2 = some (nodeCoords P.x e) := by
  obtain ⟨X, hX, -⟩ := h e he
  rw [hX, gather_coords hX]

theorem quad_lt (h : Quads P.x P.elements) {e : List ℕ} (he : e ∈ P.elements) {n : ℕ} (hn : n ∈ e) : n < P.x.length :=
  nodal_lt ((quads_parts h e he).2.1 n hn 0 (by norm_num))

theorem shaped_some {k : ℕ} {u : List (Vec ℝ)} (hu : Shaped u (freeTable P.x.length k)) {n j : ℕ} (hn : n < P.x.length)
    (hj : j < k) : (nodal u n j).isSome := (hu.2 n j).2 (freeTable_isSome hn hj)

theorem velocityCalls_eq (h : Quads P.x P.elements) {e : List ℕ} (he : e ∈ P.elements) {w : List (Vec ℝ)}
    (hw : Shaped w (freeTable P.x.length 2)) {load : Matrix (Fin 4) (Fin 2) ℝ → Option (Fin 4 ⊕ Fin 4 → ℝ)}
    {Fe : Fin 4 ⊕ Fin 4 → ℝ} (hF : load (nodeCoords P.x e) = some Fe) :
    velocityCalls P load w e =
      some (velPair P e (lumpOf P e • blockField 4 e (valOf w) + P.dt • Fe)) := by
  have hl := (quads_parts h e he).1
  have hM : decoupledLumped SF.square4 IC.gauss4Square (nodeCoords P.x e) P.rho =
      some (lumpOf P e • (1 : Matrix (Fin 4 ⊕ Fin 4) (Fin 4 ⊕ Fin 4) ℝ)) := by
    unfold decoupledLumped
    rw [area_eq, div?, if_neg (by norm_num)]
    simp [lumpOf]
  unfold velocityCalls elemM2 elemV2
  simp only [hl, blocked2_eq, quad_gather h he, hM, hF, Option.bind_eq_bind, Option.bind_some, Option.pure_def,
    block_elementVector hl fun n hn j hj => shaped_some hw (quad_lt h he hn) hj, joinM_mulVec, joinV_smul, joinV_add]
  rw [smul_mulVec, one_mulVec]
  rfl

theorem block_dot (e : List ℕ) (w v : ℕ → ℕ → ℝ) :
    blockField 4 e w ⬝ᵥ blockField 4 e v = ∑ i : Fin 4, ∑ a : Fin 2, nodeComp e w a i * nodeComp e v a i := by
  rw [dotProduct, ← sum_block]
  refine Finset.sum_congr rfl fun i _ => Finset.sum_congr rfl fun a _ => ?_
  fin_cases a <;> rfl

theorem velPair_energy {e : List ℕ} (hl : e.length = 4) (f : Fin 4 ⊕ Fin 4 → ℝ) (w v : ℕ → ℕ → ℝ) :
    ((velPair P e f).map fun c => callEnergy c w v).sum = lumpOf P e *
      ∑ i : Fin 4, ∑ a : Fin 2, nodeComp e w a i * nodeComp e v a i := by
  simp only [velPair, List.map_cons, List.map_nil, List.sum_cons, List.sum_nil]
  rw [block_energy _ hl, smul_mulVec, one_mulVec, dotProduct_smul, block_dot, smul_eq_mul]
  simp [callEnergy, AsmCall.mat]

theorem velCalls_energy (h : Quads P.x P.elements) (F : List ℕ → Fin 4 ⊕ Fin 4 → ℝ) (w v : ℕ → ℕ → ℝ) :
    energy (P.elements.flatMap fun e => velPair P e (F e)) w v = lumpedMass P w v := by
  rw [energy_eq, List.map_flatMap, List.flatMap_def, List.sum_flatten, List.map_map]
  refine congrArg List.sum (List.map_congr_left fun e he => ?_)
  exact velPair_energy (quads_parts h e he).1 (F e) w v

theorem velCalls_load (h : Quads P.x P.elements) (F : List ℕ → Fin 4 ⊕ Fin 4 → ℝ) (w : ℕ → ℕ → ℝ) :
    ((P.elements.flatMap fun e => velPair P e (F e)).map fun c => callLoad c w).sum =
      (P.elements.map fun e => blockField 4 e w ⬝ᵥ F e).sum := by
  rw [List.map_flatMap, List.flatMap_def, List.sum_flatten, List.map_map]
  refine congrArg List.sum (List.map_congr_left fun e he => ?_)
  simp only [Function.comp_apply, velPair, List.map_cons, List.map_nil, List.sum_cons, List.sum_nil, add_zero]
  rw [block_work _ (quads_parts h e he).1]
  simp [callLoad, AsmCall.rhs]

theorem velCalls_fits (h : Quads P.x P.elements) (F : List ℕ → Fin 4 ⊕ Fin 4 → ℝ) {u : List (Vec ℝ)}
    (hu : Shaped u (freeTable P.x.length 2)) :
    ∀ c ∈ P.elements.flatMap fun e => velPair P e (F e), c.Fits (freeTable P.x.length 2) u := by
  intro c hc
  obtain ⟨e, he, hc⟩ := List.mem_flatMap.1 hc
  have hl := (quads_parts h e he).1
  have hd : ∀ n ∈ e, ∀ j < 2, (dofNum (freeTable P.x.length 2) n j).isSome ∧ (nodal u n j).isSome := fun n hn j hj =>
    ⟨freeTable_isSome (quad_lt h he hn) hj, shaped_some hu (quad_lt h he hn) hj⟩
  simp only [velPair, List.mem_cons, List.not_mem_nil, or_false] at hc
  rcases hc with rfl | rfl
  · exact block_fits _ hl hd
  · exact block_load_fits _ hl hd

/-! ### Lumped mass -/

theorem nodeComp_mem {e : List ℕ} (hl : e.length = 4) {n : ℕ} (hn : n ∈ e) :
    ∃ i : Fin 4, ∀ (w : ℕ → ℕ → ℝ) a, nodeComp e w a i = w n a := by
  obtain ⟨i, hi, rfl⟩ := List.mem_iff_getElem.1 hn
  exact ⟨⟨i, by omega⟩, fun w a => by simp [nodeComp, hi]⟩

theorem lumpOf_pos (h : P.Ok) {e : List ℕ} (he : e ∈ P.elements) : 0 < lumpOf P e := by
  have := (quads_parts h.quads e he).2.2
  refine div_pos (mul_pos h.density ?_) (by norm_num)
  exact Finset.sum_pos (fun g _ => this g) ⟨(0 : Fin 4), Finset.mem_univ _⟩

theorem lumpedMass_eq (w v : ℕ → ℕ → ℝ) : lumpedMass P w v = (P.elements.map fun e => lumpOf P e *
    ∑ i : Fin 4, ∑ a : Fin 2, nodeComp e w a i * nodeComp e v a i).sum := rfl

theorem lumpedMass_zero {w v : ℕ → ℕ → ℝ} (h : ∀ n d, w n d * v n d = 0) : lumpedMass P w v = 0 := by
  refine List.sum_eq_zero fun r hr => ?_
  obtain ⟨e, -, rfl⟩ := List.mem_map.1 hr
  rw [show ∑ i : Fin 4, ∑ a : Fin 2, nodeComp e w a i * nodeComp e v a i = 0 from
    Finset.sum_eq_zero fun i _ => Finset.sum_eq_zero fun a _ => h _ _, mul_zero]

theorem lumpedMass_pos (h : P.Ok) {v : ℕ → ℕ → ℝ} (hv : ∀ n d, v n d ≠ 0 → n < P.x.length ∧ d < 2)
    (hne : ∃ n d, v n d ≠ 0) : 0 < lumpedMass P v v := by
  obtain ⟨n, d, hnd⟩ := hne
  obtain ⟨hn, hd⟩ := hv n d hnd
  obtain ⟨e, he, hne⟩ := h.used n hn
  obtain ⟨i, hi⟩ := nodeComp_mem (quads_parts h.quads e he).1 hne
  rw [lumpedMass_eq]
  have hterm : ∀ f ∈ P.elements, 0 ≤ lumpOf P f * ∑ i : Fin 4, ∑ a : Fin 2, nodeComp f v a i * nodeComp f v a i :=
    fun f hf => mul_nonneg (lumpOf_pos h hf).le
      (Finset.sum_nonneg fun _ _ => Finset.sum_nonneg fun _ _ => mul_self_nonneg _)
  have hpos : 0 < lumpOf P e * ∑ i : Fin 4, ∑ a : Fin 2, nodeComp e v a i * nodeComp e v a i := by
    refine mul_pos (lumpOf_pos h he) ?_
    refine Finset.sum_pos' (fun _ _ => Finset.sum_nonneg fun _ _ => mul_self_nonneg _) ⟨i, Finset.mem_univ _, ?_⟩
    refine Finset.sum_pos' (fun _ _ => mul_self_nonneg _) ⟨⟨d, hd⟩, Finset.mem_univ _, ?_⟩
    rw [hi]
    exact mul_self_pos.2 hnd
  refine lt_of_lt_of_le hpos (List.single_le_sum (fun r hr => ?_) _ (List.mem_map.2 ⟨e, he, rfl⟩))
  obtain ⟨f, hf, rfl⟩ := List.mem_map.1 hr
  exact hterm f hf

theorem lumpedMass_sub (w u v : ℕ → ℕ → ℝ) : lumpedMass P w (u - v) = lumpedMass P w u - lumpedMass P w v := by
  unfold lumpedMass
  rw [← list_sum_sub]
  refine congrArg List.sum (List.map_congr_left fun e _ => ?_)
  rw [← mul_sub, ← Finset.sum_sub_distrib]
  congr 1
  refine Finset.sum_congr rfl fun i _ => ?_
  rw [← Finset.sum_sub_distrib]
  refine Finset.sum_congr rfl fun a _ => ?_
  simp only [nodeComp, Pi.sub_apply]
  ring

/-! ### A velocity step -/

theorem key_of_lastValue {bc : List ((ℕ × ℕ) × ℝ)} {n d : ℕ} {a : ℝ} (h : lastValue bc n d = some a) :
    (n, d) ∈ bc.map Prod.fst := by
  unfold lastValue at h
  obtain ⟨p, hp, -⟩ := Option.map_eq_some_iff.1 h
  have h1 := List.mem_of_find?_eq_some hp
  have h2 := List.find?_some hp
  exact List.mem_map.2 ⟨p, List.mem_reverse.1 h1, by simpa using h2⟩

/-- Fields that vanish at the given dofs do no work against the residual. -/
theorem residual_vanishing {k : ℕ} {bc : List ((ℕ × ℕ) × ℝ)} {calls : List (AsmCall ℝ)} {N : ℕ} {u : List (Vec ℝ)}
    {v w : ℕ → ℕ → ℝ} (hf : ∀ c ∈ calls, c.Fits (freeTable N k) u)
    (h : ∀ n d, IsFree (freeTable N k) bc (n, d) → residual calls v n d = 0) (hw : Vanishing bc w) :
    energy calls w v = (calls.map fun c => callLoad c w).sum := by
  have := residual_work (fun c hc p hp => ((hf c hc).1 p hp).1) v w
  rw [List.sum_eq_zero] at this
  · linarith
  · intro r hr
    obtain ⟨p, hp, rfl⟩ := List.mem_map.1 hr
    by_cases hF : IsFree (freeTable N k) bc (p.1, p.2)
    · simp only [h _ _ hF, mul_zero]
    · have hm : (p.1, p.2) ∈ bc.map Prod.fst := by
        by_contra hm
        refine hF (free_table.2 ⟨?_, ?_, hm⟩)
        · simp [allDofs, freeTable] at hp
          obtain ⟨a, ha, b, hb, rfl⟩ := hp
          exact ha
        · simp [allDofs, freeTable] at hp
          obtain ⟨a, ha, b, hb, rfl⟩ := hp
          simpa [ha] using hb
      obtain ⟨r, hr, e⟩ := List.mem_map.1 hm
      have := hw r hr
      rw [e] at this
      simp only [this, zero_mul]

theorem velocity_solve (h : P.Ok) {t : List (List ℤ)} (ht : Marks (freeTable P.x.length 2) P.ufixed t)
    {u w : List (Vec ℝ)} (hu : VelocityOf P u) (G : List ℕ → Fin 4 ⊕ Fin 4 → ℝ) :
    ∃ u', solveStep useDiagonal u (renumbering t).1 (renumbering t).2
        (P.elements.flatMap fun e => velPair P e (lumpOf P e • blockField 4 e (valOf w) + P.dt • G e)) =
          some (u', true) ∧ VelocityOf P u' ∧
      ∀ φ, Vanishing P.ufixed φ → lumpedMass P φ (valOf u' - valOf w) =
        P.dt * (P.elements.map fun e => blockField 4 e φ ⬝ᵥ G e).sum := by
  set calls := P.elements.flatMap fun e => velPair P e (lumpOf P e • blockField 4 e (valOf w) + P.dt • G e) with hcalls
  have hen := velCalls_energy h.quads fun e => lumpOf P e • blockField 4 e (valOf w) + P.dt • G e
  have hlo := velCalls_load h.quads fun e => lumpOf P e • blockField 4 e (valOf w) + P.dt • G e
  have hfit := velCalls_fits h.quads (fun e => lumpOf P e • blockField 4 e (valOf w) + P.dt • G e) hu.shaped
  rw [← hcalls] at hfit
  obtain ⟨u', a, b, c⟩ := diagonal_solves (u := u) (t := t) (calls := calls) (fun c hc => ht.fits (hfit c hc))
    (fun n d hnd => by
      obtain ⟨h1, h2, -⟩ := free_table.1 ((ht.isFree n d).1 hnd)
      exact shaped_some hu.shaped h1 h2)
    (fun w v hwv => by rw [hen, lumpedMass_zero hwv])
    (fun v hv hne => by
      rw [hen]
      refine lumpedMass_pos h (fun n d hnd => ?_) hne
      have hF : IsFree t ([] : List ((ℕ × ℕ) × ℝ)) (n, d) := by
        by_contra hc
        exact hnd (hv n d hc)
      obtain ⟨h1, h2, -⟩ := free_table.1 ((ht.isFree n d).1 hF)
      exact ⟨h1, h2⟩)
  refine ⟨u', a, ⟨analysis_shaped (t₀ := t) (bc := []) hu.shaped a, fun n d r hr => ?_⟩, fun φ hφ => ?_⟩
  · rw [b n d]
    · exact hu.boundary n d r hr
    · rw [ht.isFree, free_table]
      exact fun hc => hc.2.2 (key_of_lastValue hr)
  · have := residual_vanishing (bc := P.ufixed) hfit (fun n d hnd => c n d ((ht.isFree n d).2 hnd)) hφ
    rw [hen, hlo] at this
    rw [lumpedMass_sub, this, lumpedMass_eq, ← list_sum_sub, list_sum_mul_left]
    refine congrArg List.sum (List.map_congr_left fun e _ => ?_)
    rw [dotProduct_add, dotProduct_smul, dotProduct_smul, block_dot, smul_eq_mul, smul_eq_mul]
    ring

/-! ### Auxiliary velocity and velocity of the next step -/

/-- The values of a field at the nodes of an element, node by node. -/
def compMat (e : List ℕ) (w : ℕ → ℕ → ℝ) : Matrix (Fin 4) (Fin 2) ℝ := fun i a => nodeComp e w a i

theorem gather_comps {u : List (Vec ℝ)} {e : List ℕ} (hl : e.length = 4) (hu : ∀ n ∈ e, ∀ j < 2, (nodal u n j).isSome) :
    gather u e 4 2 = some (compMat e (valOf u)) := by
  obtain ⟨U, hU⟩ := Option.isSome_iff_exists.1 (gather_isSome (n := 4) (d := 2) hl fun n hn j => hu n hn j j.2)
  rw [hU, gather_coords hU]
  rfl

theorem gather_comp {u : List (Vec ℝ)} {e : List ℕ} (hl : e.length = 4) (hu : ∀ n ∈ e, (nodal u n 0).isSome) :
    ∃ U : Matrix (Fin 4) (Fin 1) ℝ, gather u e 4 1 = some U ∧ (fun i => U i 0) = nodeComp e (valOf u) 0 := by
  obtain ⟨U, hU⟩ := Option.isSome_iff_exists.1 (gather_isSome (n := 4) (d := 1) (x := u) hl fun n hn j => by
    have : (j : ℕ) = 0 := by omega
    rw [this]
    exact hu n hn)
  exact ⟨U, hU, gather_values hU⟩

theorem block_elim (e : List ℕ) (w : ℕ → ℕ → ℝ) :
    blockField 4 e w = Sum.elim ((fun a : Fin 2 => nodeComp e w a) 0) ((fun a : Fin 2 => nodeComp e w a) 1) := rfl

theorem auxiliaryCalls_eq (h : P.Ok) {u : List (Vec ℝ)} (hu : Shaped u (freeTable P.x.length 2)) :
    ∃ G : List ℕ → Fin 4 ⊕ Fin 4 → ℝ, auxiliaryCalls P u =
      some (P.elements.flatMap fun e => velPair P e (lumpOf P e • blockField 4 e (valOf u) + P.dt • G e)) ∧
      ∀ φ, (P.elements.map fun e => blockField 4 e φ ⬝ᵥ G e).sum = - convection P φ (valOf u) := by
  obtain ⟨G, h1, h2⟩ := mapM_choose (l := P.elements) (γ := Fin 4 ⊕ Fin 4 → ℝ)
    (g := fun e => (gather u e 4 2).bind fun U =>
      velocityCalls P (fun X => auxiliaryVelocity SF.square4 IC.gauss4Square X U P.rho P.mu) u e)
    (pair := fun e f => velPair P e (lumpOf P e • blockField 4 e (valOf u) + P.dt • f))
    (Q := fun e f => auxiliaryVelocity SF.square4 IC.gauss4Square (nodeCoords P.x e)
      (compMat e (valOf u)) P.rho P.mu = some f) (by
      intro e he
      obtain ⟨hl, -, hm⟩ := quads_parts h.quads e he
      have hreg := regular_of_measure hm
      obtain ⟨f, hf⟩ : ∃ f, auxiliaryVelocity SF.square4 IC.gauss4Square (nodeCoords P.x e)
          (compMat e (valOf u)) P.rho P.mu = some f := ⟨_, loop2_some.2 ⟨hreg, rfl⟩⟩
      refine ⟨f, ?_, hf⟩
      rw [gather_comps hl fun n hn j hj => shaped_some hu (quad_lt h.quads he hn) hj, Option.bind_some]
      exact velocityCalls_eq h.quads he hu hf)
  refine ⟨G, ?_, fun φ => ?_⟩
  · unfold auxiliaryCalls
    simp only [Option.bind_eq_bind, Option.pure_def]
    rw [h1, Option.bind_some, List.flatMap_def]
  · unfold convection meshIntegral
    rw [← sum_map_neg']
    refine congrArg List.sum (List.map_congr_left fun e he => ?_)
    rw [block_elim, C88_auxiliaryVelocity (h2 e he) fun a : Fin 2 => nodeComp e φ a]
    rfl

theorem nextstepCalls_eq (h : P.Ok) {v p : List (Vec ℝ)} (hv : Shaped v (freeTable P.x.length 2))
    (hp : Shaped p (freeTable P.x.length 1)) :
    ∃ G : List ℕ → Fin 4 ⊕ Fin 4 → ℝ, nextstepCalls P v p =
      some (P.elements.flatMap fun e => velPair P e (lumpOf P e • blockField 4 e (valOf v) + P.dt • G e)) ∧
      ∀ φ, (P.elements.map fun e => blockField 4 e φ ⬝ᵥ G e).sum = - pressureWork P φ (valOf p) := by
  obtain ⟨G, h1, h2⟩ := mapM_choose (l := P.elements) (γ := Fin 4 ⊕ Fin 4 → ℝ)
    (g := fun e => (gather v e 4 2).bind fun _ => (gather p e 4 1).bind fun Q =>
      velocityCalls P (fun X => nextstepVelocity SF.square4 IC.gauss4Square X fun i => Q i 0) v e)
    (pair := fun e f => velPair P e (lumpOf P e • blockField 4 e (valOf v) + P.dt • f))
    (Q := fun e f => nextstepVelocity SF.square4 IC.gauss4Square (nodeCoords P.x e)
      (nodeComp e (valOf p) 0) = some f) (by
      intro e he
      obtain ⟨hl, -, hm⟩ := quads_parts h.quads e he
      have hreg := regular_of_measure hm
      obtain ⟨f, hf⟩ : ∃ f, nextstepVelocity SF.square4 IC.gauss4Square (nodeCoords P.x e)
          (nodeComp e (valOf p) 0) = some f := ⟨_, loop2_some.2 ⟨hreg, rfl⟩⟩
      refine ⟨f, ?_, hf⟩
      obtain ⟨Q, hQ, hQ'⟩ := gather_comp (u := p) hl fun n hn => shaped_some hp (quad_lt h.quads he hn) (by norm_num)
      rw [gather_comps hl fun n hn j hj => shaped_some hv (quad_lt h.quads he hn) hj, Option.bind_some, hQ,
        Option.bind_some, hQ']
      exact velocityCalls_eq h.quads he hv hf)
  refine ⟨G, ?_, fun φ => ?_⟩
  · unfold nextstepCalls
    simp only [Option.bind_eq_bind, Option.pure_def]
    rw [h1, Option.bind_some, List.flatMap_def]
  · unfold pressureWork meshIntegral
    rw [← sum_map_neg']
    refine congrArg List.sum (List.map_congr_left fun e he => ?_)
    rw [block_elim, C88_nextstepVelocity (h2 e he) fun a : Fin 2 => nodeComp e φ a]
    rfl

/-! ### The pressure -/

/-- The calls for an element. -/
def prPair (e : List ℕ) (q : Matrix (Fin 4) (Fin 4) ℝ × (Fin 4 → ℝ)) : List (AsmCall ℝ) :=
  [.matrix (flatM (k := 1) (q.1.submatrix Prod.fst Prod.fst)) (interTable 1 4 [0]) e,
    .load (flatV (n := 4) (k := 1) fun r => q.2 r.1) (interTable 1 4 [0]) e]

/-- What the element matrix and vector are. -/
structure PressureElement (P : DecoupledProgram) (v : ℕ → ℕ → ℝ) (e : List ℕ)
    (q : Matrix (Fin 4) (Fin 4) ℝ × (Fin 4 → ℝ)) : Prop where
  symm : q.1ᵀ = q.1
  form : ∀ a b : Fin 4 → ℝ, a ⬝ᵥ (q.1 *ᵥ b) = ∑ g, measure2 SF.square4 IC.gauss4Square (nodeCoords P.x e) g * ∑ k,
    interp (gradAt SF.square4 (nodeCoords P.x e) (IC.gauss4Square.points g) k) a *
      interp (gradAt SF.square4 (nodeCoords P.x e) (IC.gauss4Square.points g) k) b
  load : ∀ w : ℕ → ℕ → ℝ, nodeComp e w 0 ⬝ᵥ q.2 = - (P.rho / P.dt * ∑ g,
    measure2 SF.square4 IC.gauss4Square (nodeCoords P.x e) g * (valueAt e w g 0 * ∑ k : Fin 2, derivAt P e v g k k))

theorem pressureCalls_eq (h : P.Ok) {v : List (Vec ℝ)} (hv : Shaped v (freeTable P.x.length 2)) :
    ∃ C : List ℕ → Matrix (Fin 4) (Fin 4) ℝ × (Fin 4 → ℝ), pressureCalls P v =
      some (P.elements.flatMap fun e => prPair e (C e)) ∧ ∀ e ∈ P.elements, PressureElement P (valOf v) e (C e) := by
  obtain ⟨C, h1, h2⟩ := mapM_choose (l := P.elements) (γ := Matrix (Fin 4) (Fin 4) ℝ × (Fin 4 → ℝ))
    (g := fun e => (gather v e 4 2).bind fun U =>
      (elemM 1 (scalarCore fun X => pressurePoissonK SF.square4 IC.gauss4Square X) e [0] P.x).bind fun r =>
      (elemV 1 (fun X => (pressurePoissonF SF.square4 IC.gauss4Square X U P.rho P.dt).map fun w q => w q.1) e [0] P.x).bind
        fun s => some [.matrix r.1 r.2 e, .load s.1 r.2 e])
    (pair := prPair) (Q := PressureElement P (valOf v)) (by
      intro e he
      obtain ⟨hl, -, hm⟩ := quads_parts h.quads e he
      have hreg := regular_of_measure hm
      have hX := quad_gather h.quads he
      obtain ⟨A, hA⟩ : ∃ A, pressurePoissonK SF.square4 IC.gauss4Square (nodeCoords P.x e) = some A :=
        ⟨_, loop2_some.2 ⟨hreg, rfl⟩⟩
      obtain ⟨f, hf⟩ : ∃ f, pressurePoissonF SF.square4 IC.gauss4Square (nodeCoords P.x e)
          (compMat e (valOf v)) P.rho P.dt = some f :=
        ⟨_, loop2_eq_some.2 ⟨hreg, _, fun g => by
          rw [div?, if_neg h.step.ne']
          rfl, rfl⟩⟩
      refine ⟨(A, f), ?_, C32_pressurePoisson hA, fun a b => C88_pressurePoissonK hA a b, fun w => ?_⟩
      · have hE : elemV 1 (fun X => (pressurePoissonF SF.square4 IC.gauss4Square X (compMat e (valOf v)) P.rho P.dt).map
            fun (w : Fin 4 → ℝ) (q : Fin 4 × Fin 1) => w q.1) e [0] P.x =
            some (flatV (n := 4) (k := 1) fun r => f r.1, interTable 1 4 [0]) :=
          elemV_eq_some.2 ⟨rfl, _, _, hX, by rw [hf]; rfl, rfl, rfl⟩
        rw [gather_comps hl fun n hn j hj => shaped_some hv (quad_lt h.quads he hn) hj, Option.bind_some,
          (elemM_eq_some (core := scalarCore fun X => pressurePoissonK SF.square4 IC.gauss4Square X)).2
            ⟨rfl, _, _, hX, by rw [scalarCore, hA]; rfl, rfl, rfl⟩, Option.bind_some,
          hE, Option.bind_some]
        rfl
      · rw [(C88_pressurePoissonF hf (by decide) _).2, Finset.mul_sum, ← Finset.sum_neg_distrib]
        refine Finset.sum_congr rfl fun g _ => ?_
        simp only [valueAt, derivAt, show ∀ k : Fin 2, (fun i => compMat e (valOf v) i k) = nodeComp e (valOf v) k from
          fun k => rfl]
        ring)
  refine ⟨C, ?_, h2⟩
  unfold pressureCalls
  simp only [Option.bind_eq_bind, Option.pure_def]
  refine (congrArg (fun o => Option.bind o fun cs => some cs.flatten) h1).trans ?_
  rw [Option.bind_some, List.flatMap_def]

section
variable {C : List ℕ → Matrix (Fin 4) (Fin 4) ℝ × (Fin 4 → ℝ)} {v : ℕ → ℕ → ℝ}

theorem prCalls_energy (h : Quads P.x P.elements) (hC : ∀ e ∈ P.elements, PressureElement P v e (C e))
    (q p : ℕ → ℕ → ℝ) : energy (P.elements.flatMap fun e => prPair e (C e)) q p = poissonForm P q p := by
  rw [energy_eq, List.map_flatMap, List.flatMap_def, List.sum_flatten, List.map_map]
  refine congrArg List.sum (List.map_congr_left fun e he => ?_)
  simp only [Function.comp_apply, prPair, List.map_cons, List.map_nil, List.sum_cons, List.sum_nil, add_zero]
  rw [scalar_energy _ (quads_parts h e he).1, (hC e he).form]
  simp only [callEnergy, AsmCall.mat, zero_mul, List.map_const', List.sum_replicate, smul_zero, mul_zero, add_zero]
  rfl

theorem prCalls_load (h : Quads P.x P.elements) (hC : ∀ e ∈ P.elements, PressureElement P v e (C e))
    (q : ℕ → ℕ → ℝ) : ((P.elements.flatMap fun e => prPair e (C e)).map fun c => callLoad c q).sum =
      - (P.rho / P.dt * divergenceWork P q v) := by
  unfold divergenceWork meshIntegral
  rw [List.map_flatMap, List.flatMap_def, List.sum_flatten, List.map_map, list_sum_mul_left, ← sum_map_neg']
  refine congrArg List.sum (List.map_congr_left fun e he => ?_)
  simp only [Function.comp_apply, prPair, List.map_cons, List.map_nil, List.sum_cons, List.sum_nil, add_zero]
  rw [load_work (k := 1) (quads_parts h e he).1 rfl, ← (hC e he).load]
  simp only [callLoad, AsmCall.rhs, mul_zero, List.map_const', List.sum_replicate, smul_zero, zero_add]
  simp [dotProduct, Fintype.sum_prod_type, localField, nodeComp]

theorem prCalls_residual (h : Quads P.x P.elements) (hC : ∀ e ∈ P.elements, PressureElement P v e (C e))
    (p : ℕ → ℕ → ℝ) (n d : ℕ) :
    residual (P.elements.flatMap fun e => prPair e (C e)) p n d = pressureResidual P v p n d := by
  rw [residual_eq, prCalls_energy h hC, prCalls_load h hC, sub_neg_eq_add]
  rfl

theorem prCalls_fits (h : Quads P.x P.elements) {p : List (Vec ℝ)} (hp : Shaped p (freeTable P.x.length 1)) :
    ∀ c ∈ P.elements.flatMap fun e => prPair e (C e), c.Fits (freeTable P.x.length 1) p := by
  intro c hc
  obtain ⟨e, he, hc⟩ := List.mem_flatMap.1 hc
  have hX := quad_gather h he
  have h0 : c.Fits (freeTable P.x.length 1) (zeroField P.x.length 1) := by
    simp only [prPair, List.mem_cons, List.not_mem_nil, or_false] at hc
    rcases hc with rfl | rfl
    · exact elem_fits (k := 1) (dl := [0]) (x := P.x) (e := e)
        (core := fun _ : Matrix (Fin 4) (Fin 2) ℝ => some ((C e).1.submatrix Prod.fst Prod.fst)) rfl (by simp)
        (by norm_num) ⟨_, _, hX, rfl, rfl⟩
    · exact load_fits (k := 1) (dl := [0]) (x := P.x) (e := e)
        (core := fun _ : Matrix (Fin 4) (Fin 2) ℝ => some fun r => (C e).2 r.1) rfl (by simp)
        (by norm_num) ⟨_, _, hX, rfl, rfl⟩
  exact ⟨fun r hr => ⟨(h0.1 r hr).1, (hp.2 _ _).2 (h0.1 r hr).1⟩, h0.2⟩

theorem prCalls_symm (h : Quads P.x P.elements) (hC : ∀ e ∈ P.elements, PressureElement P v e (C e)) :
    SymmetricCalls (P.elements.flatMap fun e => prPair e (C e)) := by
  intro c hc
  obtain ⟨e, he, hc⟩ := List.mem_flatMap.1 hc
  simp only [prPair, List.mem_cons, List.not_mem_nil, or_false] at hc
  rcases hc with rfl | rfl
  · exact scalar_symm (quad_gather h he) (hC e he).symm _ (List.mem_singleton.2 rfl)
  · intro p _ q _
    rfl

end

/-- A field without gradient at the integration points is constant on the element. -/
theorem square4_constant {X : Matrix (Fin 4) (Fin 2) ℝ} (hX : Regular SF.square4 IC.gauss4Square X) {w : Fin 4 → ℝ}
    (h : ∀ g k, interp (gradAt SF.square4 X (IC.gauss4Square.points g) k) w = 0) (i j : Fin 4) : w i = w j := by
  have hd : ∀ (g : Fin IC.gauss4Square.N) (k : Fin 2), ∑ i, SF.square4.dNdr (IC.gauss4Square.points g) k i * w i = 0 := by
    intro g k
    have hJ : (SF.square4.dNdr (IC.gauss4Square.points g) * X) * gradAt SF.square4 X (IC.gauss4Square.points g) =
        SF.square4.dNdr (IC.gauss4Square.points g) := by
      unfold gradAt
      rw [← Matrix.mul_assoc, Matrix.mul_nonsing_inv _ (isUnit_iff_ne_zero.2 (hX g)), Matrix.one_mul]
    have hz : gradAt SF.square4 X (IC.gauss4Square.points g) *ᵥ w = 0 := funext fun k => h g k
    have := congrArg (fun M => (M *ᵥ w) k) hJ
    simp only [← Matrix.mulVec_mulVec, hz, Matrix.mulVec_zero] at this
    exact this.symm
  have hs : (√3)⁻¹ ≠ (0 : ℝ) := (inv_pos.2 (Real.sqrt_pos.2 (by norm_num))).ne'
  have a0 := hd (0 : Fin 4) 0
  have a1 := hd (1 : Fin 4) 0
  have a2 := hd (2 : Fin 4) 0
  have a3 := hd (3 : Fin 4) 0
  have b0 := hd (0 : Fin 4) 1
  have b1 := hd (1 : Fin 4) 1
  rw [square4_dp] at a0 a1 a2 a3
  rw [square4_dq] at b0 b1
  simp [IC.gauss4Square, bilinear4, div_eq_mul_inv] at a0 a1 a2 a3 b0 b1
  have e0 : -w 0 + w 1 + w 2 - w 3 = 0 := by linarith
  have e1 : -w 0 - w 1 + w 2 + w 3 = 0 := by linarith
  have e2 : w 0 - w 1 + w 2 - w 3 = 0 := by
    have : (w 0 - w 1 + w 2 - w 3) * (√3)⁻¹ = 0 := by linarith
    exact (mul_eq_zero.1 this).resolve_right hs
  have h1 : w 1 = w 0 := by linarith
  have h2 : w 2 = w 0 := by linarith
  have h3 : w 3 = w 0 := by linarith
  have : ∀ i, w i = w 0 := fun i => match i with | 0 => rfl | 1 => h1 | 2 => h2 | 3 => h3
  rw [this i, this j]

theorem poissonForm_nonneg (h : P.Ok) (q : ℕ → ℕ → ℝ) : ∀ e ∈ P.elements,
    0 ≤ ∑ g, measure2 SF.square4 IC.gauss4Square (nodeCoords P.x e) g *
      ∑ k : Fin 2, derivAt P e q g k 0 * derivAt P e q g k 0 := by
  intro e he
  exact Finset.sum_nonneg fun g _ => mul_nonneg ((quads_parts h.quads e he).2.2 g).le
    (Finset.sum_nonneg fun k _ => mul_self_nonneg _)

/-- A field without gradient that vanishes where the pressure is given is zero. -/
theorem poisson_definite (h : P.Ok) {q : ℕ → ℕ → ℝ} (hq : ∀ n d, q n d ≠ 0 → n < P.x.length ∧ d < 1)
    (hv : Vanishing P.pfixed q) (hne : ∃ n d, q n d ≠ 0) : 0 < poissonForm P q q := by
  have hsum : poissonForm P q q = (P.elements.map fun e => ∑ g, measure2 SF.square4 IC.gauss4Square (nodeCoords P.x e) g *
      ∑ k : Fin 2, derivAt P e q g k 0 * derivAt P e q g k 0).sum := rfl
  have hnn := poissonForm_nonneg h q
  refine lt_of_le_of_ne (by
    rw [hsum]
    refine List.sum_nonneg fun r hr => ?_
    obtain ⟨e, he, rfl⟩ := List.mem_map.1 hr
    exact hnn e he) fun h0 => ?_
  rw [hsum] at h0
  have hz := list_sum_zero_nonneg hnn h0.symm
  have hconst : ∀ e ∈ P.elements, ∀ m ∈ e, ∀ m' ∈ e, q m 0 = q m' 0 := by
    intro e he m hm m' hm'
    obtain ⟨hl, -, hpos⟩ := quads_parts h.quads e he
    have he0 := hz e he
    have hg : ∀ g k, interp (gradAt SF.square4 (nodeCoords P.x e) (IC.gauss4Square.points g) k) (nodeComp e q 0) = 0 := by
      intro g k
      have h1 := (Finset.sum_eq_zero_iff_of_nonneg fun g _ => mul_nonneg (hpos g).le
        (Finset.sum_nonneg fun k _ => mul_self_nonneg (derivAt P e q g k 0))).1 he0 g (Finset.mem_univ _)
      have h2 := (mul_eq_zero.1 h1).resolve_left (hpos g).ne'
      have h3 := (Finset.sum_eq_zero_iff_of_nonneg fun k _ => mul_self_nonneg (derivAt P e q g k 0)).1 h2 k
        (Finset.mem_univ _)
      exact mul_self_eq_zero.1 h3
    obtain ⟨i, hi⟩ := nodeComp_mem hl hm
    obtain ⟨j, hj⟩ := nodeComp_mem hl hm'
    rw [← hi q 0, ← hj q 0]
    exact square4_constant (regular_of_measure hpos) hg i j
  have hall : ∀ m, Anchored P.elements (P.pfixed.map Prod.fst) m → q m 0 = 0 := by
    intro m hm
    induction hm with
    | fixed hm =>
      obtain ⟨r, hr, e⟩ := List.mem_map.1 hm
      have := hv r hr
      rwa [e] at this
    | step he h1 h2 _ ih => rw [hconst _ he _ h1 _ h2, ih]
  obtain ⟨n, d, hnd⟩ := hne
  obtain ⟨hn, hd⟩ := hq n d hnd
  obtain rfl : d = 0 := by omega
  exact hnd (hall n (h.linked n hn))

theorem pressureResidual_zero (v : ℕ → ℕ → ℝ) (n d : ℕ) :
    pressureResidual P v 0 n d = P.rho / P.dt * divergenceWork P (unitField n d) v := by
  have : poissonForm P (unitField n d) 0 = 0 := by
    unfold poissonForm meshIntegral
    refine List.sum_eq_zero fun r hr => ?_
    obtain ⟨e, -, rfl⟩ := List.mem_map.1 hr
    refine Finset.sum_eq_zero fun g _ => ?_
    have : ∀ k, derivAt P e 0 g k 0 = 0 := fun k => by simp [derivAt, interp, nodeComp]
    simp only [this, mul_zero, Finset.sum_const_zero]
  rw [pressureResidual, this, zero_add]

theorem pressure_solve (h : P.Ok) {t : List (List ℤ)} (ht : Marks (freeTable P.x.length 1) P.pfixed t)
    {p : List (Vec ℝ)} (hp : PressureOf P p) {v : ℕ → ℕ → ℝ} {C : List ℕ → Matrix (Fin 4) (Fin 4) ℝ × (Fin 4 → ℝ)}
    (hC : ∀ e ∈ P.elements, PressureElement P v e (C e)) :
    (Solenoidal P v → solveStep useScalingCG p (renumbering t).1 (renumbering t).2
      (P.elements.flatMap fun e => prPair e (C e)) = none) ∧
    (¬ Solenoidal P v → ∃ p', solveStep useScalingCG p (renumbering t).1 (renumbering t).2
      (P.elements.flatMap fun e => prPair e (C e)) = some (p', true) ∧ PressureOf P p' ∧
        PressureSolved P v (valOf p')) := by
  set calls := P.elements.flatMap fun e => prPair e (C e) with hcalls
  have hfit : ∀ c ∈ calls, c.Fits t p := fun c hc => ht.fits (prCalls_fits h.quads hp.shaped c hc)
  have hres := prCalls_residual h.quads hC
  rw [← hcalls] at hres
  have hgiven : given p t [] = 0 := by
    rw [held_given p (freeTable P.x.length 1) P.pfixed t ht.isFree]
    funext n d
    unfold held
    split_ifs with hF
    · rfl
    · by_cases hm : (n, d) ∈ P.pfixed.map Prod.fst
      · obtain ⟨r, hr, e⟩ := List.mem_map.1 hm
        have := hp.boundary r hr
        rw [e] at this
        simp [valOf, this]
      · have : nodal p n d = none := by
          by_contra hc
          have := (hp.shaped.2 n d).1 (Option.isSome_iff_ne_none.2 hc)
          obtain ⟨h1, h2⟩ := freeTable_lt this
          exact hF (free_table.2 ⟨h1, h2, hm⟩)
        simp [valOf, this]
  have hzero := pressureResidual_zero (P := P) v
  have hcoef : P.rho / P.dt ≠ 0 := (div_pos h.density h.step).ne'
  have hfd := ht.freeDofs
  have hmem : ∀ q ∈ freeDofs t ([] : List ((ℕ × ℕ) × ℝ)), q.1 < P.x.length ∧ q.2 = 0 ∧
      (q.1, q.2) ∉ P.pfixed.map Prod.fst := by
    intro q hq
    rw [hfd] at hq
    have hf : IsFree (freeTable P.x.length 1) P.pfixed (q.1, q.2) := of_decide_eq_true (List.mem_filter.1 hq).2
    obtain ⟨h1, h2, h3⟩ := free_table.1 hf
    exact ⟨h1, by omega, h3⟩
  constructor
  · intro hS
    refine C108_unloaded useScalingCG useScalingCG_breaks p t [] calls hfit fun q hq => ?_
    obtain ⟨h1, h2, h3⟩ := hmem q hq
    rw [h2] at h3
    rw [hgiven, hres, hzero, h2, hS _ h1 h3, mul_zero]
  · intro hS
    obtain ⟨p', hsol⟩ := C108_succeeds useScalingCG useScalingCG_finds p t [] calls hfit (by simp)
      (fun q hq => by
        obtain ⟨h1, h2, -⟩ := hmem q hq
        rw [h2]
        exact shaped_some hp.shaped h1 (by norm_num))
      (prCalls_symm h.quads hC) (fun w hw hne => by
        rw [prCalls_energy h.quads hC]
        refine poisson_definite h (fun n d hnd => ?_) (fun r hr => ?_) hne
        · by_contra hc
          refine hnd (hw n d fun hF => hc ?_)
          obtain ⟨h1, h2, -⟩ := free_table.1 ((ht.isFree n d).1 hF)
          exact ⟨h1, h2⟩
        · refine hw _ _ fun hF => ?_
          exact (free_table.1 ((ht.isFree _ _).1 hF)).2.2 (List.mem_map.2 ⟨r, hr, rfl⟩))
      (by
        unfold Solenoidal at hS
        push Not at hS
        obtain ⟨n, h1, h2, h3⟩ := hS
        refine ⟨(n, 0), ?_, ?_⟩
        · rw [hfd]
          exact List.mem_filter.2 ⟨mem_allDofs (freeTable_isSome h1 (by norm_num)),
            decide_eq_true (free_table.2 ⟨h1, by norm_num, h2⟩)⟩
        · rw [hgiven, hres, hzero]
          exact mul_ne_zero hcoef h3)
      (by
        rw [hfd]
        exact le_trans free_table_length (by have := h.size; omega))
    obtain ⟨-, r2, r3⟩ := C108_result useScalingCG useScalingCG_certifies p p' t [] calls true hfit hsol
    refine ⟨p', hsol, ⟨analysis_shaped hp.shaped hsol, fun r hr => ?_⟩, ?_⟩
    · rw [r2 _ _ ?_ rfl, hp.boundary r hr]
      rw [ht.nums, if_pos (List.mem_map.2 ⟨r, hr, rfl⟩)]
    · have := r3.1 rfl
      rw [hgiven, hfd] at this
      unfold PressureSolved
      simpa only [dofNorm, hres] using this

/-! ### A time step -/

theorem decoupledStep_spec (h : P.Ok) {t t' : List (List ℤ)} (ht : Marks (freeTable P.x.length 2) P.ufixed t)
    (ht' : Marks (freeTable P.x.length 1) P.pfixed t') {f : Flow} (hf : f.Bounded P) :
    ∃ v, VelocityOf P v ∧ Predicted P (valOf f.u) (valOf v) ∧
      (Solenoidal P (valOf v) →
        decoupledStep P (renumbering t).1 (renumbering t).2 (renumbering t').1 (renumbering t').2 f = none) ∧
      (¬ Solenoidal P (valOf v) → ∃ f',
        decoupledStep P (renumbering t).1 (renumbering t).2 (renumbering t').1 (renumbering t').2 f = some (f', true) ∧
          f'.v = v ∧ f'.Bounded P ∧ DecoupledStep P f f') := by
  obtain ⟨G, a1, a2⟩ := auxiliaryCalls_eq h hf.u.shaped
  obtain ⟨v, b1, b2, b3⟩ := velocity_solve (w := f.u) h ht hf.v G
  obtain ⟨C, c1, c2⟩ := pressureCalls_eq h b2.shaped
  obtain ⟨d1, d2⟩ := pressure_solve h ht' hf.p c2
  have hpred : Predicted P (valOf f.u) (valOf v) := fun φ hφ => by
    rw [b3 φ hφ, a2]
    ring
  refine ⟨v, b2, hpred, fun hS => ?_, fun hS => ?_⟩
  · unfold decoupledStep
    simp only [Option.bind_eq_bind, a1, b1, c1, d1 hS, Option.bind_some, Option.bind_none]
  · obtain ⟨p, e1, e2, e3⟩ := d2 hS
    obtain ⟨G', k1, k2⟩ := nextstepCalls_eq h b2.shaped e2.shaped
    obtain ⟨u, l1, l2, l3⟩ := velocity_solve (w := v) h ht hf.u G'
    refine ⟨⟨v, u, p⟩, ?_, rfl, ⟨b2, l2, e2⟩, hpred, e3, fun φ hφ => ?_⟩
    · unfold decoupledStep
      simp only [Option.bind_eq_bind, a1, b1, c1, e1, k1, l1, Option.bind_some, Option.pure_def]
    · rw [l3 φ hφ, k2]
      ring

theorem lastValue_of_key {bc : List ((ℕ × ℕ) × ℝ)} {r : (ℕ × ℕ) × ℝ} (hr : r ∈ bc) :
    ∃ s ∈ bc, s.1 = r.1 ∧ lastValue bc r.1.1 r.1.2 = some s.2 := by
  have : (bc.reverse.find? fun p => decide (p.1 = (r.1.1, r.1.2))).isSome := by
    rw [List.find?_isSome]
    exact ⟨r, List.mem_reverse.2 hr, by simp⟩
  obtain ⟨s, hs⟩ := Option.isSome_iff_exists.1 this
  refine ⟨s, List.mem_reverse.1 (List.mem_of_find?_eq_some hs), by simpa using List.find?_some hs, ?_⟩
  unfold lastValue
  rw [hs]
  rfl

theorem dirichlet_spec {N k : ℕ} {u : List (Vec ℝ)} {t : List (List ℤ)} {bc : List ((ℕ × ℕ) × ℝ)}
    (hu : Shaped u (freeTable N k)) (ht : t.map List.length = (freeTable N k).map List.length)
    (hbc : ∀ r ∈ bc, r.1.1 < N ∧ r.1.2 < k) :
    ∃ v t', setDirichlet u t bc = some (v, t') ∧ Shaped v (freeTable N k) ∧ Marks t bc t' ∧
      ∀ n d, nodal v n d = (lastValue bc n d).or (nodal u n d) := by
  obtain ⟨⟨v, t'⟩, h1⟩ := Option.isSome_iff_exists.1 ((C21_defined u t bc).2 fun r hr => by
    have := hbc r hr
    have h2 := freeTable_isSome this.1 this.2
    exact ⟨(hu.2 _ _).2 h2, by rw [isSome_of_lengths ht]; exact h2⟩)
  obtain ⟨-, l, hs⟩ := C21_setDirichlet _ _ _ _ _ h1
  refine ⟨v, t', h1, ⟨l.trans hu.1, fun n d => ?_⟩, marks_dirichlet h1, fun n d => (hs n d).2⟩
  rw [(hs n d).2]
  cases hl : lastValue bc n d with
  | none => simpa using hu.2 n d
  | some a =>
    obtain ⟨r, hr, e⟩ := List.mem_map.1 (key_of_lastValue hl)
    have := hbc r hr
    rw [e] at this
    simpa using freeTable_isSome this.1 this.2

theorem decoupledStart_spec (h : P.Ok) : ∃ f t t', decoupledStart P = some (f, t, t') ∧ f.Bounded P ∧
    (∀ n d, lastValue P.ufixed n d = none → valOf f.u n d = 0) ∧
    Marks (freeTable P.x.length 2) P.ufixed t ∧ Marks (freeTable P.x.length 1) P.pfixed t' := by
  obtain ⟨v, t₁, a1, a2, a3, a4⟩ := dirichlet_spec (shaped_zeroField P.x.length 2) rfl h.ufixedRange
  obtain ⟨u, t₂, b1, b2, b3, b4⟩ := dirichlet_spec (shaped_zeroField P.x.length 2) a3.lengths h.ufixedRange
  obtain ⟨p, t', c1, c2, c3, c4⟩ := dirichlet_spec (shaped_zeroField P.x.length 1) rfl h.pfixedRange
  refine ⟨⟨v, u, p⟩, t₂, t', ?_, ⟨⟨a2, fun n d a ha => ?_⟩, ⟨b2, fun n d a ha => ?_⟩, c2, fun r hr => ?_⟩, fun n d hn => ?_,
    a3.again b3, c3⟩
  · unfold decoupledStart
    simp only [Option.bind_eq_bind, a1, b1, c1, Option.bind_some, Option.pure_def]
  · rw [a4, ha, Option.some_or]
  · rw [b4, ha, Option.some_or]
  · obtain ⟨s, hs, -, e⟩ := lastValue_of_key hr
    rw [c4, e, h.pfixedZero s hs, Option.some_or]
  · have := b4 n d
    rw [hn, Option.none_or] at this
    have h0 := zeroField_val P.x.length 2 n d
    unfold valOf
    dsimp only
    rw [this, h0]

end Pansfem
