/-
C112 for the reaction-diffusion program.
-/
import Verif.Props.C112_Programs
import Verif.Lemmas.Quads

namespace Pansfem

open Matrix

/-! ### Content and reaction of a field -/

/-- The integral of a field over the mesh: the integration rule applied to the interpolated values. -/
noncomputable def fieldContent (x : List (Vec ℝ)) (elements : List (List ℕ)) (v : ℕ → ℕ → ℝ) : ℝ :=
  (elements.map fun e => ∑ g, measure2 SF.square4 IC.gauss4Square (nodeCoords x e) g *
    interp (SF.square4.N (IC.gauss4Square.points g)) (nodeValues 4 e v)).sum

/-- The integral of the reaction over the mesh: the integration rule applied to the reaction of the interpolated values
and gradients. -/
noncomputable def fieldReaction (x : List (Vec ℝ)) (elements : List (List ℕ)) (f : ℝ → (Fin 2 → ℝ) → ℝ)
    (v : ℕ → ℕ → ℝ) : ℝ :=
  (elements.map fun e => ∑ g, measure2 SF.square4 IC.gauss4Square (nodeCoords x e) g *
    f (interp (SF.square4.N (IC.gauss4Square.points g)) (nodeValues 4 e v))
      (fun k => interp (gradAt SF.square4 (nodeCoords x e) (IC.gauss4Square.points g) k) (nodeValues 4 e v))).sum

theorem gather_values {u : List (Vec ℝ)} {e : List ℕ} {U : Matrix (Fin 4) (Fin 1) ℝ} (h : gather u e 4 1 = some U) :
    (fun i => U i 0) = nodeValues 4 e (valOf u) := by
  funext i
  have hl := gather_length h
  have hi : (i : ℕ) < e.length := by rw [hl]; exact i.2
  have h1 := gather_entry h i 0
  rw [List.getElem?_eq_getElem hi] at h1
  unfold nodeValues
  rw [List.getElem?_eq_getElem hi, Option.getD_some]
  show _ = (nodal u e[(i : ℕ)] 0).getD 0
  rw [show nodal u e[(i : ℕ)] 0 = _ from h1]
  rfl

theorem mapM_map {α β γ : Type} {f : α → Option β} {g : β → γ} {h : α → γ} {l : List α} {l' : List β}
    (hm : l.mapM f = some l') (hgh : ∀ a ∈ l, ∀ b, f a = some b → g b = h a) : l'.map g = l.map h := by
  induction l generalizing l' with
  | nil => simp only [List.mapM_nil, Option.pure_def, Option.some.injEq] at hm; subst hm; rfl
  | cons a l ih =>
    simp only [List.mapM_cons, Option.pure_def, Option.bind_eq_bind, Option.bind_eq_some_iff, Option.some.injEq] at hm
    obtain ⟨b, hb, bs, hbs, rfl⟩ := hm
    rw [List.map_cons, List.map_cons, hgh a (by simp) b hb, ih hbs fun c hc => hgh c (by simp [hc])]

section
variable {x : List (Vec ℝ)} {elements : List (List ℕ)} {D : ℝ} {f : ℝ → (Fin 2 → ℝ) → ℝ} {u : List (Vec ℝ)}
  {items : List (TimeItem ℝ)}

/-- What an element of the loop is. -/
structure ReactionItem (x : List (Vec ℝ)) (D : ℝ) (f : ℝ → (Fin 2 → ℝ) → ℝ) (u : List (Vec ℝ)) (e : List ℕ)
    (it : TimeItem ℝ) : Prop where
  body : ∃ A B F, ScalarItem x e (nodeCoords x e) B A it ∧
    it.Fe = some (flatV (n := 4) (k := 1) fun p => F p.1) ∧
    rdStiffness SF.square4 IC.gauss4Square (nodeCoords x e) D = some A ∧
    rdConsistentMass SF.square4 IC.gauss4Square (nodeCoords x e) = some B ∧
    rdReaction SF.square4 IC.gauss4Square (nodeCoords x e) (nodeValues 4 e (valOf u)) f = some F

/-- The element of the loop. -/
noncomputable def reactionItem (x : List (Vec ℝ)) (D : ℝ) (f : ℝ → (Fin 2 → ℝ) → ℝ) (u : List (Vec ℝ)) (e : List ℕ) :
    Option (TimeItem ℝ) := do
  let (Me, _) ← elemM 1 (scalarCore fun X => rdConsistentMass SF.square4 IC.gauss4Square X) e [0] x
  let (Ke, _) ← elemM 1 (scalarCore fun X => rdStiffness SF.square4 IC.gauss4Square X D) e [0] x
  let U ← gather u e 4 1
  let (Fe, nte) ← elemV 1 (fun X => (rdReaction SF.square4 IC.gauss4Square X (fun i => U i 0) f).map
    fun w p => w p.1) e [0] x
  return ⟨Me, Ke, some Fe, nte, e⟩

theorem reactionItem_some {e : List ℕ} {it : TimeItem ℝ} (h : reactionItem x D f u e = some it) :
    ReactionItem x D f u e it := by
  simp only [reactionItem, Option.bind_eq_bind, Option.pure_def, Option.bind_eq_some_iff, Prod.exists,
    Option.some.injEq] at h
  obtain ⟨Me, n1, h1, Ke, n2, h2, U, hU, Fe, n3, h3, rfl⟩ := h
  obtain ⟨-, X, B', hX, hB, rfl, rfl⟩ := elemM_eq_some.1 h1
  obtain ⟨-, X', A', hX', hA, rfl, rfl⟩ := elemM_eq_some.1 h2
  obtain ⟨-, X'', F', hX'', hF, rfl, rfl⟩ := elemV_eq_some.1 h3
  obtain rfl := Option.some.inj (hX.symm.trans hX')
  obtain rfl := Option.some.inj (hX.symm.trans hX'')
  obtain ⟨A, hA', rfl⟩ := Option.map_eq_some_iff.1 hA
  obtain ⟨B, hB', rfl⟩ := Option.map_eq_some_iff.1 hB
  obtain ⟨F, hF', rfl⟩ := Option.map_eq_some_iff.1 hF
  rw [gather_values hU] at hF'
  obtain rfl := gather_coords hX
  exact ⟨A, B, F, ⟨hX, rfl, rfl, rfl, rfl⟩, rfl, hA', hB', hF'⟩

theorem reactionItems_eq : reactionItems x elements D f u = elements.mapM (reactionItem x D f u) := rfl

theorem reaction_sound (h : reactionItems x elements D f u = some items) {u₀ : List (Vec ℝ)}
    (hu : ∀ m < x.length, (nodal u₀ m 0).isSome) : ∀ it ∈ items, it.Sound (freeTable x.length 1) u₀ := by
  intro it hit
  obtain ⟨e, he, h1⟩ := mapM_mem (reactionItems_eq.symm.trans h) it hit
  obtain ⟨A, B, F, hs, hF, -⟩ := (reactionItem_some h1).body
  refine hs.sound hu fun g hg => ?_
  rw [hF] at hg
  obtain rfl := Option.some.inj hg
  simp [flatV, Vec.size]

/-- The stiffness matrices do no work on constant fields. -/
theorem reaction_constant (h : reactionItems x elements D f u = some items) (w : ℕ → ℕ → ℝ) :
    energy (items.map TimeItem.stiff) (fun _ _ => 1) w = 0 := by
  rw [energy_eq, List.map_map]
  refine List.sum_eq_zero fun r hr => ?_
  obtain ⟨it, hit, rfl⟩ := List.mem_map.1 hr
  obtain ⟨e, he, h1⟩ := mapM_mem (reactionItems_eq.symm.trans h) it hit
  obtain ⟨A, B, F, hs, hF, hA, -⟩ := (reactionItem_some h1).body
  simp only [Function.comp_apply]
  rw [hs.stiff_call, scalar_energy _ (gather_length hs.coords), dotProduct_mulVec, ← mulVec_transpose,
    C32_diffusion hA, show nodeValues 4 e (fun _ _ => 1) = fun _ => 1 from rfl,
    C33_diffusion complete_square4 hA, zero_dotProduct]

theorem interp_one (r : Fin 2 → ℝ) : interp ((SF.square4 : SF ℝ 2 4).N r) (fun _ => 1) = 1 := by
  rw [interp_eq]
  have := partition_square4 (K := ℝ) r
  simpa [dotProduct] using this

/-- The mass matrices give the content. -/
theorem reaction_content (h : reactionItems x elements D f u = some items) (v : ℕ → ℕ → ℝ) :
    energy (items.map TimeItem.mass) (fun _ _ => 1) v = fieldContent x elements v := by
  rw [energy_eq, List.map_map]
  refine congrArg List.sum (mapM_map (reactionItems_eq.symm.trans h) fun e he it h1 => ?_)
  obtain ⟨A, B, F, hs, hF, hA, hB, -⟩ := (reactionItem_some h1).body
  simp only [Function.comp_apply]
  rw [hs.mass_call, scalar_energy _ (gather_length hs.coords), C88_rdConsistentMass hB]
  refine Finset.sum_congr rfl fun g _ => ?_
  rw [show nodeValues 4 e (fun _ _ => 1) = fun _ => 1 from rfl, interp_one, one_mul]

/-- The source vectors give the reaction. -/
theorem reaction_load (h : reactionItems x elements D f u = some items) :
    ((items.map TimeItem.source).map fun c => callLoad c (fun _ _ => 1)).sum = fieldReaction x elements f (valOf u) := by
  rw [List.map_map]
  refine congrArg List.sum (mapM_map (reactionItems_eq.symm.trans h) fun e he it h1 => ?_)
  obtain ⟨A, B, F, hs, hF, hA, hB, hR⟩ := (reactionItem_some h1).body
  simp only [Function.comp_apply]
  rw [TimeItem.source, hF, hs.nte, hs.element, Option.getD_some, load_work (k := 1) (dl := [0]) (gather_length hs.coords) rfl]
  have : localField (n := 4) (k := 1) [0] e (fun _ _ => (1 : ℝ)) ⬝ᵥ (fun p => F p.1) = (fun _ => 1) ⬝ᵥ F := by
    simp [dotProduct, Fintype.sum_prod_type, localField]
  rw [this, C88_reaction hR]
  refine Finset.sum_congr rfl fun g _ => ?_
  rw [interp_one, mul_one]

end

/-- **C112**: a run of the reaction-diffusion program: initial field and equation of each step. -/
theorem C112_reaction_run (x : List (Vec ℝ)) (elements : List (List ℕ)) (D dt theta : ℝ) (hdt : dt ≠ 0)
    (f : ℝ → (Fin 2 → ℝ) → ℝ) (u₀ : List (Vec ℝ)) (hu : ∀ m < x.length, (nodal u₀ m 0).isSome) (steps : ℕ)
    (T : List (Vec ℝ)) (conv : Bool) (h : reactionDiffusion x elements D dt theta f u₀ steps = some (T, conv)) :
    ∃ U : ℕ → List (Vec ℝ), (∀ n d, nodal (U 0) n d = nodal u₀ n d) ∧ U steps = T ∧
      (conv = true ↔ ∀ k < steps, ∀ items, reactionItems x elements D f (U k) = some items →
        StepMet items dt theta (freeTable x.length 1) [] (valOf (U k)) (valOf (U (k + 1)))) := by
  obtain ⟨U, h1, h2, -, -, h5⟩ := C112_run useScalingCG useScalingCG_certifies false dt theta hdt _ _ T _ [] steps conv
    (fun u items _ hi => reaction_sound hi hu) h
  exact ⟨U, fun n d => by rw [h1]; rfl, h2, h5⟩

/-- **C112**: an exact step of the reaction-diffusion program changes the content of the field by `dt` times the
integral of the reaction at the old field: diffusion neither adds nor removes anything. -/
theorem C112_reaction_content (x : List (Vec ℝ)) (elements : List (List ℕ)) (D dt theta : ℝ) (hdt : dt ≠ 0)
    (f : ℝ → (Fin 2 → ℝ) → ℝ) (u : List (Vec ℝ)) (hu : ∀ m < x.length, (nodal u m 0).isSome)
    (items : List (TimeItem ℝ)) (hi : reactionItems x elements D f u = some items) (v : ℕ → ℕ → ℝ)
    (h : ExactStep items dt theta (freeTable x.length 1) [] (valOf u) v) :
    fieldContent x elements v = fieldContent x elements (valOf u) + dt * fieldReaction x elements f (valOf u) := by
  rw [← reaction_content hi, ← reaction_content hi, ← reaction_load hi]
  refine C112_content items dt theta _ u [] hdt (reaction_sound hi hu) _ _ v (fun p hp hf => absurd ?_ hf)
    (reaction_constant hi) h
  rw [free_table]
  have := mem_allDofs_iff.1 hp
  exact ⟨freeTable_lt this |>.1, freeTable_lt this |>.2, by simp⟩

/-- **C112**: a constant field at which the reaction vanishes is a solution of the time step of the reaction-diffusion
program. -/
theorem C112_reaction_equilibrium (x : List (Vec ℝ)) (elements : List (List ℕ)) (D dt theta : ℝ)
    (f : ℝ → (Fin 2 → ℝ) → ℝ) (u : List (Vec ℝ)) (c : ℝ) (hc : f c 0 = 0)
    (hu : ∀ e ∈ elements, ∀ m ∈ e, nodal u m 0 = some c) (items : List (TimeItem ℝ))
    (hi : reactionItems x elements D f u = some items) :
    ExactStep items dt theta (freeTable x.length 1) [] (valOf u) (valOf u) := by
  rw [← steady_exact dt theta]
  have hcst : ∀ e ∈ elements, e.length = 4 → nodeValues 4 e (valOf u) = fun _ => c := by
    intro e he hl
    funext i
    have hi : (i : ℕ) < e.length := by rw [hl]; exact i.2
    unfold nodeValues
    rw [List.getElem?_eq_getElem hi, Option.getD_some]
    show (nodal u e[(i : ℕ)] 0).getD 0 = c
    rw [hu e he _ (List.getElem_mem hi)]
    rfl
  have e1 : ∀ n d, residual (items.map TimeItem.stiff) (valOf u) n d = 0 := by
    intro n d
    rw [residual_eq, energy_eq, List.map_map, List.map_map, List.sum_eq_zero, List.sum_eq_zero, sub_zero]
    · intro r hr
      obtain ⟨it, hit, rfl⟩ := List.mem_map.1 hr
      simp [callLoad, TimeItem.stiff, AsmCall.rhs]
    · intro r hr
      obtain ⟨it, hit, rfl⟩ := List.mem_map.1 hr
      obtain ⟨e, he, h1⟩ := mapM_mem (reactionItems_eq.symm.trans hi) it hit
      obtain ⟨A, B, F, hs, hF, hA, -⟩ := (reactionItem_some h1).body
      simp only [Function.comp_apply]
      rw [hs.stiff_call, scalar_energy _ (gather_length hs.coords), hcst e he (gather_length hs.coords),
        C33_diffusion complete_square4 hA, dotProduct_zero]
  have e2 : ∀ n d, loadAt (items.map TimeItem.source) n d = 0 := by
    intro n d
    have : loadAt (items.map TimeItem.source) n d =
        ((items.map TimeItem.source).map fun c => callLoad c (unitField n d)).sum := by
      simp [loadAt, callLoad, unitField]
    rw [this, List.map_map]
    refine List.sum_eq_zero fun r hr => ?_
    obtain ⟨it, hit, rfl⟩ := List.mem_map.1 hr
    obtain ⟨e, he, h1⟩ := mapM_mem (reactionItems_eq.symm.trans hi) it hit
    obtain ⟨A, B, F, hs, hF, hA, hB, hR⟩ := (reactionItem_some h1).body
    simp only [Function.comp_apply]
    rw [TimeItem.source, hF, hs.nte, hs.element, Option.getD_some, load_work (k := 1) (dl := [0]) (gather_length hs.coords) rfl]
    have hF0 : F = 0 := by
      rw [hcst e he (gather_length hs.coords), rdReaction, loop2_some] at hR
      rw [hR.2]
      refine Finset.sum_eq_zero fun g _ => ?_
      have e1 : ∀ r, (SF.square4 : SF ℝ 2 4).N r ⬝ᵥ (fun _ => c) = c := by
        intro r
        rw [dotProduct, ← Finset.sum_mul, partition_square4 r, one_mul]
      have e2 : ∀ r, gradAt SF.square4 (nodeCoords x e) r *ᵥ (fun _ => c) = 0 := by
        intro r
        ext k
        simp only [Matrix.mulVec, dotProduct, ← Finset.sum_mul, sum_gradAt complete_square4, zero_mul, Pi.zero_apply]
      rw [e1, e2, hc, zero_smul, smul_zero]
    rw [hF0]
    simp [dotProduct]
  intro p _
  rw [e1, e2]

/-! ### Convex quadrilaterals -/

section
variable {x : List (Vec ℝ)} {elements : List (List ℕ)} {D : ℝ} {f : ℝ → (Fin 2 → ℝ) → ℝ} {u : List (Vec ℝ)}
  {items : List (TimeItem ℝ)}

theorem reactionItems_isSome (hQ : Quads x elements) (hu : ∀ m < x.length, (nodal u m 0).isSome) :
    (reactionItems x elements D f u).isSome := by
  rw [reactionItems_eq]
  refine mapM_isSome fun e he => ?_
  obtain ⟨h1, h2, h3⟩ := quads_parts hQ e he
  obtain ⟨X, hX⟩ := Option.isSome_iff_exists.1 (gather_isSome (n := 4) (d := 2) h1 fun m hm j => h2 m hm j j.2)
  obtain ⟨U, hU⟩ := Option.isSome_iff_exists.1 (gather_isSome (x := u) (n := 4) (d := 1) h1 fun m hm j => by
    have hj : (j : ℕ) = 0 := by omega
    rw [hj]
    exact hu m (nodal_lt (h2 m hm 0 (by norm_num))))
  have hr : Regular SF.square4 IC.gauss4Square X := by
    rw [gather_coords hX]; exact regular_of_measure h3
  unfold reactionItem
  rw [(elemM_eq_some (k := 1) (dl := [0])
      (core := scalarCore fun X => rdConsistentMass SF.square4 IC.gauss4Square X)).2
      ⟨rfl, X, _, hX, by rw [scalarCore, rdConsistentMass, loop2_some.2 ⟨hr, rfl⟩]; rfl, rfl, rfl⟩,
    (elemM_eq_some (k := 1) (dl := [0])
      (core := scalarCore fun X => rdStiffness SF.square4 IC.gauss4Square X D)).2
      ⟨rfl, X, _, hX, by rw [scalarCore, rdStiffness_eq_some.2 ⟨hr, rfl⟩]; rfl, rfl, rfl⟩]
  simp only [Option.bind_eq_bind, Option.bind_some, hU]
  rw [(elemV_eq_some (k := 1) (dl := [0])).2
    ⟨rfl, X, _, hX, by rw [rdReaction, loop2_some.2 ⟨hr, rfl⟩]; rfl, rfl, rfl⟩]
  rfl

/-- The matrices of the program. -/
theorem reaction_matrices (hQ : Quads x elements) (hD : 0 ≤ D) (h : reactionItems x elements D f u = some items) :
    SymmetricCalls (items.map TimeItem.mass) ∧ SymmetricCalls (items.map TimeItem.stiff) ∧
    ∀ it ∈ items, ∀ v, 0 ≤ callEnergy it.mass v v ∧ 0 ≤ callEnergy it.stiff v v ∧
      (callEnergy it.mass v v = 0 → ∀ m ∈ it.element, v m 0 = 0) := by
  refine ⟨symmetricCalls_map fun it hit => ?_, symmetricCalls_map fun it hit => ?_, fun it hit v => ?_⟩
  all_goals
    obtain ⟨e, he, h1⟩ := mapM_mem (reactionItems_eq.symm.trans h) it hit
    obtain ⟨A, B, F, hs, hF, hA, hB, hR⟩ := (reactionItem_some h1).body
  · rw [hs.mass_call]
    exact scalar_symm hs.coords (C32_rdConsistentMass hB)
  · rw [hs.stiff_call]
    exact scalar_symm hs.coords (C32_diffusion hA)
  · have hl := gather_length hs.coords
    have hpos := (quads_parts hQ e he).2.2
    rw [hs.mass_call, hs.stiff_call, hs.element, scalar_energy _ hl, scalar_energy _ hl]
    refine ⟨C34_rdConsistentMass (fun g => (hpos g).le) hB _, C34_diffusion (fun g => (hpos g).le) hD hA _,
      fun hz m hm => ?_⟩
    rw [C88_rdConsistentMass hB, Finset.sum_eq_zero_iff_of_nonneg fun g _ =>
      mul_nonneg (hpos g).le (mul_self_nonneg _)] at hz
    have h0 := square4_zero fun g => mul_self_eq_zero.1
      ((mul_eq_zero.1 (hz g (Finset.mem_univ g))).resolve_left (hpos g).ne')
    obtain ⟨i, hi, rfl⟩ := List.mem_iff_getElem.1 hm
    have h2 := congrFun h0 ⟨i, by omega⟩
    simp only [nodeValues, Pi.zero_apply] at h2
    rw [List.getElem?_eq_getElem hi] at h2
    exact h2

/-- The matrix of a time step is positive if every node belongs to an element. -/
theorem reaction_positive (hQ : Quads x elements) (hD : 0 ≤ D) {dt theta : ℝ} (hdt : 0 < dt) (hth : 0 ≤ theta)
    (huse : ∀ m < x.length, ∃ e ∈ elements, m ∈ e) (hi : reactionItems x elements D f u = some items)
    (v : ℕ → ℕ → ℝ) (hv : ∀ n d, ¬ IsFree (freeTable x.length 1) ([] : List ((ℕ × ℕ) × ℝ)) (n, d) → v n d = 0)
    (hne : ∃ n d, v n d ≠ 0) :
    0 < energy (items.map TimeItem.mass) v v / dt + theta * energy (items.map TimeItem.stiff) v v := by
  obtain ⟨-, -, s⟩ := reaction_matrices hQ hD hi
  have hk : 0 ≤ energy (items.map TimeItem.stiff) v v := energy_nonneg_map fun it hit => (s it hit v).2.1
  have hm : 0 < energy (items.map TimeItem.mass) v v := by
    refine energy_pos (fun c hc => ?_) fun hall => ?_
    · obtain ⟨it, hit, rfl⟩ := List.mem_map.1 hc
      exact (s it hit v).1
    · obtain ⟨m, j, hmj⟩ := hne
      refine hmj ?_
      by_cases hmm : m < x.length ∧ j < 1
      · have hj : j = 0 := by omega
        subst hj
        obtain ⟨e, he, hme⟩ := huse m hmm.1
        obtain ⟨it, hit, h1⟩ := mapM_mem_of (reactionItems_eq.symm.trans hi) e he
        obtain ⟨A, B, F, hs, -⟩ := (reactionItem_some h1).body
        exact (s it hit v).2.2 (hall _ (List.mem_map.2 ⟨it, hit, rfl⟩)) m (by rw [hs.element]; exact hme)
      · exact hv m j fun hc => hmm ⟨(free_table.1 hc).1, (free_table.1 hc).2.1⟩
  have := mul_nonneg hth hk
  have := div_pos hm hdt
  linarith

end

/-- **C112**: a step of the reaction-diffusion program on convex quadrilaterals that cover all nodes.  The elements are
computed, there is exactly one exact step, and the program finds its new field unless the right-hand side vanishes. -/
theorem C112_reaction_solves (x : List (Vec ℝ)) (elements : List (List ℕ)) (D dt theta : ℝ)
    (f : ℝ → (Fin 2 → ℝ) → ℝ) (hQ : Quads x elements) (huse : ∀ m < x.length, ∃ e ∈ elements, m ∈ e) (hD : 0 ≤ D)
    (hdt : 0 < dt) (hth : 0 ≤ theta) (hN : x.length ≤ 100000) (u : List (Vec ℝ))
    (hu : ∀ m < x.length, (nodal u m 0).isSome) :
    ∃ items, reactionItems x elements D f u = some items ∧
      (∃! v, ExactStep items dt theta (freeTable x.length 1) [] (valOf u) v) ∧
      ((∃ p ∈ freeDofs (freeTable x.length 1) ([] : List ((ℕ × ℕ) × ℝ)),
          timeResidual items dt theta (valOf u) (held (freeTable x.length 1) [] (valOf u)) p.1 p.2 ≠ 0) →
        ∃ u', thetaStep useScalingCG false dt theta (reactionItems x elements D f)
          (renumbering (freeTable x.length 1)).1 (renumbering (freeTable x.length 1)).2 u = some (u', true)) := by
  obtain ⟨items, hi⟩ := Option.isSome_iff_exists.1 (reactionItems_isSome (D := D) (f := f) hQ hu)
  have hs := reaction_sound hi hu
  have hpos := reaction_positive hQ hD hdt hth huse hi
  refine ⟨items, hi, C112_exact items dt theta _ u [] hs hpos _, fun hload => ?_⟩
  obtain ⟨s2, s3, -⟩ := reaction_matrices hQ hD hi
  obtain ⟨calls, c1, c2, c3, c4, c5⟩ := thetaCalls_spec (theta := theta) false hdt.ne' hs
  obtain ⟨u', hsol⟩ := C108_succeeds useScalingCG useScalingCG_finds u (freeTable x.length 1) [] calls c2 (by simp)
    (fun p hp => by
      have hf : IsFree (freeTable x.length 1) ([] : List ((ℕ × ℕ) × ℝ)) (p.1, p.2) :=
        of_decide_eq_true (List.mem_filter.1 hp).2
      obtain ⟨h1, h2, -⟩ := free_table.1 hf
      have h3 : p.2 = 0 := by omega
      rw [h3]
      exact hu _ h1)
    (c5 s2 s3) (fun v hv hne => by rw [c4]; exact hpos v hv hne)
    (by
      rw [held_given u (freeTable x.length 1) [] (freeTable x.length 1) fun _ _ => Iff.rfl]
      obtain ⟨p, hp, hne⟩ := hload
      exact ⟨p, hp, by rw [c3]; exact hne⟩)
    (le_trans free_table_length (by omega))
  refine ⟨u', ?_⟩
  unfold thetaStep
  simp only [hi, c1, Option.bind_eq_bind, Option.bind_some]
  exact hsol

/-- **C112**: the mesh of the program.  The rectangle meshes of `SquareMesh` are such meshes. -/
theorem C112_reaction_mesh (m : SquareMesh ℝ) (hx : 0 < m.nx) (hy : 0 < m.ny) (h1 : 0 < m.x) (h2 : 0 < m.y) :
    ∃ nodes elements, m.nodes = some nodes ∧ SquareMesh.elements m.nx m.ny = some elements ∧
      (asVectors nodes).length = (m.nx + 1) * (m.ny + 1) ∧ Quads (asVectors nodes) elements ∧
      ∀ n < (asVectors nodes).length, ∃ e ∈ elements, n ∈ e := by
  obtain ⟨nodes, elements, e1, e2, e3⟩ := C52_ccw m hx hy h1 h2
  obtain ⟨elements', edges, e4, -, -, -, e5⟩ := C52_mesh m.nx m.ny hx hy
  obtain ⟨nodes', e6, e7, -⟩ := C52_nodes m hx hy
  obtain rfl := Option.some.inj (e1.symm.trans e6)
  obtain rfl := Option.some.inj (e2.symm.trans e4)
  have hl : (asVectors nodes).length = (m.nx + 1) * (m.ny + 1) := by rw [asVectors, List.length_map, e7]
  exact ⟨nodes, elements, e1, e2, hl, convex_quads e3, fun n hn => e5.used n (by rw [← hl]; exact hn)⟩

/-! ### The program's own mesh and reaction -/

/-- The logistic reaction of the program on its own mesh: the unit square in 100 by 100 elements. -/
example : ∃ nodes elements, (⟨1, 1, 100, 100⟩ : SquareMesh ℝ).nodes = some nodes ∧
    SquareMesh.elements 100 100 = some elements ∧ ∀ u : List (Vec ℝ), (∀ m < 10201, (nodal u m 0).isSome) →
      ∃ items, reactionItems (asVectors nodes) elements 1 (fun u _ => u * (1 - u)) u = some items ∧
        ∃ v, ExactStep items (1 / 100) (1 / 2) (freeTable (asVectors nodes).length 1) [] (valOf u) v ∧
          fieldContent (asVectors nodes) elements v = fieldContent (asVectors nodes) elements (valOf u) +
            1 / 100 * fieldReaction (asVectors nodes) elements (fun u _ => u * (1 - u)) (valOf u) := by
  obtain ⟨nodes, elements, e1, e2, hl, hQ, huse⟩ := C112_reaction_mesh ⟨1, 1, 100, 100⟩ (by norm_num) (by norm_num)
    one_pos one_pos
  have hl : (asVectors nodes).length = 10201 := hl
  refine ⟨nodes, elements, e1, e2, fun u hu => ?_⟩
  have hu' : ∀ m < (asVectors nodes).length, (nodal u m 0).isSome := by rw [hl]; exact hu
  obtain ⟨items, hi, ⟨v, hv, -⟩, -⟩ := C112_reaction_solves (asVectors nodes) elements 1 (1 / 100) (1 / 2)
    (fun u _ => u * (1 - u)) hQ huse zero_le_one (by norm_num) (by norm_num) (by rw [hl]; norm_num) u hu'
  exact ⟨items, hi, v, hv, C112_reaction_content _ _ 1 (1 / 100) (1 / 2) (by norm_num) _ u hu' items hi v hv⟩

/-- The saturated field stays. -/
example : ∃ nodes elements, (⟨1, 1, 100, 100⟩ : SquareMesh ℝ).nodes = some nodes ∧
    SquareMesh.elements 100 100 = some elements ∧ ∃ items,
      reactionItems (asVectors nodes) elements 1 (fun u _ => u * (1 - u)) (List.replicate 10201 ⟨[1]⟩) = some items ∧
        ExactStep items (1 / 100) (1 / 2) (freeTable (asVectors nodes).length 1) []
          (valOf (List.replicate 10201 ⟨[1]⟩)) (valOf (List.replicate 10201 ⟨[1]⟩)) := by
  obtain ⟨nodes, elements, e1, e2, hl, hQ, huse⟩ := C112_reaction_mesh ⟨1, 1, 100, 100⟩ (by norm_num) (by norm_num)
    one_pos one_pos
  have hl : (asVectors nodes).length = 10201 := hl
  have hu : ∀ N, ∀ m < N, nodal (List.replicate N (⟨[1]⟩ : Vec ℝ)) m 0 = some 1 := by
    intro N m hm
    simp [nodal, hm, List.getElem?_replicate, Vec.at?, Vec.size]
  obtain ⟨items, hi⟩ := Option.isSome_iff_exists.1 (reactionItems_isSome (x := asVectors nodes) (elements := elements)
    (D := 1) (f := fun u _ => u * (1 - u)) (u := List.replicate 10201 ⟨[1]⟩) hQ (by
      rw [hl]; intro m hm; rw [hu _ m hm]; rfl))
  refine ⟨nodes, elements, e1, e2, items, hi, C112_reaction_equilibrium _ _ 1 _ _ _ _ 1 (by norm_num) ?_ items hi⟩
  intro e he m hm
  exact hu _ m (by rw [← hl]; exact nodal_lt ((quads_parts hQ e he).2.1 m hm 0 (by norm_num)))

end Pansfem
