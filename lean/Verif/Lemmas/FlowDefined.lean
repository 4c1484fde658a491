/-
When the programs with velocities and pressure in one system are defined.
-/
import Verif.Lemmas.FlowLinear
import Verif.Props.C66_Stabilisation

noncomputable section

open Matrix

namespace Pansfem

variable {m n : ℕ}

/-! ### A step -/

theorem solveStep_answers {s : LinSolver} (hs : s.Answers) {u : List (Vec ℝ)} {t : List (List ℤ)} {N : ℕ}
    {calls : List (AsmCall ℝ)} (hN : Numbered t N) (h : ∀ c ∈ calls, c.Fits t u)
    (hu : ∀ n d, numOf t n d ≠ -1 → (nodal u n d).isSome) : ∃ u' conv, solveStep s u t N calls = some (u', conv) := by
  obtain ⟨A, F, h1, h2, h3, -⟩ := asmCalls_system hN h
  subst h3
  obtain ⟨M, s', h6, h7⟩ := csr_of_ok h2
  obtain ⟨x, conv, hx⟩ := hs _ M _ (fun i => F[(i : ℕ)]) h7
  obtain ⟨v, hv⟩ := C25_defined u (List.ofFn x) t (by
    intro n d g hg hne
    rcases hN n d g hg with h8 | h8
    · exact absurd h8 hne
    · exact ⟨h8.1, by simpa using h8.2, hu n d (by rw [numOf_some hg]; exact hne)⟩)
  refine ⟨v, conv, ?_⟩
  unfold solveStep
  simp only [h1, h6, Option.bind_eq_bind, Option.bind_some, hx, hv]
  rfl

theorem solveStep_length {s : LinSolver} {u u' : List (Vec ℝ)} {t : List (List ℤ)} {N : ℕ} {calls : List (AsmCall ℝ)}
    {conv : Bool} (h : solveStep s u t N calls = some (u', conv)) : u'.length = u.length := by
  unfold solveStep at h
  simp only [Option.bind_eq_bind, Option.bind_eq_some_iff, Option.pure_def, Option.some.injEq, Prod.mk.injEq,
    Prod.exists] at h
  obtain ⟨A, F, -, B, b, -, y, c, -, w, h2, rfl, -⟩ := h
  exact (C25_disassembling _ _ _ _ h2).1

theorem segment_defined {v : Vec ℝ} (h : ∀ d < 2, (v.at? ((d : ℕ) : ℤ)).isSome) : ∃ w, v.segment 0 2 = some w := by
  have h3 : 2 ≤ v.values.length := by
    have := h 1 (by norm_num)
    by_contra hc
    unfold Vec.at? at this
    rw [if_neg (by unfold Vec.size; omega)] at this
    simp at this
  unfold Vec.segment
  rw [if_pos ⟨by norm_num, by unfold Vec.size; exact_mod_cast h3, by norm_num⟩]
  have h0 : v.values[0]? = some (v.values[0]'(by omega)) := List.getElem?_eq_getElem _
  have h1 : v.values[1]? = some (v.values[1]'(by omega)) := List.getElem?_eq_getElem _
  rw [show ((2 : ℤ) - 0).toNat = 2 from rfl]
  simp only [Int.toNat_zero, Nat.zero_add, List.range_succ, List.range_zero, List.nil_append,
    List.cons_append, List.mapM_cons, List.mapM_nil, Option.bind_eq_bind, Option.pure_def, h0, h1, Option.bind_some]
  exact ⟨_, rfl⟩

theorem mapM_defined {α β : Type} {f : α → Option β} : ∀ {l : List α}, (∀ a ∈ l, ∃ b, f a = some b) → ∃ r, l.mapM f = some r := by
  intro l
  induction l with
  | nil => exact fun _ => ⟨[], rfl⟩
  | cons a l ih =>
    intro h
    obtain ⟨b, hb⟩ := h a (by simp)
    obtain ⟨r, hr⟩ := ih fun a ha => h a (by simp [ha])
    exact ⟨b :: r, by simp [List.mapM_cons, hb, hr]⟩

theorem velocities_defined {nodes : ℕ} {up : List (Vec ℝ)} (hl : up.length = nodes)
    (hu : SameDofs (zeroField nodes 3) up) : ∃ ubar, up.mapM (fun v => v.segment 0 2) = some ubar := by
  refine mapM_defined fun v hv => segment_defined fun d hd => ?_
  obtain ⟨j, hj, rfl⟩ := List.getElem_of_mem hv
  have := hu j d
  rw [nodal_zeroField (by omega) (by omega)] at this
  simpa [nodal, List.getElem?_eq_getElem hj] using this.symm

section
variable {nodes : ℕ} {bc : List ((ℕ × ℕ) × ℝ)} {dt theta : ℝ} {elements : List (List ℕ × List ℕ)}
  {f : List (Vec ℝ) → List ℕ × List ℕ → Option FlowItem} {extra : Option (List (AsmCall ℝ))}
  {F : (ℕ → ℕ → ℝ) → List ℕ × List ℕ → (ℕ → ℕ → ℝ) → (ℕ → ℕ → ℝ) → (ℕ → ℕ → ℝ) → ℝ} {L : (ℕ → ℕ → ℝ) → ℝ}

theorem flowSteps_answers {w : List (Vec ℝ)} {t₁ : List (List ℤ)} (s : LinSolver) (hs : s.Answers) (hdt : dt ≠ 0)
    (hset : setDirichlet (zeroField nodes 3) (freeTable nodes 3) bc = some (w, t₁))
    (hf : ∀ ubar, (∀ a d, (nodal ubar a d).isSome → a < nodes) → ∀ e ∈ elements, ∀ it, f ubar e = some it →
      FlowSound m n nodes dt theta e it (F (valOf ubar) e))
    (hd : ∀ ubar, (∀ a d, (nodal ubar a d).isSome ↔ a < nodes ∧ d < 2) → ∀ e ∈ elements, ∃ it, f ubar e = some it)
    {ex : List (AsmCall ℝ)} (hex : extra = some ex) (hL : LoadSound nodes ex L) :
    ∀ (steps : ℕ) (up ubar : List (Vec ℝ)), up.length = nodes → SameDofs (zeroField nodes 3) up →
      (∀ a d, (nodal ubar a d).isSome ↔ a < nodes ∧ d < 2) →
      ∃ up' conv, flowSteps s dt theta (fun b => elements.mapM (f b)) extra (renumbering t₁).1 (renumbering t₁).2 steps up ubar =
        some (up', conv) := by
  intro steps
  induction steps with
  | zero => exact fun up _ _ _ _ => ⟨up, true, rfl⟩
  | succ k ih =>
    intro up ubar hl hu hb
    obtain ⟨items, hi⟩ := mapM_defined (hd ubar hb)
    obtain ⟨calls, c1, c2, -⟩ := flow_calls (L := L) hdt hset hu (hf ubar fun a d h => ((hb a d).1 h).1) hi hL
    have h0 : setDirichlet up t₁ [] = some (up, t₁) := rfl
    obtain ⟨v, c, h1⟩ := solveStep_answers hs (renumbering_numbered t₁) (fun c hc => fits_renumbered h0 (c2 c hc))
      fun a d ha => by
        have h2 := ((isFree_marked hset a d).1 ((numOf_renumbered h0 a d).1 ha)).1
        obtain ⟨h3, h4⟩ := freeTable_lt (show (dofNum (freeTable nodes 3) a d).isSome by rw [dofNum_of_numOf h2]; rfl)
        rw [← hu, nodal_zeroField h3 h4]
        rfl
    have hv : SameDofs (zeroField nodes 3) v := fun a d => by rw [hu, solveStep_same h1]
    obtain ⟨vb, h2⟩ := velocities_defined ((solveStep_length h1).trans hl) hv
    obtain ⟨up', c', h3⟩ := ih v vb ((solveStep_length h1).trans hl) hv fun a d => by
      rw [nodal_velocity h2]
      split_ifs with hc
      · rw [← hv, zeroField_isSome]
        omega
      · simp [hc]
    refine ⟨up', c && c', ?_⟩
    unfold flowSteps flowStep
    rw [hex] at h3 ⊢
    simp only [hi, c1, h1, h2, h3, Option.bind_eq_bind, Option.bind_some, Option.pure_def]

/-- With a solver that answers the programs return. -/
theorem flow_answers (s : LinSolver) (hs : s.Answers) (hdt : dt ≠ 0)
    (hf : ∀ ubar, (∀ a d, (nodal ubar a d).isSome → a < nodes) → ∀ e ∈ elements, ∀ it, f ubar e = some it →
      FlowSound m n nodes dt theta e it (F (valOf ubar) e))
    (hd : ∀ ubar, (∀ a d, (nodal ubar a d).isSome ↔ a < nodes ∧ d < 2) → ∀ e ∈ elements, ∃ it, f ubar e = some it)
    {ex : List (AsmCall ℝ)} (hex : extra = some ex) (hL : LoadSound nodes ex L)
    (hbc : ∀ r ∈ bc, r.1.1 < nodes ∧ r.1.2 < 3) (steps : ℕ) :
    ∃ up conv, flowAnalysis s dt theta (fun b => elements.mapM (f b)) extra nodes bc steps = some (up, conv) := by
  obtain ⟨⟨w, t₁⟩, h1⟩ := Option.isSome_iff_exists.1 ((C21_defined (zeroField nodes 3) (freeTable nodes 3) bc).2 fun r hr =>
    ⟨zeroField_isSome.2 (hbc r hr), dofNum_free _ (hbc r hr).1 _ (hbc r hr).2⟩)
  obtain ⟨up, conv, h2⟩ := flowSteps_answers s hs hdt h1 hf hd hex hL steps w (zeroField nodes 2)
    (by rw [(C21_setDirichlet _ _ _ _ _ h1).2.1]; simp [zeroField]) (setDirichlet_same h1) fun a d => zeroField_isSome
  refine ⟨up, conv, ?_⟩
  unfold flowAnalysis
  simp only [h1, Option.bind_eq_bind, Option.bind_some, h2]

/-- From rest, with all given values zero and no loads, a solver that divides zero by zero does so. -/
theorem flow_rest (s : LinSolver) (hs : s.Breaks) (hdt : dt ≠ 0)
    (hf : ∀ ubar, (∀ a d, (nodal ubar a d).isSome → a < nodes) → ∀ e ∈ elements, ∀ it, f ubar e = some it →
      FlowSound m n nodes dt theta e it (F (valOf ubar) e))
    (hF : ∀ b, ∀ e ∈ elements, ∀ w, F b e 0 0 w = 0) (hL : ∀ w, L w = 0)
    (hex : ∀ ex, extra = some ex → LoadSound nodes ex L)
    (hbc : ∀ a d c, lastValue bc a d = some c → c = 0) (steps : ℕ) :
    flowAnalysis s dt theta (fun b => elements.mapM (f b)) extra nodes bc (steps + 1) = none := by
  by_contra hne
  obtain ⟨r, hr⟩ := Option.ne_none_iff_exists'.1 hne
  unfold flowAnalysis flowSteps flowStep at hr
  simp only [Option.bind_eq_bind, Option.bind_eq_some_iff, Prod.exists] at hr
  obtain ⟨w, t₁, h1, v, vb, c, ⟨items, hi, calls, hc, ex, hx, up', c', h2, -⟩, -⟩ := hr
  have hw : valOf w = 0 := by
    funext a d
    unfold valOf
    rw [((C21_setDirichlet _ _ _ _ _ h1).2.2 a d).2]
    cases hl : lastValue bc a d with
    | none => exact zeroField_val nodes 3 a d
    | some c => rw [hbc a d c hl]; rfl
  obtain ⟨calls', c1, c2, c3, -⟩ := flow_calls hdt h1 (setDirichlet_same h1)
    (hf (zeroField nodes 2) fun a d hd => (zeroField_isSome.1 hd).1) hi (hex ex hx)
  obtain rfl := Option.some.inj (hc.symm.trans c1)
  have h0 : setDirichlet w t₁ [] = some (w, t₁) := rfl
  have := C108_unloaded s hs w t₁ [] (calls ++ ex) c2 fun p _ => by
    rw [c3, hL, sub_zero, held_given w _ bc t₁ (isFree_marked h1), hw]
    have : held (freeTable nodes 3) bc (0 : ℕ → ℕ → ℝ) = 0 := by
      funext a d
      simp [held]
    rw [this]
    refine List.sum_eq_zero fun y hy => ?_
    obtain ⟨e, he, rfl⟩ := List.mem_map.1 hy
    exact hF _ e he _
  unfold staticAnalysis at this
  simp only [h0, Option.bind_eq_bind, Option.bind_some] at this
  rw [this] at h2
  exact absurd h2 (by simp)

end

/-! ### Element routines -/

namespace FlowMesh
variable {G : FlowMesh m n} {e : List ℕ × List ℕ}

theorem mixElemM_defined (hG : G.Valid) (he : e ∈ G.elements)
    {core : Matrix (Fin n) (Fin 2) ℝ → Option (Matrix (Flu m n) (Flu m n) ℝ)} {B : Matrix (Flu m n) (Flu m n) ℝ}
    (h : core (G.coords e) = some B) : mixElemM core e [0, 1, 2] G.x = some (mixM B, blockTable m, pressTable m n) := by
  obtain ⟨X, hX⟩ := Option.isSome_iff_exists.1 (gather_isSome (x := G.x) (d := 2) (hG.lengthp e he)
    fun a ha j => hG.coords a (hG.nodesp e he a ha) j j.2)
  obtain rfl := G.coords_gather hX
  unfold mixElemM
  rw [if_pos (hG.lengthu e he), blocked_eq, hG.lengthu e he, hG.lengthp e he]
  simp [hX, h]

theorem stokesMass_defined (rho : ℝ) : ∃ M, stokesMass G.sfu G.sfp G.ic (G.coords e) rho = some M :=
  ⟨_, loop2J_eq_some.2 rfl⟩

theorem continuity_defined (hG : G.Valid) (he : e ∈ G.elements) :
    ∃ C, continuity G.sfu G.sfp G.ic (G.coords e) = some C := by
  unfold continuity
  exact ⟨_, loopF_some.2 ⟨hG.regular e he, rfl⟩⟩

theorem galerkinItem_defined (hG : G.Valid) (he : e ∈ G.elements) (rho mu : ℝ) {ubar : List (Vec ℝ)}
    (hb : ∀ a d, (nodal ubar a d).isSome ↔ a < G.x.length ∧ d < 2) : ∃ it, G.galerkinItem rho mu ubar e = some it := by
  obtain ⟨U, hU⟩ := Option.isSome_iff_exists.1 (gather_isSome (x := ubar) (d := 2) (hG.lengthu e he)
    fun a ha j => (hb a j).2 ⟨hG.nodesu e he a ha, j.2⟩)
  obtain ⟨K, hK⟩ := exNs_defined (sfu := G.sfu) (hG.regular e he) U rho mu
  obtain ⟨M, hM⟩ := stokesMass_defined (G := G) (e := e) rho
  obtain ⟨C, hC⟩ := continuity_defined hG he
  unfold galerkinItem
  rw [hU, Option.bind_eq_bind, Option.bind_some]
  rw [mixElemM_defined hG he (core := fun X => nsStiffness G.sfu G.sfp G.ic X U rho mu) hK,
    mixElemM_defined hG he (core := fun X => stokesMass G.sfu G.sfp G.ic X rho) hM,
    mixElemM_defined hG he (core := fun X => continuity G.sfu G.sfp G.ic X) hC]
  exact ⟨_, rfl⟩

theorem stokesItem_defined (hG : G.Valid) (he : e ∈ G.elements) (rho mu : ℝ) : ∃ it, G.stokesItem rho mu e = some it := by
  obtain ⟨U, hU⟩ := Option.isSome_iff_exists.1 (gather_isSome (x := G.x) (d := 2) (hG.lengthu e he)
    fun a ha j => hG.coords a (hG.nodesu e he a ha) j j.2)
  obtain ⟨K, hK⟩ := exStokes_defined (sfu := G.sfu) (hG.regular e he) mu
  obtain ⟨M, hM⟩ := stokesMass_defined (G := G) (e := e) rho
  unfold stokesItem
  rw [hU, Option.bind_eq_bind, Option.bind_some]
  rw [mixElemM_defined hG he (core := fun X => stokesStiffness G.sfu G.sfp G.ic X mu) hK,
    mixElemM_defined hG he (core := fun X => stokesMass G.sfu G.sfp G.ic X rho) hM]
  exact ⟨_, rfl⟩

end FlowMesh

end Pansfem
