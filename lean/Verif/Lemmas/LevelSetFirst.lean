/-
The first update of the level set function.
-/
import Verif.Lemmas.ProgramLevelSet
import Verif.Props.C81_Homogenization

noncomputable section

open Matrix

namespace Pansfem

/-- The shape functions are positive at the points of the rule. -/
theorem square4_pos (g : Fin IC.gauss4Square.N) (i : Fin 4) :
    0 < (SF.square4 : SF ℝ 2 4).N (IC.gauss4Square.points g) i := by
  have h0 := abs_lt.1 (gauss4_coord g 0).2
  have h1 := abs_lt.1 (gauss4_coord g 1).2
  have a1 : 0 < 1 - IC.gauss4Square.points g 0 := by linarith
  have a2 : 0 < 1 + IC.gauss4Square.points g 0 := by linarith
  have a3 : 0 < 1 - IC.gauss4Square.points g 1 := by linarith
  have a4 : 0 < 1 + IC.gauss4Square.points g 1 := by linarith
  fin_cases i <;> simp [SF.square4] <;> positivity

theorem interp_nonneg (g : Fin IC.gauss4Square.N) {v : Fin 4 → ℝ} (h : ∀ i, 0 ≤ v i) :
    0 ≤ interp ((SF.square4 : SF ℝ 2 4).N (IC.gauss4Square.points g)) v := by
  rw [interp_eq]
  exact Finset.sum_nonneg fun i _ => mul_nonneg (h i) (square4_pos g i).le

/-- The mass matrices, tested with any field. -/
theorem reaction_mass {x : List (Vec ℝ)} {elements : List (List ℕ)} {D : ℝ} {f : ℝ → (Fin 2 → ℝ) → ℝ} {u : List (Vec ℝ)}
    {items : List (TimeItem ℝ)} (h : reactionItems x elements D f u = some items) (w v : ℕ → ℕ → ℝ) :
    energy (items.map TimeItem.mass) w v = (elements.map fun e => ∑ g,
      measure2 SF.square4 IC.gauss4Square (nodeCoords x e) g *
        (interp (SF.square4.N (IC.gauss4Square.points g)) (nodeValues 4 e w) *
          interp (SF.square4.N (IC.gauss4Square.points g)) (nodeValues 4 e v))).sum := by
  rw [energy_eq, List.map_map]
  refine congrArg List.sum (mapM_map (reactionItems_eq.symm.trans h) fun e he it h1 => ?_)
  obtain ⟨A, B, F, hs, hF, hA, hB, -⟩ := (reactionItem_some h1).body
  simp only [Function.comp_apply]
  rw [hs.mass_call, scalar_energy _ (gather_length hs.coords), C88_rdConsistentMass hB]

/-- The source vectors, tested with any field. -/
theorem reaction_source {x : List (Vec ℝ)} {elements : List (List ℕ)} {D : ℝ} {f : ℝ → (Fin 2 → ℝ) → ℝ}
    {u : List (Vec ℝ)} {items : List (TimeItem ℝ)} (h : reactionItems x elements D f u = some items) (w : ℕ → ℕ → ℝ) :
    ((items.map TimeItem.source).map fun c => callLoad c w).sum = (elements.map fun e => ∑ g,
      measure2 SF.square4 IC.gauss4Square (nodeCoords x e) g *
        (f (interp (SF.square4.N (IC.gauss4Square.points g)) (nodeValues 4 e (valOf u)))
          (fun k => interp (gradAt SF.square4 (nodeCoords x e) (IC.gauss4Square.points g) k) (nodeValues 4 e (valOf u))) *
          interp (SF.square4.N (IC.gauss4Square.points g)) (nodeValues 4 e w))).sum := by
  rw [List.map_map]
  refine congrArg List.sum (mapM_map (reactionItems_eq.symm.trans h) fun e he it h1 => ?_)
  obtain ⟨A, B, F, hs, hF, hA, hB, hR⟩ := (reactionItem_some h1).body
  simp only [Function.comp_apply]
  rw [TimeItem.source, hF, hs.nte, hs.element, Option.getD_some, load_work (k := 1) (dl := [0]) (gather_length hs.coords) rfl]
  have : localField (n := 4) (k := 1) [0] e w ⬝ᵥ (fun p => F p.1) = nodeValues 4 e w ⬝ᵥ F := by
    simp [dotProduct, Fintype.sum_prod_type, localField, nodeValues]
  rw [this, C88_reaction hR]

/-- If the function is 1 at a node and its neighbours, none of them fixed, and the time step is small, the right-hand
side does not vanish at that node. -/
theorem level_moves {P : LevelSetProgram} (h : P.Ok) {q : LevelSetPass} (hq : ScalarField P.x.length q.phi)
    (hv : q.value.Sound P q.t q.str) {m : ℕ} (hm : m < P.x.length)
    (hfree : ∀ e ∈ P.elements, m ∈ e → ∀ k ∈ e, bordered P q.phi k 0 = 1)
    (hl : P.dt * (P.elements.length * q.value.lambda) < q.value.TDN.sum) : ¬ LevelSetStalls P q := by
  rintro ⟨items, hi, hz⟩
  have hl' : q.value.TDN.length = P.x.length := by rw [hv.averaged, List.length_ofFn]
  obtain ⟨e₀, he₀, hme₀⟩ := h.used m hm
  have hm1 := hfree e₀ he₀ hme₀ m hme₀
  have hmf : (m, 0) ∉ P.phifixed.map Prod.fst := by
    intro hf
    rw [bordered, if_pos hf] at hm1
    norm_num at hm1
  set w : ℕ → ℕ → ℝ := fun n d => if n = m ∧ d = 0 then 1 else 0 with hw
  have hs := reaction_sound hi (u₀ := q.phi) fun n hn => (hq.shaped.2 n 0).2 (freeTable_isSome hn (by norm_num))
  have hwork := timeResidual_work hs P.dt 1 (bordered P q.phi) 0 w
  have hzero : ((allDofs (freeTable P.x.length 1)).map fun p =>
      w p.1 p.2 * timeResidual items P.dt 1 (bordered P q.phi) 0 p.1 p.2).sum = 0 := by
    refine List.sum_eq_zero fun r hr => ?_
    obtain ⟨p, hp, rfl⟩ := List.mem_map.1 hr
    by_cases hpm : p.1 = m ∧ p.2 = 0
    · rw [hz p, mul_zero]
      refine List.mem_filter.2 ⟨hp, decide_eq_true ?_⟩
      obtain ⟨p1, p2⟩ := p
      obtain ⟨rfl, rfl⟩ := hpm
      exact free_table.2 ⟨hm, by norm_num, hmf⟩
    · simp only [hw, if_neg hpm, zero_mul]
  have e0 : ((1 : ℝ) • (0 : ℕ → ℕ → ℝ) + (1 - 1 : ℝ) • bordered P q.phi) = 0 := by simp
  have e1 : energy (items.map TimeItem.stiff) w 0 = 0 := by rw [← energyForm_apply, map_zero]
  have e2 : energy (items.map TimeItem.mass) w (P.dt⁻¹ • (0 - bordered P q.phi)) =
      - (P.dt⁻¹ * energy (items.map TimeItem.mass) w (bordered P q.phi)) := by
    simp only [← energyForm_apply, map_smul, map_sub, map_zero, smul_eq_mul]
    ring
  rw [hzero, e0, e1, e2, reaction_mass hi, reaction_source hi, ← List.sum_map_mul_left] at hwork
  have hC : 0 < q.value.TDN.sum := hv.signs.2.2
  have hdt := h.step
  have hT : ∀ e ∈ P.elements, ∀ i, 0 ≤ nodeValues 4 e (valOf (q.value.TDN.map fun a => (⟨[a]⟩ : Vec ℝ))) i := by
    intro e he i
    have hu : ∀ n, 0 ≤ valOf (q.value.TDN.map fun a => (⟨[a]⟩ : Vec ℝ)) n 0 := by
      intro n
      show 0 ≤ (nodal _ n 0).getD 0
      unfold nodal
      rw [List.getElem?_map]
      by_cases hn : n < q.value.TDN.length
      · rw [List.getElem?_eq_getElem hn]
        exact hv.signs.2.1 _ (List.getElem_mem hn)
      · rw [List.getElem?_eq_none (by omega)]
        exact le_rfl
    exact hu _
  have key : ∀ e ∈ P.elements, 0 ≤ (P.dt⁻¹ * ∑ g, measure2 SF.square4 IC.gauss4Square (nodeCoords P.x e) g *
        (interp (SF.square4.N (IC.gauss4Square.points g)) (nodeValues 4 e w) *
          interp (SF.square4.N (IC.gauss4Square.points g)) (nodeValues 4 e (bordered P q.phi))) +
      ∑ g, measure2 SF.square4 IC.gauss4Square (nodeCoords P.x e) g *
        (P.elements.length / q.value.TDN.sum * (interp (SF.square4.N (IC.gauss4Square.points g)) (nodeValues 4 e
          (valOf (q.value.TDN.map fun a => (⟨[a]⟩ : Vec ℝ)))) - q.value.lambda) *
          interp (SF.square4.N (IC.gauss4Square.points g)) (nodeValues 4 e w))) ∧
      (m ∈ e → 0 < (P.dt⁻¹ * ∑ g, measure2 SF.square4 IC.gauss4Square (nodeCoords P.x e) g *
        (interp (SF.square4.N (IC.gauss4Square.points g)) (nodeValues 4 e w) *
          interp (SF.square4.N (IC.gauss4Square.points g)) (nodeValues 4 e (bordered P q.phi))) +
      ∑ g, measure2 SF.square4 IC.gauss4Square (nodeCoords P.x e) g *
        (P.elements.length / q.value.TDN.sum * (interp (SF.square4.N (IC.gauss4Square.points g)) (nodeValues 4 e
          (valOf (q.value.TDN.map fun a => (⟨[a]⟩ : Vec ℝ)))) - q.value.lambda) *
          interp (SF.square4.N (IC.gauss4Square.points g)) (nodeValues 4 e w)))) := by
    intro e he
    obtain ⟨p1, p2, p3⟩ := quads_parts h.quads e he
    have hw0 : ∀ i, 0 ≤ nodeValues 4 e w i := by
      intro i
      simp only [nodeValues, hw]
      split_ifs <;> norm_num
    by_cases hme : m ∈ e
    · have hpos : 0 < (P.dt⁻¹ * ∑ g, measure2 SF.square4 IC.gauss4Square (nodeCoords P.x e) g *
          (interp (SF.square4.N (IC.gauss4Square.points g)) (nodeValues 4 e w) *
            interp (SF.square4.N (IC.gauss4Square.points g)) (nodeValues 4 e (bordered P q.phi))) +
          ∑ g, measure2 SF.square4 IC.gauss4Square (nodeCoords P.x e) g *
          (P.elements.length / q.value.TDN.sum * (interp (SF.square4.N (IC.gauss4Square.points g)) (nodeValues 4 e
            (valOf (q.value.TDN.map fun a => (⟨[a]⟩ : Vec ℝ)))) - q.value.lambda) *
            interp (SF.square4.N (IC.gauss4Square.points g)) (nodeValues 4 e w))) := by
        have hone : nodeValues 4 e (bordered P q.phi) = fun _ => 1 := by
          funext i
          have hi4 : (i : ℕ) < e.length := by rw [p1]; exact i.2
          simp only [nodeValues, List.getElem?_eq_getElem hi4, Option.getD_some]
          exact hfree e he hme _ (List.getElem_mem hi4)
        rw [Finset.mul_sum, ← Finset.sum_add_distrib, hone]
        refine Finset.sum_pos (fun g _ => ?_) ⟨(0 : Fin 4), Finset.mem_univ _⟩
        rw [interp_one]
        have t1 := interp_nonneg g (hT e he)
        generalize interp _ (nodeValues 4 e (valOf (q.value.TDN.map fun a => (⟨[a]⟩ : Vec ℝ)))) = T at t1 ⊢
        have t2 : 0 < interp ((SF.square4 : SF ℝ 2 4).N (IC.gauss4Square.points g)) (nodeValues 4 e w) := by
          obtain ⟨k, hk, hke⟩ := List.getElem_of_mem hme
          rw [interp_eq]
          refine Finset.sum_pos' (fun i _ => mul_nonneg (hw0 i) (square4_pos g i).le)
            ⟨⟨k, by omega⟩, Finset.mem_univ _, mul_pos ?_ (square4_pos g _)⟩
          simp [nodeValues, hw, List.getElem?_eq_getElem hk, hke]
        generalize interp _ (nodeValues 4 e w) = W at t2 ⊢
        have t3 := p3 g
        generalize measure2 _ _ _ g = μ at t3 ⊢
        have t4 : 0 < P.dt⁻¹ + P.elements.length / q.value.TDN.sum * (T - q.value.lambda) := by
          have a1 : 0 ≤ P.elements.length / q.value.TDN.sum * T := by positivity
          have a2 : P.elements.length / q.value.TDN.sum * q.value.lambda < P.dt⁻¹ := by
            rw [div_mul_eq_mul_div, div_lt_iff₀ hC, inv_mul_eq_div, lt_div_iff₀ hdt]
            linarith
          linarith
        have := mul_pos (mul_pos t3 t2) t4
        calc (0 : ℝ) < _ := this
          _ = _ := by ring
      exact ⟨hpos.le, fun _ => hpos⟩
    · have hz0 : nodeValues 4 e w = fun _ => 0 := by
        funext i
        have hi4 : (i : ℕ) < e.length := by rw [p1]; exact i.2
        simp only [nodeValues, List.getElem?_eq_getElem hi4, Option.getD_some, hw]
        rw [if_neg]
        rintro ⟨rfl, -⟩
        exact hme (List.getElem_mem hi4)
      have hi0 : ∀ g, interp ((SF.square4 : SF ℝ 2 4).N (IC.gauss4Square.points g)) (nodeValues 4 e w) = 0 := by
        intro g
        rw [hz0, interp_eq]
        simp [dotProduct]
      simp only [hi0, zero_mul, mul_zero, Finset.sum_const_zero, add_zero]
      exact ⟨le_rfl, fun hc => absurd hc hme⟩
  have hsum : (P.elements.map fun e => P.dt⁻¹ * ∑ g, measure2 SF.square4 IC.gauss4Square (nodeCoords P.x e) g *
        (interp (SF.square4.N (IC.gauss4Square.points g)) (nodeValues 4 e w) *
          interp (SF.square4.N (IC.gauss4Square.points g)) (nodeValues 4 e (bordered P q.phi))) +
      ∑ g, measure2 SF.square4 IC.gauss4Square (nodeCoords P.x e) g *
        (P.elements.length / q.value.TDN.sum * (interp (SF.square4.N (IC.gauss4Square.points g)) (nodeValues 4 e
          (valOf (q.value.TDN.map fun a => (⟨[a]⟩ : Vec ℝ)))) - q.value.lambda) *
          interp (SF.square4.N (IC.gauss4Square.points g)) (nodeValues 4 e w))).sum = 0 := by
    rw [List.sum_map_add]
    linarith
  have := (nonneg_sum_zero (by
    intro a ha
    obtain ⟨e, he, rfl⟩ := List.mem_map.1 ha
    exact (key e he).1)).1 hsum _ (List.mem_map_of_mem he₀)
  exact absurd this ((key e₀ he₀).2 hme₀).ne'

end Pansfem
