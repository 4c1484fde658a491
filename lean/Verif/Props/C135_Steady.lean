/-
C135: the program of steady flow on any mesh that is not degenerate.
-/
import Verif.Spec.ProgramStokes
import Verif.Lemmas.StaticSemi
import Verif.Props.C128_Determined

noncomputable section

open Matrix

namespace Pansfem

variable {m n : ℕ}

namespace FlowMesh
variable {G : FlowMesh m n} {mu : ℝ} {f : (Fin 2 → ℝ) → Fin 2 → ℝ} {e : List ℕ × List ℕ}

/-- The energy of an element. -/
theorem steadyElem_spec (hG : G.Valid) (he : e ∈ G.elements) (mu : ℝ) (f : (Fin 2 → ℝ) → Fin 2 → ℝ) :
    ∃ cs, steadyElem G.sfu G.sfp G.ic G.x mu f e = some cs ∧
      (∀ c ∈ cs, c.Fits (freeTable G.x.length 3) (zeroField G.x.length 3)) ∧
      (∀ w v : ℕ → ℕ → ℝ, (cs.map fun c => callEnergy c w v).sum = ∑ g, measure2 G.sfp G.ic (G.coords e) g *
        (mu * ((∑ a : Fin 2, ∑ k : Fin 2, G.dvel e w g k a * G.dvel e v g k a) +
          (∑ k : Fin 2, G.dvel e w g k k) * ∑ k : Fin 2, G.dvel e v g k k) -
          G.pres e v g * (∑ k : Fin 2, G.dvel e w g k k) - G.pres e w g * ∑ k : Fin 2, G.dvel e v g k k)) ∧
      ∀ w : ℕ → ℕ → ℝ, (cs.map fun c => callLoad c w).sum = ∑ g, measure2 G.sfp G.ic (G.coords e) g *
        ∑ a : Fin 2, f (place (G.sfp.N (G.ic.points g)) (G.coords e)) a * G.vel e w g a := by
  have l1 := hG.lengthu e he
  have l2 := hG.lengthp e he
  obtain ⟨U, hU⟩ := Option.isSome_iff_exists.1 (gather_isSome (x := G.x) (d := 2) l1
    fun a ha j => hG.coords a (hG.nodesu e he a ha) j j.2)
  obtain ⟨X, hX⟩ := Option.isSome_iff_exists.1 (gather_isSome (x := G.x) (d := 2) l2
    fun a ha j => hG.coords a (hG.nodesp e he a ha) j j.2)
  obtain rfl := G.coords_gather hX
  obtain ⟨K, hK⟩ := exStokes_defined (sfu := G.sfu) (hG.regular e he) mu
  obtain ⟨F, hF⟩ : ∃ F, stokesBodyForce G.sfu G.sfp G.ic (G.coords e) f = some F := ⟨_, loop2J_eq_some.2 rfl⟩
  have hd : ∀ p : Flu m n, mixNode e p < G.x.length ∧ mixComp p < 3 := by
    intro p
    rcases p with (i | i) | j
    · have hi : (i : ℕ) < e.1.length := by rw [l1]; exact i.2
      simp only [mixNode, List.getElem?_eq_getElem hi, Option.getD_some]
      exact ⟨hG.nodesu e he _ (List.getElem_mem hi), by simp [mixComp]⟩
    · have hi : (i : ℕ) < e.1.length := by rw [l1]; exact i.2
      simp only [mixNode, List.getElem?_eq_getElem hi, Option.getD_some]
      exact ⟨hG.nodesu e he _ (List.getElem_mem hi), by simp [mixComp]⟩
    · have hi : (j : ℕ) < e.2.length := by rw [l2]; exact j.2
      simp only [mixNode, List.getElem?_eq_getElem hi, Option.getD_some]
      exact ⟨hG.nodesp e he _ (List.getElem_mem hi), by simp [mixComp]⟩
  have hfit : ∀ p : Flu m n, (dofNum (freeTable G.x.length 3) (mixNode e p) (mixComp p)).isSome ∧
      (nodal (zeroField G.x.length 3 : List (Vec ℝ)) (mixNode e p) (mixComp p)).isSome := fun p =>
    ⟨dofNum_free _ (hd p).1 _ (hd p).2, by rw [nodal_zeroField (hd p).1 (hd p).2]; rfl⟩
  refine ⟨[.fields (mixM K) [blockTable m, pressTable m n] [e.1, e.2], .load (mixV F) (blockTable m) e.1], ?_, ?_, ?_, ?_⟩
  · unfold steadyElem
    rw [hU, Option.bind_eq_bind, Option.bind_some,
      mixElemM_defined hG he (core := fun X => stokesStiffness G.sfu G.sfp G.ic X mu) hK]
    simp only [Option.bind_eq_bind, Option.bind_some, hX, hF, Option.pure_def]
  · intro c hc
    simp only [List.mem_cons, List.not_mem_nil, or_false] at hc
    rcases hc with rfl | rfl
    · exact mix_fits K l1 l2 hfit
    · exact (mix_load_fits F l1 l2 hfit).1
  · intro w v
    simp only [List.map_cons, List.map_nil, List.sum_cons, List.sum_nil, callEnergy_load, add_zero]
    rw [mix_energy K l1 l2, G.stokes_form hK]
  · intro w
    simp only [List.map_cons, List.map_nil, List.sum_cons, List.sum_nil, callLoad_fields, add_zero, zero_add]
    have h0 : callLoad (.load (mixV F) (pressTable m n) e.2) w = 0 := by
      unfold callLoad
      simp only [AsmCall.dofs, AsmCall.rhs]
      rw [localDofs_pressure l2, List.map_map]
      refine List.sum_eq_zero fun r hr => ?_
      obtain ⟨p, hp, rfl⟩ := List.mem_map.1 hr
      obtain ⟨j, -, rfl⟩ := List.mem_map.1 hp
      simp only [Function.comp_apply, mixDof]
      rw [mixV_entry, loop2J_eq_some.1 hF]
      simp [fluV, Finset.sum_apply]
    have h1 := mix_work F l1 l2 w
    rw [h0, add_zero] at h1
    rw [h1]
    have h2 := C88_stokesBodyForce f hF (fun i => w (e.1[(i : ℕ)]?.getD 0) 0) (fun i => w (e.1[(i : ℕ)]?.getD 0) 1)
      fun j => w (e.2[(j : ℕ)]?.getD 0) 2
    have h3 : mixField m n e w = fluV (fun i => w (e.1[(i : ℕ)]?.getD 0) 0) (fun i => w (e.1[(i : ℕ)]?.getD 0) 1)
        fun j => w (e.2[(j : ℕ)]?.getD 0) 2 := by
      funext p
      rcases p with (i | i) | j <;> rfl
    rw [h3, h2]
    refine Finset.sum_congr rfl fun g _ => ?_
    rw [Fin.sum_univ_two]
    rfl

/-- The calls of the program. -/
theorem steadyCalls_spec (hG : G.Valid) (mu : ℝ) (f : (Fin 2 → ℝ) → Fin 2 → ℝ) :
    ∃ calls, steadyCalls G.sfu G.sfp G.ic G.x G.elements mu f = some calls ∧
      (∀ c ∈ calls, c.Fits (freeTable G.x.length 3) (zeroField G.x.length 3)) ∧
      (∀ w v : ℕ → ℕ → ℝ, energy calls w v = G.laplace mu w v - G.expand v w - G.expand w v) ∧
      ∀ w : ℕ → ℕ → ℝ, (calls.map fun c => callLoad c w).sum = G.bodyWork f w := by
  haveI : Nonempty (List (AsmCall ℝ)) := ⟨[]⟩
  have key := fun e he => steadyElem_spec hG (e := e) he mu f
  choose! C hC using key
  refine ⟨(G.elements.map C).flatten, ?_, fun c hc => ?_, fun w v => ?_, fun w => ?_⟩
  · unfold steadyCalls
    rw [mapM_some fun e he => (hC e he).1]
    rfl
  · obtain ⟨l, hl, hc⟩ := List.mem_flatten.1 hc
    obtain ⟨e, he, rfl⟩ := List.mem_map.1 hl
    exact (hC e he).2.1 c hc
  · unfold laplace expand
    rw [integral_sub, integral_sub, energy_eq, List.map_flatten, List.sum_flatten, List.map_map, List.map_map]
    exact congrArg List.sum (List.map_congr_left fun e he => (hC e he).2.2.1 w v)
  · rw [List.map_flatten, List.sum_flatten, List.map_map, List.map_map]
    exact congrArg List.sum (List.map_congr_left fun e he => (hC e he).2.2.2 w)

end FlowMesh

section
variable {x : List (Vec ℝ)} {elements : List (List ℕ × List ℕ)} {bc : List ((ℕ × ℕ) × ℝ)} {mu : ℝ}
  {f : (Fin 2 → ℝ) → Fin 2 → ℝ}

/-- **C135**: the equations.  On a mesh that is not degenerate all element routines are defined, and the residual at a dof is the
weak form of steady flow tested with the field that is one there and zero elsewhere. -/
theorem C135_equations (hG : (steadyMesh x elements).Valid) (mu : ℝ) (f : (Fin 2 → ℝ) → Fin 2 → ℝ) :
    ∃ calls, steadyCalls SF.square8 SF.square4 IC.gauss9Square x elements mu f = some calls ∧
      (∀ c ∈ calls, c.Fits (freeTable x.length 3) (zeroField x.length 3)) ∧
      ∀ (v : ℕ → ℕ → ℝ) (a d : ℕ), residual calls v a d = (steadyMesh x elements).steady mu f v (unitField a d) := by
  obtain ⟨calls, h1, h2, h3, h4⟩ := FlowMesh.steadyCalls_spec hG mu f
  refine ⟨calls, h1, h2, fun v a d => ?_⟩
  rw [residual_eq, h3, h4]
  rfl

/-- **C135**: a run.  The result has the given values, and the solver reported convergence exactly if the norm of the residuals at
the free dofs is below `1e-10` times that of the given values alone. -/
theorem C135_run (hG : (steadyMesh x elements).Valid) {up : List (Vec ℝ)} {conv : Bool}
    (h : stokesStatic x elements bc mu f = some (up, conv)) :
    (∀ a d v, lastValue bc a d = some v → nodal up a d = some v) ∧
    (conv = true ↔ dofNorm (freeDofs (freeTable x.length 3) bc) (fun a d =>
        (steadyMesh x elements).steady mu f (valOf up) (unitField a d)) <
      1 / 10 ^ 10 * dofNorm (freeDofs (freeTable x.length 3) bc) fun a d =>
        (steadyMesh x elements).steady mu f (given (zeroField x.length 3) (freeTable x.length 3) bc) (unitField a d)) := by
  obtain ⟨calls, h1, h2, h3⟩ := C135_equations (x := x) hG mu f
  simp only [stokesStatic, h1, Option.bind_eq_bind, Option.bind_some] at h
  obtain ⟨a1, -, a3⟩ := C108_result useCG useCG_certifies _ up _ bc calls conv h2 h
  have e : ∀ w : ℕ → ℕ → ℝ, residual calls w = fun a d => (steadyMesh x elements).steady mu f w (unitField a d) :=
    fun w => funext fun a => funext fun d => h3 w a d
  rw [e, e] at a3
  exact ⟨a1, a3⟩

/-- **C135**: when only the solver can fail.  With a solver that never divides by zero the program returns. -/
theorem C135_answers (hG : (steadyMesh x elements).Valid) (s : LinSolver) (hs : s.Answers)
    (hbc : ∀ r ∈ bc, r.1.1 < x.length ∧ r.1.2 < 3) (mu : ℝ) (f : (Fin 2 → ℝ) → Fin 2 → ℝ) :
    ∃ calls up conv, steadyCalls SF.square8 SF.square4 IC.gauss9Square x elements mu f = some calls ∧
      staticAnalysis s (zeroField x.length 3) (freeTable x.length 3) bc calls = some (up, conv) := by
  obtain ⟨calls, h1, h2, -⟩ := C135_equations (x := x) hG mu f
  obtain ⟨⟨w, t₁⟩, h3⟩ := Option.isSome_iff_exists.1 ((C21_defined (zeroField x.length 3) (freeTable x.length 3) bc).2
    fun r hr => ⟨zeroField_isSome.2 (hbc r hr), dofNum_free _ (hbc r hr).1 _ (hbc r hr).2⟩)
  obtain ⟨-, -, hset⟩ := C21_setDirichlet _ w _ t₁ bc h3
  obtain ⟨v, c, h4⟩ := solveStep_answers hs (renumbering_numbered t₁) (fun c hc => fits_renumbered h3 (h2 c hc)) fun a d ha => by
    obtain ⟨b1, b2, -⟩ := free_table.1 ((numOf_renumbered h3 a d).1 ha)
    rw [(hset a d).2, nodal_zeroField b1 b2]
    cases lastValue bc a d <;> rfl
  refine ⟨calls, v, c, h1, ?_⟩
  unfold staticAnalysis
  simp only [h3, Option.bind_eq_bind, Option.bind_some, h4]

/-- **C135**: zero residuals at the free dofs mean the weak form for all test fields that vanish where values are given. -/
theorem C135_weak (hG : (steadyMesh x elements).Valid) {v : ℕ → ℕ → ℝ} :
    (∀ a d, IsFree (freeTable x.length 3) bc (a, d) → (steadyMesh x elements).steady mu f v (unitField a d) = 0) ↔
      ∀ w, Vanishing bc w → (steadyMesh x elements).steady mu f v w = 0 := by
  obtain ⟨calls, h1, h2, h3, h4⟩ := FlowMesh.steadyCalls_spec (G := steadyMesh x elements) hG mu f
  refine ⟨fun h w hw => ?_, fun h a d hf => h _ fun r hr => ?_⟩
  · have := residual_vanishing (bc := bc) (v := v) (w := w) h2 (fun a d hf => by
      rw [residual_eq, h3, h4]
      exact h a d hf) hw
    rw [h3, h4] at this
    exact sub_eq_zero.2 this
  · obtain ⟨-, -, h'⟩ := free_table.1 hf
    exact if_neg fun hc => h' (List.mem_map.2 ⟨r, hr, Prod.ext hc.1 hc.2⟩)

end

end Pansfem
