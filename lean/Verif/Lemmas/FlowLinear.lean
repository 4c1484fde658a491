/-
The integrals of the programs with velocities and pressure in one system are linear in each argument; loads.
-/
import Verif.Lemmas.FlowForms

noncomputable section

open Matrix

namespace Pansfem

variable {m n : ℕ}

namespace FlowMesh
variable (G : FlowMesh m n) (e : List ℕ × List ℕ) (g : Fin G.ic.N) (u v w : ℕ → ℕ → ℝ) (c : ℝ)

theorem vel_add (a : ℕ) : G.vel e (v + w) g a = G.vel e v g a + G.vel e w g a := by
  simp only [vel, interp, Pi.add_apply, mul_add, Finset.sum_add_distrib]

theorem vel_sub (a : ℕ) : G.vel e (v - w) g a = G.vel e v g a - G.vel e w g a := by
  simp only [vel, interp, Pi.sub_apply, mul_sub, Finset.sum_sub_distrib]

theorem vel_smul (a : ℕ) : G.vel e (c • v) g a = c * G.vel e v g a := by
  simp only [vel, interp, Pi.smul_apply, smul_eq_mul, Finset.mul_sum, mul_left_comm]

theorem dvel_add (k : Fin 2) (a : ℕ) : G.dvel e (v + w) g k a = G.dvel e v g k a + G.dvel e w g k a := by
  simp only [dvel, interp, Pi.add_apply, mul_add, Finset.sum_add_distrib]

theorem dvel_sub (k : Fin 2) (a : ℕ) : G.dvel e (v - w) g k a = G.dvel e v g k a - G.dvel e w g k a := by
  simp only [dvel, interp, Pi.sub_apply, mul_sub, Finset.sum_sub_distrib]

theorem dvel_smul (k : Fin 2) (a : ℕ) : G.dvel e (c • v) g k a = c * G.dvel e v g k a := by
  simp only [dvel, interp, Pi.smul_apply, smul_eq_mul, Finset.mul_sum, mul_left_comm]

theorem pres_add : G.pres e (v + w) g = G.pres e v g + G.pres e w g := by
  simp only [pres, interp, Pi.add_apply, mul_add, Finset.sum_add_distrib]

theorem pres_sub : G.pres e (v - w) g = G.pres e v g - G.pres e w g := by
  simp only [pres, interp, Pi.sub_apply, mul_sub, Finset.sum_sub_distrib]

theorem pres_smul : G.pres e (c • v) g = c * G.pres e v g := by
  simp only [pres, interp, Pi.smul_apply, smul_eq_mul, Finset.mul_sum, mul_left_comm]

theorem dpres_add (k : Fin 2) : G.dpres e (v + w) g k = G.dpres e v g k + G.dpres e w g k := by
  simp only [dpres, interp, Pi.add_apply, mul_add, Finset.sum_add_distrib]

theorem dpres_smul (k : Fin 2) : G.dpres e (c • v) g k = c * G.dpres e v g k := by
  simp only [dpres, interp, Pi.smul_apply, smul_eq_mul, Finset.mul_sum, mul_left_comm]

variable {G}

theorem integral_congr {f h : List ℕ × List ℕ → Fin G.ic.N → ℝ} (H : ∀ e ∈ G.elements, ∀ g, f e g = h e g) :
    G.integral f = G.integral h := by
  unfold integral
  refine congrArg List.sum (List.map_congr_left fun e he => ?_)
  exact Finset.sum_congr rfl fun g _ => by rw [H e he g]

theorem integral_nonneg (hG : G.Positive) {f : List ℕ × List ℕ → Fin G.ic.N → ℝ}
    (H : ∀ e ∈ G.elements, ∀ g, 0 ≤ f e g) : 0 ≤ G.integral f := by
  unfold integral
  refine List.sum_nonneg fun y hy => ?_
  obtain ⟨e, he, rfl⟩ := List.mem_map.1 hy
  exact Finset.sum_nonneg fun g _ => mul_nonneg (hG e he g).le (H e he g)

/-- A sum of terms that are not negative vanishes only with all of them. -/
theorem integral_eq_zero (hG : G.Positive) {f : List ℕ × List ℕ → Fin G.ic.N → ℝ}
    (H : ∀ e ∈ G.elements, ∀ g, 0 ≤ f e g) (h0 : G.integral f ≤ 0) : ∀ e ∈ G.elements, ∀ g, f e g = 0 := by
  intro e he g
  have hn : ∀ e' ∈ G.elements, 0 ≤ ∑ g, measure2 G.sfp G.ic (G.coords e') g * f e' g := fun e' he' =>
    Finset.sum_nonneg fun g _ => mul_nonneg (hG e' he' g).le (H e' he' g)
  have h1 : ∑ g, measure2 G.sfp G.ic (G.coords e) g * f e g ≤ 0 := by
    refine le_trans ?_ h0
    unfold integral
    refine List.single_le_sum (fun y hy => ?_) _ (List.mem_map.2 ⟨e, he, rfl⟩)
    obtain ⟨e', he', rfl⟩ := List.mem_map.1 hy
    exact hn e' he'
  have h2 := (Finset.sum_eq_zero_iff_of_nonneg fun g _ => mul_nonneg (hG e he g).le (H e he g)).1
    (le_antisymm h1 (hn e he)) g (Finset.mem_univ g)
  exact (mul_eq_zero.1 h2).resolve_left (hG e he g).ne'

variable (G)

theorem expand_add_right (q : ℕ → ℕ → ℝ) : G.expand q (v + w) = G.expand q v + G.expand q w := by
  unfold expand
  rw [integral_add]
  refine integral_congr fun e _ g => ?_
  simp only [dvel_add, Finset.sum_add_distrib]
  ring

theorem expand_smul_right (q : ℕ → ℕ → ℝ) : G.expand q (c • v) = c * G.expand q v := by
  unfold expand
  rw [integral_smul]
  refine integral_congr fun e _ g => ?_
  simp only [dvel_smul, ← Finset.mul_sum]
  ring

/-- The part of a field with the pressure alone. -/
def pressPart (q : ℕ → ℕ → ℝ) (a d : ℕ) : ℝ := if d = 2 then q a d else 0

theorem pressPart_vanishing {bc : List ((ℕ × ℕ) × ℝ)} {q : ℕ → ℕ → ℝ} (h : Vanishing bc q) : Vanishing bc (pressPart q) := by
  intro r hr
  unfold pressPart
  split_ifs
  · exact h r hr
  · rfl

theorem vel_pressPart (q : ℕ → ℕ → ℝ) (a : Fin 2) : G.vel e (pressPart q) g a = 0 := by
  have : (a : ℕ) ≠ 2 := by omega
  simp [vel, interp, pressPart, this]

theorem dvel_pressPart (q : ℕ → ℕ → ℝ) (k a : Fin 2) : G.dvel e (pressPart q) g k a = 0 := by
  have : (a : ℕ) ≠ 2 := by omega
  simp [dvel, interp, pressPart, this]

theorem pres_pressPart (q : ℕ → ℕ → ℝ) : G.pres e (pressPart q) g = G.pres e q g := by
  simp [pres, pressPart]

theorem dpres_pressPart (q : ℕ → ℕ → ℝ) (k : Fin 2) : G.dpres e (pressPart q) g k = G.dpres e q g k := by
  simp [dpres, pressPart]

end FlowMesh

/-! ### Loads -/

theorem mixElemV_some {mu mp : ℕ} {core : Matrix (Fin mp) (Fin 2) ℝ → Option (Flu mu mp → ℝ)} {e : List ℕ × List ℕ}
    {x : List (Vec ℝ)} {F : Vec ℝ} {nteu ntep : List (List (ℕ × ℕ))} (h : mixElemV core e [0, 1, 2] x = some (F, nteu, ntep)) :
    e.1.length = mu ∧ e.2.length = mp ∧ (∀ a ∈ e.1, a < x.length) ∧ (∀ a ∈ e.2, a < x.length) ∧ nteu = blockTable mu ∧
      ntep = pressTable mu mp ∧ ∃ f, core (Matrix.of fun (j : Fin mp) (k : Fin 2) => (nodal x (e.2[(j : ℕ)]?.getD 0) k).getD 0) = some f ∧
      F = mixV f := by
  unfold mixElemV at h
  rw [blocked_eq] at h
  simp only [Option.bind_eq_bind, Option.bind_some, Option.bind_eq_some_iff, Option.pure_def, Option.some.injEq,
    Prod.mk.injEq] at h
  obtain ⟨X', hX', X, hX, f, hf, rfl, rfl, rfl⟩ := h
  have h1 := gather_length hX'
  have h2 := gather_length hX
  have hn : ∀ a d, (nodal x a d).isSome → a < x.length := by
    intro a d hd
    by_contra hc
    simp [nodal, List.getElem?_eq_none (Nat.not_lt.1 hc)] at hd
  have hX2 : X = Matrix.of fun (j : Fin mp) (k : Fin 2) => (nodal x (e.2[(j : ℕ)]?.getD 0) k).getD 0 := by
    ext j k
    show _ = (nodal x (e.2[(j : ℕ)]?.getD 0) k).getD 0
    rw [gather_entry hX j k]
    rfl
  exact ⟨h1, h2, FlowMesh.nodes_gather hX' hn, FlowMesh.nodes_gather hX hn, by rw [h1], by rw [h1, h2], f, hX2 ▸ hf, rfl⟩

theorem stokesLoads_sound {x : List (Vec ℝ)} {f : (Fin 2 → ℝ) → Fin 2 → ℝ} : ∀ {edges : List (List ℕ × List ℕ)}
    {ex : List (AsmCall ℝ)}, stokesLoads x edges f = some ex → LoadSound x.length ex (tractionWork x edges f) := by
  intro edges
  induction edges with
  | nil =>
    intro ex h
    cases h
    exact ⟨by simp, fun _ _ => rfl, fun _ => rfl⟩
  | cons e es ih =>
    intro ex h
    unfold stokesLoads at h ih
    simp only [List.mapM_cons, Option.bind_eq_bind, Option.pure_def, Option.bind_eq_some_iff, Option.some.injEq,
      Prod.exists] at h ih
    obtain ⟨cs, ⟨b, ⟨F, nteu, ntep, hF, rfl⟩, cs', hcs, rfl⟩, rfl⟩ := h
    obtain ⟨i1, i2, i3⟩ := ih ⟨cs', hcs, rfl⟩
    obtain ⟨l1, l2, n1, n2, rfl, rfl, z, hz, rfl⟩ := mixElemV_some hF
    have hd : ∀ p : Flu 3 2, mixNode e p < x.length ∧ mixComp p < 3 := by
      intro p
      rcases p with (i | i) | j
      · have hi : (i : ℕ) < e.1.length := by rw [l1]; exact i.2
        simp only [mixNode, List.getElem?_eq_getElem hi, Option.getD_some]
        exact ⟨n1 _ (List.getElem_mem hi), by simp [mixComp]⟩
      · have hi : (i : ℕ) < e.1.length := by rw [l1]; exact i.2
        simp only [mixNode, List.getElem?_eq_getElem hi, Option.getD_some]
        exact ⟨n1 _ (List.getElem_mem hi), by simp [mixComp]⟩
      · have hi : (j : ℕ) < e.2.length := by rw [l2]; exact j.2
        simp only [mixNode, List.getElem?_eq_getElem hi, Option.getD_some]
        exact ⟨n2 _ (List.getElem_mem hi), by simp [mixComp]⟩
    have hl := mix_load_fits z l1 l2 (t := freeTable x.length 3) (u := zeroField x.length 3) fun p =>
      ⟨dofNum_free _ (hd p).1 _ (hd p).2, by rw [nodal_zeroField (hd p).1 (hd p).2]; rfl⟩
    refine ⟨fun c hc => ?_, fun w v => ?_, fun w => ?_⟩
    · simp only [List.flatten_cons, List.mem_append, List.mem_cons, List.not_mem_nil, or_false] at hc
      rcases hc with (rfl | rfl) | hc
      · exact hl.1
      · exact hl.2
      · exact i1 c hc
    · have := i2 w v
      rw [energy_eq] at this ⊢
      simp only [List.flatten_cons, List.map_append, List.sum_append, List.map_cons, List.map_nil, List.sum_cons,
        List.sum_nil, callEnergy_load, this]
      ring
    · have := i3 w
      simp only [List.flatten_cons, List.map_append, List.sum_append, List.map_cons, List.map_nil, List.sum_cons,
        List.sum_nil, this, tractionWork]
      rw [add_zero, mix_work z l1 l2]
      congr 1
      unfold stokesSurfaceForce at hz
      rw [loop1_eq_some.1 hz, dotProduct_sum]
      refine Finset.sum_congr rfl fun g _ => ?_
      rw [dotProduct_smul, smul_eq_mul]
      refine mul_eq_of ?_
      rw [place_eq, dotProduct_comm]
      generalize place (SF.line2.N (IC.gauss2Line.points g)) _ = y
      rw [show (fluV (fun i => SF.line3.N (IC.gauss2Line.points g) i * f y 0)
          (fun i => SF.line3.N (IC.gauss2Line.points g) i * f y 1) fun _ => 0 : Flu 3 2 → ℝ) =
        f y 0 • uvec 2 0 (SF.line3.N (IC.gauss2Line.points g)) + f y 1 • uvec 2 1 (SF.line3.N (IC.gauss2Line.points g)) from ?_]
      · rw [add_dotProduct, smul_dotProduct, smul_dotProduct, uvec_dot, uvec_dot, Fin.sum_univ_two]
        rfl
      · funext p
        rcases p with (i | i) | j <;> simp [fluV, uvec, mul_comm]

end Pansfem
