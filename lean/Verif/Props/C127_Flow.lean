/-
C127: the programs with velocities and pressure in one system.
-/
import Verif.Lemmas.FlowDefined
import Verif.Lemmas.FlowTriangle
import Verif.Props.C125_Decoupled

noncomputable section

open Matrix

namespace Pansfem

variable {m n : ℕ} {bc : List ((ℕ × ℕ) × ℝ)} {rho mu dt theta : ℝ} {steps : ℕ} {up : List (Vec ℝ)} {conv : Bool}

/-! ### Runs -/

/-- **C127**: the loop of sample_navierstokes_dynamic.cpp with any shape functions, integration points and solver whose flag means
what it says.  A run that returns has passed through fields that start with the given values and zeros and keep the given
values, and all solver calls report convergence exactly if every step solves the weak form of the Navier-Stokes equations,
linearised with the velocity of the step before, to `1e-10`. -/
theorem C127_run (G : FlowMesh m n) (s : LinSolver) (hs : s.Certifies) (hdt : dt ≠ 0)
    (h : flowAnalysis s dt theta (galerkinItems G.sfu G.sfp G.ic G.x G.elements rho mu) (some []) G.x.length bc steps =
      some (up, conv)) :
    ∃ U : ℕ → List (Vec ℝ), FlowRun G.x.length bc steps U ∧ U steps = up ∧ (conv = true ↔ ∀ k < steps,
      FlowMet G.x.length bc (G.galerkin rho mu dt theta (advecting U k)) (valOf (U k)) (valOf (U (k + 1)))) := by
  obtain ⟨U, h1, h2, h3⟩ := flow_run (f := fun b => G.galerkinItem rho mu b) (elements := G.elements) (L := fun _ => 0)
    (F := fun b e u v w => ∑ g, measure2 G.sfp G.ic (G.coords e) g * G.galerkinAt rho mu dt theta b e u v w g)
    s hs hdt (fun ubar hb e _ it hit => G.galerkin_sound hb hit)
    (fun b b' hb => by
      funext e u v w
      refine Finset.sum_congr rfl fun g _ => ?_
      simp only [FlowMesh.galerkinAt, G.vel_congr hb])
    (fun ex hex => by cases hex; exact loadSound_nil _) h
  refine ⟨U, h1, h2, h3.trans (forall₂_congr fun k _ => ?_)⟩
  have e : G.galerkin rho mu dt theta (advecting U k) = fun u v w => (G.elements.map fun e => ∑ g,
      measure2 G.sfp G.ic (G.coords e) g * G.galerkinAt rho mu dt theta (advecting U k) e u v w g).sum - 0 := by
    funext u v w
    rw [FlowMesh.galerkin_eq, sub_zero]
    rfl
  rw [e]

/-- **C127**: the same for the loop of sample_navierstokesSUPG_dynamic.cpp and the stabilised equations. -/
theorem C127_stabilised (G : FlowMesh m n) (s : LinSolver) (hs : s.Certifies) (hdt : dt ≠ 0)
    (h : flowAnalysis s dt theta (supgItems G.sfu G.sfp G.ic G.x G.elements rho mu dt) (some []) G.x.length bc steps =
      some (up, conv)) :
    ∃ U : ℕ → List (Vec ℝ), FlowRun G.x.length bc steps U ∧ U steps = up ∧ (conv = true ↔ ∀ k < steps,
      FlowMet G.x.length bc (G.stabilised rho mu dt theta (advecting U k)) (valOf (U k)) (valOf (U (k + 1)))) := by
  obtain ⟨U, h1, h2, h3⟩ := flow_run (f := fun b => G.supgItem rho mu dt b) (elements := G.elements) (L := fun _ => 0)
    (F := fun b e u v w => ∑ g, measure2 G.sfp G.ic (G.coords e) g * G.stabilisedAt rho mu dt theta b e u v w g)
    s hs hdt (fun ubar hb e _ it hit => G.supg_sound hb hit)
    (fun b b' hb => by
      funext e u v w
      refine Finset.sum_congr rfl fun g _ => ?_
      simp only [FlowMesh.stabilisedAt, FlowMesh.galerkinAt, FlowMesh.momentum, G.vel_congr hb, G.tau_congr hb])
    (fun ex hex => by cases hex; exact loadSound_nil _) h
  refine ⟨U, h1, h2, h3.trans (forall₂_congr fun k _ => ?_)⟩
  have e : G.stabilised rho mu dt theta (advecting U k) = fun u v w => (G.elements.map fun e => ∑ g,
      measure2 G.sfp G.ic (G.coords e) g * G.stabilisedAt rho mu dt theta (advecting U k) e u v w g).sum - 0 := by
    funext u v w
    rw [FlowMesh.stabilised_eq, sub_zero]
    rfl
  rw [e]

/-- **C127**: the same for the loop of sample_stokes_dynamic.cpp with tractions on edges. -/
theorem C127_stokes (G : FlowMesh m n) (s : LinSolver) (hs : s.Certifies) (hdt : dt ≠ 0) {edges : List (List ℕ × List ℕ)}
    {f : (Fin 2 → ℝ) → Fin 2 → ℝ}
    (h : flowAnalysis s dt theta (fun _ => stokesItems G.sfu G.sfp G.ic G.x G.elements rho mu) (stokesLoads G.x edges f)
      G.x.length bc steps = some (up, conv)) :
    ∃ U : ℕ → List (Vec ℝ), FlowRun G.x.length bc steps U ∧ U steps = up ∧ (conv = true ↔ ∀ k < steps,
      FlowMet G.x.length bc (G.stokes rho mu dt theta (tractionWork G.x edges f)) (valOf (U k)) (valOf (U (k + 1)))) := by
  obtain ⟨U, h1, h2, h3⟩ := flow_run (f := fun _ => G.stokesItem rho mu) (elements := G.elements)
    (L := tractionWork G.x edges f)
    (F := fun _ e u v w => ∑ g, measure2 G.sfp G.ic (G.coords e) g * G.stokesAt rho mu dt theta e u v w g)
    s hs hdt (fun ubar _ e _ it hit => G.stokes_sound hit) (fun _ _ _ => rfl) (fun ex hex => stokesLoads_sound hex) h
  refine ⟨U, h1, h2, h3.trans (forall₂_congr fun k _ => ?_)⟩
  have e : G.stokes rho mu dt theta (tractionWork G.x edges f) = fun u v w => (G.elements.map fun e => ∑ g,
      measure2 G.sfp G.ic (G.coords e) g * G.stokesAt rho mu dt theta e u v w g).sum - tractionWork G.x edges f w := by
    funext u v w
    rw [FlowMesh.stokes_eq]
    rfl
  rw [e]

/-- The elements of sample_navierstokes_dynamic.cpp: eight nodes for the velocities, four for the pressure. -/
def galerkinMesh (x : List (Vec ℝ)) (elements : List (List ℕ × List ℕ)) : FlowMesh 8 4 :=
  ⟨SF.square8, SF.square4, IC.gauss9Square, x, elements⟩

/-- The elements of sample_navierstokesSUPG_dynamic.cpp: the same four nodes for velocities and pressure. -/
def supgMesh (x : List (Vec ℝ)) (elements : List (List ℕ)) : FlowMesh 4 4 :=
  ⟨SF.square4, SF.square4, IC.gauss4Square, x, elements.map fun e => (e, e)⟩

/-- The elements of sample_stokes_dynamic.cpp: six nodes for the velocities, three for the pressure. -/
def stokesMesh (x : List (Vec ℝ)) (elements : List (List ℕ × List ℕ)) : FlowMesh 6 3 :=
  ⟨SF.triangle6, SF.triangle3, IC.gauss3Triangle, x, elements⟩

/-- **C127**: the three programs. -/
theorem C127_programs (x : List (Vec ℝ)) (hdt : dt ≠ 0) :
    (∀ elements, navierStokesDynamic x elements bc rho mu dt theta steps = some (up, conv) →
      ∃ U : ℕ → List (Vec ℝ), FlowRun x.length bc steps U ∧ U steps = up ∧ (conv = true ↔ ∀ k < steps,
        FlowMet x.length bc ((galerkinMesh x elements).galerkin rho mu dt theta (advecting U k)) (valOf (U k))
          (valOf (U (k + 1))))) ∧
    (∀ elements, navierStokesSUPG x elements bc rho mu dt theta steps = some (up, conv) →
      ∃ U : ℕ → List (Vec ℝ), FlowRun x.length bc steps U ∧ U steps = up ∧ (conv = true ↔ ∀ k < steps,
        FlowMet x.length bc ((supgMesh x elements).stabilised rho mu dt theta (advecting U k)) (valOf (U k))
          (valOf (U (k + 1))))) ∧
    ∀ elements edges f, stokesDynamic x elements edges bc rho mu f dt theta steps = some (up, conv) →
      ∃ U : ℕ → List (Vec ℝ), FlowRun x.length bc steps U ∧ U steps = up ∧ (conv = true ↔ ∀ k < steps,
        FlowMet x.length bc ((stokesMesh x elements).stokes rho mu dt theta (tractionWork x edges f)) (valOf (U k))
          (valOf (U (k + 1)))) :=
  ⟨fun elements h => C127_run (galerkinMesh x elements) _ useBiCGSTAB2_certifies hdt h,
    fun elements h => C127_stabilised (supgMesh x elements) _ useBiCGSTAB2_certifies hdt h,
    fun elements _ _ h => C127_stokes (stokesMesh x elements) _ useCG_certifies hdt h⟩

/-! ### The cavity -/

theorem cavitySUPG_eq {M : SquareMesh ℝ} {P : DecoupledProgram} {pinned : ℝ × ℝ → Bool} {r m' d' : ℝ}
    (h : decoupledProgram M cavityWalls cavityLid pinned r m' d' = some P) (tmax : ℕ) :
    cavitySUPG M rho mu dt theta tmax = navierStokesSUPG P.x P.elements P.ufixed rho mu dt theta (tmax + 1) := by
  unfold decoupledProgram at h
  simp only [Option.bind_eq_bind, Option.bind_eq_some_iff, Option.pure_def, Option.some.injEq] at h
  obtain ⟨x, hx, e, he, a, ha, b, hb, c, hc, rfl⟩ := h
  unfold cavitySUPG
  simp only [hx, he, ha, hb, Option.bind_eq_bind, Option.bind_some]

/-- Mesh and boundary conditions of the cavity on a grid of `k` by `k` cells over the unit square. -/
structure CavityMesh (k : ℕ) (x : List (Vec ℝ)) (elements : List (List ℕ)) (bc : List ((ℕ × ℕ) × ℝ)) : Prop where
  nodes : x.length = (k + 1) * (k + 1)
  cells : elements.length = k * k
  coords : ∀ i ≤ k, ∀ j ≤ k, coord x ((k + 1) * i + j) 0 = (i : ℝ) / k ∧ coord x ((k + 1) * i + j) 1 = (j : ℝ) / k
  given : ∀ i ≤ k, ∀ j ≤ k, ∀ d, lastValue bc ((k + 1) * i + j) d = if d < 2 then
    (if j = k then some (if d = 0 then 1 else 0) else if i = 0 ∨ j = 0 ∨ i = k then some 0 else none) else none

theorem cavity_mesh {k : ℕ} (h0 : 0 < k) (hk : k ≤ 300) (rho mu dt theta : ℝ) (tmax : ℕ) :
    ∃ P : DecoupledProgram, cavitySUPG ⟨1, 1, k, k⟩ rho mu dt theta tmax =
        navierStokesSUPG P.x P.elements P.ufixed rho mu dt theta (tmax + 1) ∧ CavityMesh k P.x P.elements P.ufixed ∧
      P.x = asVectors (squareNodes4 ⟨1, 1, k, k⟩) ∧ P.elements = squareCells4 ⟨1, 1, k, k⟩ ∧ P.Ok := by
  have hN : (k + 1) * (k + 1) ≤ 100000 := (Nat.mul_le_mul (Nat.succ_le_succ hk) (Nat.succ_le_succ hk)).trans (by norm_num)
  obtain ⟨P, e, hP, hC, -, hX, hE⟩ := decoupledProgram_eq (⟨1, 1, k, k⟩ : SquareMesh ℝ) h0 h0 one_pos one_pos hN cavityWalls
    cavityLid (pinned := fun _ => true) ⟨0, Nat.zero_le _, 0, Nat.zero_le _, rfl⟩ (rho := 1) (mu := 1) (dt := 1) one_pos one_pos
  refine ⟨P, cavitySUPG_eq e tmax, ⟨hC.nodes, hC.cells, fun i hi j hj => ?_, fun i hi j hj d => ?_⟩, hX, hE, hP⟩
  · have := hC.coords i hi j hj
    simpa using this
  · have hn : (k + 1) * i + j < P.x.length := by
      rw [hC.nodes]
      have : (k + 1) * i ≤ (k + 1) * k := Nat.mul_le_mul_left _ hi
      show (k + 1) * i + j < (k + 1) * (k + 1)
      rw [Nat.mul_succ]
      omega
    obtain ⟨c1, c2⟩ := hC.coords i hi j hj
    obtain ⟨p1, p2, -⟩ := cavity_predicates h0 (by omega) i j
    have c1' : coord P.x ((k + 1) * i + j) 0 = 1 * ((i : ℝ) / k) := c1
    have c2' : coord P.x ((k + 1) * i + j) 1 = 1 * ((j : ℝ) / k) := c2
    rw [hC.velocities, c1', c2']
    simp only [hn, true_and, p1, p2]

/-- **C127**: the driven cavity of sample_navierstokesSUPG_dynamic.cpp on any grid over the unit square.  The program is the SUPG
loop with velocity one at the lid, zero at the other sides and no pressure given anywhere, and a run that returns is as
above. -/
theorem C127_cavity {k : ℕ} (h0 : 0 < k) (hk : k ≤ 300) (hdt : dt ≠ 0) (tmax : ℕ) :
    ∃ (x : List (Vec ℝ)) (elements : List (List ℕ)) (bc : List ((ℕ × ℕ) × ℝ)), CavityMesh k x elements bc ∧
      cavitySUPG ⟨1, 1, k, k⟩ rho mu dt theta tmax = navierStokesSUPG x elements bc rho mu dt theta (tmax + 1) ∧
      ∀ up conv, cavitySUPG ⟨1, 1, k, k⟩ rho mu dt theta tmax = some (up, conv) →
        ∃ U : ℕ → List (Vec ℝ), FlowRun x.length bc (tmax + 1) U ∧ U (tmax + 1) = up ∧ (conv = true ↔ ∀ i < tmax + 1,
          FlowMet x.length bc ((supgMesh x elements).stabilised rho mu dt theta (advecting U i)) (valOf (U i))
            (valOf (U (i + 1)))) := by
  obtain ⟨P, e, hP, -⟩ := cavity_mesh h0 hk rho mu dt theta tmax
  exact ⟨P.x, P.elements, P.ufixed, hP, e, fun up conv h => (C127_programs P.x hdt).2.1 P.elements (e ▸ h)⟩

/-! ### Exact steps -/

namespace FlowMesh
variable (G : FlowMesh m n) {b u v v' : ℕ → ℕ → ℝ}

theorem galerkin_pressPart (q : ℕ → ℕ → ℝ) : G.galerkin rho mu dt theta b u v (pressPart q) = G.expand q v := by
  rw [galerkin_eq]
  refine integral_congr fun e _ g => ?_
  simp only [galerkinAt, vel_pressPart, dvel_pressPart, pres_pressPart, Fin.sum_univ_two, zero_mul, mul_zero, add_zero,
    zero_div, sub_zero, zero_add]

end FlowMesh

/-- **C127**: an exact step of the Galerkin loop gives velocities that are divergence free for all test pressures. -/
theorem C127_divfree (G : FlowMesh m n) {b u v : ℕ → ℕ → ℝ} (h : FlowExact bc (G.galerkin rho mu dt theta b) u v) :
    G.DivFree bc v := fun q hq => by
  rw [← h.equation _ (FlowMesh.pressPart_vanishing hq), FlowMesh.galerkin_pressPart]

/-- **C127**: the balance of kinetic energy of an exact step with all given values zero: dissipation by viscosity, convection and,
for `theta > 1/2`, by the scheme. -/
theorem C127_energy (G : FlowMesh m n) (hdt : dt ≠ 0) {b u v : ℕ → ℕ → ℝ}
    (h : FlowExact bc (G.galerkin rho mu dt theta b) u v) (hu : Vanishing bc u) (hdiv : G.DivFree bc u) :
    G.kinetic rho v v = G.kinetic rho u u -
      2 * dt * (G.convect rho b (theta • v + (1 - theta) • u) (theta • v + (1 - theta) • u) +
        G.viscous mu (theta • v + (1 - theta) • u) (theta • v + (1 - theta) • u)) -
      (2 * theta - 1) * G.kinetic rho (v - u) (v - u) := by
  obtain ⟨z, hz⟩ : ∃ z, z = theta • v + (1 - theta) • u := ⟨_, rfl⟩
  have hv : Vanishing bc v := fun r hr => by rw [h.boundary r hr, hu r hr]
  have hzv : Vanishing bc z := fun r hr => by
    rw [hz]
    simp [hv r hr, hu r hr]
  have h1 := h.equation z hzv
  have h2 := C127_divfree G h
  have h3 : G.expand v z = 0 := by
    rw [hz, FlowMesh.expand_add_right, FlowMesh.expand_smul_right, FlowMesh.expand_smul_right, h2 v hv, hdiv v hv]
    ring
  have h4 : G.kinetic rho z (dt⁻¹ • (v - u)) = (2 * dt)⁻¹ * (G.kinetic rho v v - G.kinetic rho u u +
      (2 * theta - 1) * G.kinetic rho (v - u) (v - u)) := by
    unfold FlowMesh.kinetic
    rw [FlowMesh.integral_smul, FlowMesh.integral_sub, FlowMesh.integral_add, FlowMesh.integral_smul]
    refine FlowMesh.integral_congr fun e _ g => ?_
    simp only [hz, FlowMesh.vel_add, FlowMesh.vel_sub, FlowMesh.vel_smul, Fin.sum_univ_two]
    field_simp
    ring
  unfold FlowMesh.galerkin at h1
  rw [← hz] at h1 ⊢
  rw [h3, h2 z hzv, h4] at h1
  field_simp at h1
  linarith

theorem FlowMesh.viscous_nonneg {G : FlowMesh m n} (hG : G.Positive) (hmu : 0 ≤ mu) (w : ℕ → ℕ → ℝ) : 0 ≤ G.viscous mu w w :=
  FlowMesh.integral_nonneg hG fun e _ g => mul_nonneg (by linarith)
    (Finset.sum_nonneg fun a _ => Finset.sum_nonneg fun k _ => mul_self_nonneg _)

theorem FlowMesh.kinetic_nonneg {G : FlowMesh m n} (hG : G.Positive) (hr : 0 ≤ rho) (w : ℕ → ℕ → ℝ) : 0 ≤ G.kinetic rho w w :=
  FlowMesh.integral_nonneg hG fun e _ g => mul_nonneg hr (Finset.sum_nonneg fun a _ => mul_self_nonneg _)

/-- **C127**: without energy from convection the kinetic energy does not grow in an exact step with `theta` from `1/2` on. -/
theorem C127_decay (G : FlowMesh m n) (hG : G.Positive) (hdt : 0 < dt) (hr : 0 ≤ rho) (hmu : 0 ≤ mu) (ht : 1 / 2 ≤ theta)
    {b u v : ℕ → ℕ → ℝ} (hb : ∀ w, 0 ≤ G.convect rho b w w)
    (h : FlowExact bc (G.galerkin rho mu dt theta b) u v) (hu : Vanishing bc u) (hdiv : G.DivFree bc u) :
    G.kinetic rho v v ≤ G.kinetic rho u u := by
  rw [C127_energy G hdt.ne' h hu hdiv]
  have h1 := mul_nonneg (mul_nonneg zero_le_two hdt.le) (add_nonneg (hb (theta • v + (1 - theta) • u))
    (FlowMesh.viscous_nonneg hG hmu (theta • v + (1 - theta) • u)))
  have h2 := mul_nonneg (by linarith : 0 ≤ 2 * theta - 1) (FlowMesh.kinetic_nonneg hG hr (v - u))
  linarith

/-! ### When the programs return -/

/-- **C127**: nothing but the solver can fail.  On a mesh that is not degenerate, with given values at existing dofs, both loops
return with every solver that does not divide by zero, for any number of steps. -/
theorem C127_answers (G : FlowMesh m n) (hG : G.Valid) (s : LinSolver) (hs : s.Answers) (hdt : dt ≠ 0)
    (hbc : ∀ r ∈ bc, r.1.1 < G.x.length ∧ r.1.2 < 3) (rho mu theta : ℝ) (steps : ℕ) :
    (∃ up conv, flowAnalysis s dt theta (galerkinItems G.sfu G.sfp G.ic G.x G.elements rho mu) (some []) G.x.length bc steps =
      some (up, conv)) ∧
    ∀ edges f ex, stokesLoads G.x edges f = some ex → ∃ up conv, flowAnalysis s dt theta
      (fun _ => stokesItems G.sfu G.sfp G.ic G.x G.elements rho mu) (stokesLoads G.x edges f) G.x.length bc steps =
        some (up, conv) :=
  ⟨flow_answers (f := fun b => G.galerkinItem rho mu b) (L := fun _ => 0) (F := fun b e u v w => ∑ g,
      measure2 G.sfp G.ic (G.coords e) g * G.galerkinAt rho mu dt theta b e u v w g) s hs hdt
      (fun ubar hb e _ it hit => G.galerkin_sound hb hit)
      (fun ubar hb e he => FlowMesh.galerkinItem_defined hG he rho mu hb) rfl (loadSound_nil _) hbc steps,
    fun edges f ex hex => flow_answers (f := fun _ => G.stokesItem rho mu) (L := tractionWork G.x edges f) (F := fun _ e u v w =>
      ∑ g, measure2 G.sfp G.ic (G.coords e) g * G.stokesAt rho mu dt theta e u v w g) s hs hdt
      (fun ubar _ e _ it hit => G.stokes_sound hit) (fun ubar _ e he => FlowMesh.stokesItem_defined hG he rho mu) hex
      (stokesLoads_sound hex) hbc steps⟩

theorem useBiCGSTAB2_breaks : useBiCGSTAB2.Breaks := by
  intro n A M hA
  show bicgstab2 A 0 (99999 + 1) _ = none
  generalize 99999 = k
  unfold bicgstab2 bi2Init
  simp [csrMul_eq hA, bi2Loop, bi2Step, sdivide]

/-- **C127**: a fluid at rest.  If all given values are zero and there are no tractions, the programs divide zero by zero in the
first step instead of returning zeros. -/
theorem C127_rest (x : List (Vec ℝ)) (hdt : dt ≠ 0) (hbc : ∀ a d c, lastValue bc a d = some c → c = 0) (rho mu theta : ℝ)
    (steps : ℕ) :
    (∀ elements, navierStokesDynamic x elements bc rho mu dt theta (steps + 1) = none) ∧
    (∀ elements, navierStokesSUPG x elements bc rho mu dt theta (steps + 1) = none) ∧
    ∀ elements f, stokesDynamic x elements [] bc rho mu f dt theta (steps + 1) = none := by
  have z : theta • (0 : ℕ → ℕ → ℝ) + (1 - theta) • (0 : ℕ → ℕ → ℝ) = 0 := by simp
  have z' : dt⁻¹ • ((0 : ℕ → ℕ → ℝ) - 0) = 0 := by simp
  have v0 : ∀ {m n : ℕ} (G : FlowMesh m n) e g a, G.vel e 0 g a = 0 := fun G e g a => by simp [FlowMesh.vel, interp]
  have d0 : ∀ {m n : ℕ} (G : FlowMesh m n) e g k a, G.dvel e 0 g k a = 0 := fun G e g k a => by simp [FlowMesh.dvel, interp]
  have p0 : ∀ {m n : ℕ} (G : FlowMesh m n) e g, G.pres e 0 g = 0 := fun G e g => by simp [FlowMesh.pres, interp]
  have q0 : ∀ {m n : ℕ} (G : FlowMesh m n) e g k, G.dpres e 0 g k = 0 := fun G e g k => by simp [FlowMesh.dpres, interp]
  refine ⟨fun elements => ?_, fun elements => ?_, fun elements f => ?_⟩
  · exact flow_rest (f := fun b => (galerkinMesh x elements).galerkinItem rho mu b) (L := fun _ => 0) (F := fun b e u v w => ∑ g,
      measure2 _ _ ((galerkinMesh x elements).coords e) g * (galerkinMesh x elements).galerkinAt rho mu dt theta b e u v w g)
      _ useBiCGSTAB2_breaks hdt (fun ubar hb e _ it hit => (galerkinMesh x elements).galerkin_sound hb hit)
      (fun b e _ w => Finset.sum_eq_zero fun g _ => by simp [FlowMesh.galerkinAt, z, z', v0, d0, p0]) (fun _ => rfl)
      (fun ex hex => by cases hex; exact loadSound_nil _) hbc steps
  · exact flow_rest (f := fun b => (supgMesh x elements).supgItem rho mu dt b) (L := fun _ => 0) (F := fun b e u v w => ∑ g,
      measure2 _ _ ((supgMesh x elements).coords e) g * (supgMesh x elements).stabilisedAt rho mu dt theta b e u v w g)
      _ useBiCGSTAB2_breaks hdt (fun ubar hb e _ it hit => (supgMesh x elements).supg_sound hb hit)
      (fun b e _ w => Finset.sum_eq_zero fun g _ => by
        simp [FlowMesh.stabilisedAt, FlowMesh.momentum, FlowMesh.galerkinAt, z, z', v0, d0, p0, q0]) (fun _ => rfl)
      (fun ex hex => by cases hex; exact loadSound_nil _) hbc steps
  · exact flow_rest (f := fun _ => (stokesMesh x elements).stokesItem rho mu) (L := tractionWork x [] f) (F := fun _ e u v w => ∑ g,
      measure2 _ _ ((stokesMesh x elements).coords e) g * (stokesMesh x elements).stokesAt rho mu dt theta e u v w g)
      _ useCG_breaks hdt (fun ubar _ e _ it hit => (stokesMesh x elements).stokes_sound hit)
      (fun b e _ w => Finset.sum_eq_zero fun g _ => by simp [FlowMesh.stokesAt, z, z', v0, d0, p0]) (fun _ => rfl)
      (fun ex hex => stokesLoads_sound hex) hbc steps

/-! ### One element -/

/-- The nodes of one square with midside nodes. -/
def flowNodes : List (Vec ℝ) :=
  [⟨[0, 0]⟩, ⟨[1, 0]⟩, ⟨[1, 1]⟩, ⟨[0, 1]⟩, ⟨[1 / 2, 0]⟩, ⟨[1, 1 / 2]⟩, ⟨[1 / 2, 1]⟩, ⟨[0, 1 / 2]⟩]

/-- One square for the loop of sample_navierstokes_dynamic.cpp. -/
def flowSquare : FlowMesh 8 4 := galerkinMesh flowNodes [([0, 1, 2, 3, 4, 5, 6, 7], [0, 1, 2, 3])]

theorem flowSquare_coords : flowSquare.coords ([0, 1, 2, 3, 4, 5, 6, 7], [0, 1, 2, 3]) = rect 0 0 1 1 := by
  ext i k
  fin_cases i <;> fin_cases k <;> simp [FlowMesh.coords, flowSquare, galerkinMesh, flowNodes, rect, nodal, Vec.at?, Vec.size]

theorem flowSquare_positive : flowSquare.Positive := by
  intro e he g
  obtain rfl := List.mem_singleton.1 he
  rw [flowSquare_coords]
  show 0 < (SF.square4.dNdr _ * rect 0 0 1 1).det * IC.gauss9Square.weights g 0 * IC.gauss9Square.weights g 1
  rw [rect_det]
  obtain ⟨h1, h2⟩ := gauss9_weights g
  positivity

theorem flowSquare_valid : flowSquare.Valid := by
  refine ⟨?_, ?_, ?_, ?_, ?_, ?_⟩
  · simp [flowSquare, galerkinMesh]
  · simp [flowSquare, galerkinMesh]
  · simp [flowSquare, galerkinMesh, flowNodes]
  · simp [flowSquare, galerkinMesh, flowNodes]
  · intro a ha k hk
    have ha : a < 8 := ha
    interval_cases a <;> interval_cases k <;> simp [flowSquare, galerkinMesh, flowNodes, nodal, Vec.at?, Vec.size]
  · intro e he g
    obtain rfl := List.mem_singleton.1 he
    rw [flowSquare_coords]
    show (SF.square4.dNdr _ * rect 0 0 1 1).det ≠ 0
    rw [rect_det]
    norm_num

open scoped Classical in
/-- A solver that answers with a solution if there is one up to `1e-10`. -/
def idealSolver : LinSolver := fun _ A b =>
  if h : ∃ x y, csrMul A x = some y ∧ vnorm (b - y) < 1 / 10 ^ 10 * vnorm b then some (h.choose, true) else some (0, false)

theorem idealSolver_answers : idealSolver.Answers := by
  intro n A M b _
  unfold idealSolver
  split_ifs <;> exact ⟨_, _, rfl⟩

theorem idealSolver_certifies : idealSolver.Certifies := by
  intro n A M b x conv hA h
  unfold idealSolver at h
  split_ifs at h with hc
  · obtain ⟨rfl, rfl⟩ := Prod.mk.inj (Option.some.inj h)
    obtain ⟨y, h1, h2⟩ := hc.choose_spec
    rw [csrMul_eq hA] at h1
    rw [Option.some.inj h1]
    simpa using h2
  · obtain ⟨rfl, rfl⟩ := Prod.mk.inj (Option.some.inj h)
    simp only [Bool.false_eq_true, false_iff]
    exact fun hlt => hc ⟨0, _, csrMul_eq hA 0, hlt⟩

/-- `C127_answers` and `C127_run`: flow through one square with velocity `(1, 0)` on its left side. -/
example (steps : ℕ) : ∃ up conv, ∃ U : ℕ → List (Vec ℝ),
    flowAnalysis idealSolver (1 / 10) (1 / 2) (galerkinItems flowSquare.sfu flowSquare.sfp flowSquare.ic flowSquare.x
      flowSquare.elements 1 (1 / 1000)) (some []) flowSquare.x.length
      [((0, 0), 1), ((3, 0), 1), ((7, 0), 1), ((0, 1), 0), ((3, 1), 0), ((7, 1), 0), ((1, 2), 0)] steps = some (up, conv) ∧
    U steps = up ∧ (conv = true ↔ ∀ k < steps, FlowMet flowSquare.x.length
      [((0, 0), 1), ((3, 0), 1), ((7, 0), 1), ((0, 1), 0), ((3, 1), 0), ((7, 1), 0), ((1, 2), 0)]
      (flowSquare.galerkin 1 (1 / 1000) (1 / 10) (1 / 2) (advecting U k)) (valOf (U k)) (valOf (U (k + 1)))) := by
  obtain ⟨⟨up, conv, h⟩, -⟩ := C127_answers flowSquare flowSquare_valid idealSolver idealSolver_answers (dt := 1 / 10) (by norm_num)
    (bc := [((0, 0), 1), ((3, 0), 1), ((7, 0), 1), ((0, 1), 0), ((3, 1), 0), ((7, 1), 0), ((1, 2), 0)])
    (by simp [flowSquare, galerkinMesh, flowNodes]) 1 (1 / 1000) (1 / 2) steps
  obtain ⟨U, -, h2, h3⟩ := C127_run flowSquare idealSolver idealSolver_certifies (by norm_num) h
  exact ⟨up, conv, U, h, h2, h3⟩

/-- `C127_rest`: the same square with closed sides. -/
example : navierStokesDynamic flowNodes [([0, 1, 2, 3, 4, 5, 6, 7], [0, 1, 2, 3])] [((0, 0), 0), ((0, 1), 0)] 1 (1 / 1000)
    (1 / 10) (1 / 2) 200 = none :=
  (C127_rest flowNodes (by norm_num) (fun a d c h => by
    have := lastValue_uniform (c := fun _ => (0 : ℝ)) (l := [((0, 0), 0), ((0, 1), 0)]) (by simp) a d
    rw [this] at h
    split_ifs at h
    exact (Option.some.inj h).symm) 1 (1 / 1000) (1 / 2) 199).1 _

/-- `C127_divfree`: one triangle with a given velocity that is not divergence free; the free velocity is not zero either. -/
example : ∃ v, flowTriangle.DivFree triangleGiven v ∧ v 5 1 = 1 :=
  (triangle_galerkin 1 (1 / 1000) (1 / 10) (1 / 2) 0).imp fun _ h =>
    ⟨C127_divfree _ h, (h.boundary ((5, 1), 1) (List.mem_cons_self ..)).trans (by simp [unitField])⟩

/-- `C127_energy` and `C127_decay`: a velocity that decays. -/
example : ∃ v, FlowExact triangleClosed (flowTriangle.galerkin 1 (1 / 1000) (1 / 10) (1 / 2) 0) (unitField 5 0) v ∧
    flowTriangle.kinetic 1 v v ≤ flowTriangle.kinetic 1 (unitField 5 0) (unitField 5 0) := by
  obtain ⟨v, h1, h2, h3⟩ := triangle_decay
  exact ⟨v, h1, C127_decay flowTriangle flowTriangle_positive (by norm_num) zero_le_one (by norm_num) le_rfl
    (fun w => by simp [FlowMesh.convect, FlowMesh.integral, FlowMesh.vel, interp]) h1 h2 h3⟩

/-- **C127**: sample_navierstokesSUPG_dynamic.cpp as it is: 30 by 30 cells, Reynolds number 1000 and 10001 steps. -/
theorem C127_sample : ∃ (x : List (Vec ℝ)) (elements : List (List ℕ)) (bc : List ((ℕ × ℕ) × ℝ)), CavityMesh 30 x elements bc ∧
    ∀ up conv, cavitySUPGSample = some (up, conv) →
      ∃ U : ℕ → List (Vec ℝ), FlowRun 961 bc 10001 U ∧ U 10001 = up ∧ (conv = true ↔ ∀ i < 10001,
        FlowMet 961 bc ((supgMesh x elements).stabilised 1 (1 / 1000) (1 / 100) (1 / 2) (advecting U i)) (valOf (U i))
          (valOf (U (i + 1)))) := by
  obtain ⟨x, elements, bc, h1, -, h3⟩ := C127_cavity (rho := 1) (mu := 1 / 1000) (dt := 1 / 100) (theta := 1 / 2) (k := 30)
    (by norm_num) (by norm_num) (by norm_num) 10000
  refine ⟨x, elements, bc, h1, fun up conv h => ?_⟩
  have hn : x.length = 961 := h1.nodes
  rw [hn] at h3
  refine h3 up conv ?_
  rw [← h]
  unfold cavitySUPGSample
  norm_num

/-- `C127_cavity` and `C127_sample`: the values at all nodes after the last step of the sample. -/
example : ∀ up conv, cavitySUPGSample = some (up, conv) → ∀ a < 961, ∀ d < 3, (nodal up a d).isSome := by
  intro up conv h a ha d hd
  obtain ⟨x, elements, bc, -, h2⟩ := C127_sample
  obtain ⟨U, hU, rfl, -⟩ := h2 up conv h
  exact (hU.shaped _ le_rfl a d).2 ⟨ha, hd⟩

end Pansfem
