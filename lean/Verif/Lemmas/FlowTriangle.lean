/-
Steps of the programs with velocities and pressure in one system: what they depend on, what a change of pressure does, and one
triangle with two free dofs on which steps can be solved by hand.
-/
import Verif.Lemmas.FlowLinear
import Verif.Props.C125_Decoupled

noncomputable section

open Matrix

namespace Pansfem

variable {m n : ℕ} {bc : List ((ℕ × ℕ) × ℝ)} {rho mu dt theta : ℝ}

namespace FlowMesh
variable (G : FlowMesh m n)

/-- Two fields have the same velocities and pressures at the nodes of the elements. -/
def Agree (w w' : ℕ → ℕ → ℝ) : Prop := ∀ e ∈ G.elements,
  (∀ i : Fin m, ∀ a < 2, w (e.1[(i : ℕ)]?.getD 0) a = w' (e.1[(i : ℕ)]?.getD 0) a) ∧
  ∀ j : Fin n, w (e.2[(j : ℕ)]?.getD 0) 2 = w' (e.2[(j : ℕ)]?.getD 0) 2

variable {G} {b u v w w' P : ℕ → ℕ → ℝ} {e : List ℕ × List ℕ}

theorem Agree.vel (h : G.Agree w w') (he : e ∈ G.elements) (g : Fin G.ic.N) (a : Fin 2) : G.vel e w g a = G.vel e w' g a := by
  simp only [FlowMesh.vel, interp, (h e he).1 _ _ a.2]

theorem Agree.dvel (h : G.Agree w w') (he : e ∈ G.elements) (g : Fin G.ic.N) (k a : Fin 2) :
    G.dvel e w g k a = G.dvel e w' g k a := by
  simp only [FlowMesh.dvel, interp, (h e he).1 _ _ a.2]

theorem Agree.pres (h : G.Agree w w') (he : e ∈ G.elements) (g : Fin G.ic.N) : G.pres e w g = G.pres e w' g := by
  simp only [FlowMesh.pres, interp, (h e he).2]

theorem Agree.galerkin (h : G.Agree w w') : G.galerkin rho mu dt theta b u v w = G.galerkin rho mu dt theta b u v w' := by
  rw [galerkin_eq, galerkin_eq]
  refine integral_congr fun e he g => ?_
  simp only [galerkinAt, h.vel he, h.dvel he, h.pres he]

theorem Agree.stokes (h : G.Agree w w') : G.stokes rho mu dt theta (fun _ => 0) u v w =
    G.stokes rho mu dt theta (fun _ => 0) u v w' := by
  unfold FlowMesh.stokes
  have h1 : ∀ z, G.kinetic rho w z = G.kinetic rho w' z := fun z => integral_congr fun e he g => by simp only [h.vel he]
  have h2 : ∀ z, G.laplace mu w z = G.laplace mu w' z := fun z => integral_congr fun e he g => by simp only [h.dvel he]
  have h3 : ∀ z, G.expand z w = G.expand z w' := fun z => integral_congr fun e he g => by simp only [h.dvel he]
  have h4 : ∀ z, G.expand w z = G.expand w' z := fun z => integral_congr fun e he g => by simp only [h.pres he]
  rw [h1, h2, h3, h4]

theorem Agree.expand_left (h : G.Agree w w') (z : ℕ → ℕ → ℝ) : G.expand w z = G.expand w' z :=
  integral_congr fun e he g => by simp only [h.pres he]

/-- The integrals are linear in the test field. -/
theorem kinetic_test (c c' : ℝ) (z : ℕ → ℕ → ℝ) :
    G.kinetic rho (c • w + c' • w') z = c * G.kinetic rho w z + c' * G.kinetic rho w' z := by
  unfold kinetic
  rw [integral_smul G c, integral_smul G c', integral_add]
  exact integral_congr fun e _ g => by simp only [vel_add, vel_smul, Fin.sum_univ_two]; ring

theorem convect_test (c c' : ℝ) (z : ℕ → ℕ → ℝ) :
    G.convect rho b (c • w + c' • w') z = c * G.convect rho b w z + c' * G.convect rho b w' z := by
  unfold convect
  rw [integral_smul G c, integral_smul G c', integral_add]
  exact integral_congr fun e _ g => by simp only [vel_add, vel_smul, Fin.sum_univ_two]; ring

theorem viscous_test (c c' : ℝ) (z : ℕ → ℕ → ℝ) :
    G.viscous mu (c • w + c' • w') z = c * G.viscous mu w z + c' * G.viscous mu w' z := by
  unfold viscous
  rw [integral_smul G c, integral_smul G c', integral_add]
  exact integral_congr fun e _ g => by simp only [dvel_add, dvel_smul, Fin.sum_univ_two]; ring

theorem laplace_test (c c' : ℝ) (z : ℕ → ℕ → ℝ) :
    G.laplace mu (c • w + c' • w') z = c * G.laplace mu w z + c' * G.laplace mu w' z := by
  unfold laplace
  rw [integral_smul G c, integral_smul G c', integral_add]
  exact integral_congr fun e _ g => by simp only [dvel_add, dvel_smul, Fin.sum_univ_two]; ring

theorem expand_test (c c' : ℝ) (z : ℕ → ℕ → ℝ) : G.expand (c • w + c' • w') z = c * G.expand w z + c' * G.expand w' z := by
  unfold expand
  rw [integral_smul G c, integral_smul G c', integral_add]
  exact integral_congr fun e _ g => by simp only [pres_add, pres_smul]; ring

theorem expand_right (c c' : ℝ) (z : ℕ → ℕ → ℝ) : G.expand z (c • w + c' • w') = c * G.expand z w + c' * G.expand z w' := by
  rw [expand_add_right, expand_smul_right, expand_smul_right]

theorem galerkin_test (c c' : ℝ) : G.galerkin rho mu dt theta b u v (c • w + c' • w') =
    c * G.galerkin rho mu dt theta b u v w + c' * G.galerkin rho mu dt theta b u v w' := by
  unfold galerkin
  rw [kinetic_test, convect_test, viscous_test, expand_test, expand_right (w := w)]
  ring

theorem stokes_test (c c' : ℝ) : G.stokes rho mu dt theta (fun _ => 0) u v (c • w + c' • w') =
    c * G.stokes rho mu dt theta (fun _ => 0) u v w + c' * G.stokes rho mu dt theta (fun _ => 0) u v w' := by
  unfold stokes
  generalize theta • v + (1 - theta) • u = z
  rw [kinetic_test, laplace_test, expand_test, expand_right]
  ring

/-- A field without velocities. -/
def NoVel (G : FlowMesh m n) (P : ℕ → ℕ → ℝ) : Prop := ∀ e ∈ G.elements, ∀ g, ∀ a : Fin 2, G.vel e P g a = 0 ∧
  ∀ k : Fin 2, G.dvel e P g k a = 0

theorem noVel_of (h : ∀ a, ∀ d < 2, P a d = 0) : G.NoVel P := fun e _ g a =>
  ⟨by simp [FlowMesh.vel, interp, h _ _ a.2], fun k => by simp [FlowMesh.dvel, interp, h _ _ a.2]⟩

/-- A change of the pressure changes the equation by its work on the test velocities. -/
theorem galerkin_press (hP : G.NoVel P) (c : ℝ) : G.galerkin rho mu dt theta b u (v + c • P) w =
    G.galerkin rho mu dt theta b u v w - c * G.expand P w := by
  unfold expand
  rw [galerkin_eq, galerkin_eq, integral_smul, integral_sub]
  refine integral_congr fun e he g => ?_
  simp only [galerkinAt, vel_add, vel_sub, vel_smul, dvel_add, dvel_smul, pres_add, pres_smul, Fin.sum_univ_two,
    (hP e he g _).1, (hP e he g _).2]
  ring

theorem stokes_press (hP : G.NoVel P) (c : ℝ) (load : (ℕ → ℕ → ℝ) → ℝ) : G.stokes rho mu dt theta load u (v + c • P) w =
    G.stokes rho mu dt theta load u v w - theta * c * G.expand P w := by
  unfold expand
  rw [stokes_eq, stokes_eq, integral_smul, sub_right_comm, integral_sub]
  refine congrArg (· - load w) (integral_congr fun e he g => ?_)
  simp only [stokesAt, vel_add, vel_sub, vel_smul, dvel_add, dvel_smul, pres_add, pres_smul, Fin.sum_univ_two,
    (hP e he g _).1, (hP e he g _).2]
  ring

/-- The continuity equation of a step. -/
theorem galerkin_noVel (hP : G.NoVel P) : G.galerkin rho mu dt theta b u v P = G.expand P v := by
  rw [galerkin_eq]
  refine integral_congr fun e he g => ?_
  simp only [galerkinAt, Fin.sum_univ_two, (hP e he g _).1, (hP e he g _).2]
  ring

theorem stokes_noVel (hP : G.NoVel P) (load : (ℕ → ℕ → ℝ) → ℝ) : G.stokes rho mu dt theta load u v P =
    -(theta * G.expand P v + (1 - theta) * G.expand P u) - load P := by
  rw [← expand_right, stokes_eq]
  refine congrArg (· - load P) ?_
  unfold expand
  rw [← neg_one_mul, integral_smul]
  refine integral_congr fun e he g => ?_
  simp only [stokesAt, Fin.sum_univ_two, (hP e he g _).1, (hP e he g _).2]
  ring

end FlowMesh

/-! ### One triangle -/

/-- A triangle with midside nodes. -/
def flowTriangle : FlowMesh 6 3 := ⟨SF.triangle6, SF.triangle3, IC.gauss3Triangle,
  [⟨[1, 0]⟩, ⟨[0, 1]⟩, ⟨[0, 0]⟩, ⟨[1 / 2, 1 / 2]⟩, ⟨[0, 1 / 2]⟩, ⟨[1 / 2, 0]⟩], [([0, 1, 2, 3, 4, 5], [0, 1, 2])]⟩

/-- All dofs but velocity 0 at node 5 and the pressure at node 0 are given; velocity 1 at node 5 is one. -/
def triangleGiven : List ((ℕ × ℕ) × ℝ) :=
  [((5, 1), 1), ((5, 2), 0), ((0, 0), 0), ((0, 1), 0), ((1, 0), 0), ((1, 1), 0), ((1, 2), 0), ((2, 0), 0), ((2, 1), 0),
    ((2, 2), 0), ((3, 0), 0), ((3, 1), 0), ((3, 2), 0), ((4, 0), 0), ((4, 1), 0), ((4, 2), 0)]

theorem flowTriangle_coords : flowTriangle.coords ([0, 1, 2, 3, 4, 5], [0, 1, 2]) = !![1, 0; 0, 1; 0, 0] := by
  ext i k
  fin_cases i <;> fin_cases k <;> simp [FlowMesh.coords, flowTriangle, nodal, Vec.at?, Vec.size]

theorem flowTriangle_jacobian (r : Fin 2 → ℝ) : SF.triangle3.dNdr r * (!![1, 0; 0, 1; 0, 0] : Matrix (Fin 3) (Fin 2) ℝ) = 1 := by
  ext i k
  fin_cases i <;> fin_cases k <;> simp [SF.triangle3, Matrix.mul_apply, Fin.sum_univ_succ]

theorem flowTriangle_agree {w : ℕ → ℕ → ℝ} (hw : Vanishing triangleGiven w) :
    flowTriangle.Agree w (w 5 0 • unitField 5 0 + w 0 2 • unitField 0 2) := by
  have h : ∀ a d c, ((a, d), c) ∈ triangleGiven → w a d = 0 := fun a d c h => hw _ h
  intro e he
  obtain rfl := List.mem_singleton.1 he
  refine ⟨fun i a ha => ?_, fun j => ?_⟩
  · interval_cases a <;> fin_cases i <;> simp [unitField] <;> exact h _ _ _ (by simp [triangleGiven]; rfl)
  · fin_cases j <;> simp [unitField] <;> exact h _ _ _ (by simp [triangleGiven]; rfl)

/-- The integration points of the triangle. -/
def trianglePts : Fin 3 → Fin 2 → ℝ := ![![1 / 6, 1 / 6], ![2 / 3, 1 / 6], ![1 / 6, 2 / 3]]

theorem flowTriangle_measure (g : Fin 3) :
    measure2 SF.triangle3 IC.gauss3Triangle (!![1, 0; 0, 1; 0, 0] : Matrix (Fin 3) (Fin 2) ℝ) g = 1 / 6 := by
  have : (1 / Real.sqrt 6) * (1 / Real.sqrt 6) = (1 / 6 : ℝ) := by
    rw [div_mul_div_comm, Real.mul_self_sqrt (by norm_num)]
    norm_num
  unfold measure2
  rw [flowTriangle_jacobian, Matrix.det_one, one_mul, ← this]
  match g with | 0 | 1 | 2 => rfl

theorem flowTriangle_positive : flowTriangle.Positive := by
  intro e he g
  obtain rfl := List.mem_singleton.1 he
  rw [flowTriangle_coords]
  have := flowTriangle_measure g
  exact lt_of_lt_of_eq (by norm_num) this.symm

/-- The work of the free pressure on the two velocities of node 5. -/
theorem flowTriangle_expand : flowTriangle.expand (unitField 0 2) (unitField 5 0) = -1 / 6 ∧
    flowTriangle.expand (unitField 0 2) (unitField 5 1) = -1 / 3 := by
  have hp : ∀ g : Fin 3, flowTriangle.pres ([0, 1, 2, 3, 4, 5], [0, 1, 2]) (unitField 0 2) g = trianglePts g 0 := fun g => by
    show interp (SF.triangle3.N (trianglePts g)) _ = _
    simp [interp, unitField, SF.triangle3, Fin.sum_univ_succ]
  have hd : ∀ (d k : Fin 2) (g : Fin 3), flowTriangle.dvel ([0, 1, 2, 3, 4, 5], [0, 1, 2]) (unitField 5 d) g k k =
      if k = d then SF.triangle6.dNdr (trianglePts g) k 5 else 0 := fun d k g => by
    have e : gradMix flowTriangle.sfu flowTriangle.sfp (flowTriangle.coords ([0, 1, 2, 3, 4, 5], [0, 1, 2]))
        (flowTriangle.ic.points g) = SF.triangle6.dNdr (trianglePts g) := by
      rw [flowTriangle_coords]
      show ((SF.triangle3 : SF ℝ 2 3).dNdr (trianglePts g) * (!![1, 0; 0, 1; 0, 0] : Matrix (Fin 3) (Fin 2) ℝ))⁻¹ *
        (SF.triangle6 : SF ℝ 2 6).dNdr (trianglePts g) = _
      rw [flowTriangle_jacobian, inv_one, Matrix.one_mul]
    unfold FlowMesh.dvel
    rw [e]
    unfold interp
    rw [Finset.sum_eq_single 5]
    · simp [unitField, Fin.ext_iff]
    · intro i _ hi
      fin_cases i <;> simp_all [unitField]
    · simp
  have e : ∀ d : Fin 2, flowTriangle.expand (unitField 0 2) (unitField 5 d) =
      ∑ g : Fin 3, 1 / 6 * (trianglePts g 0 * SF.triangle6.dNdr (trianglePts g) d 5) := fun d => by
    unfold FlowMesh.expand FlowMesh.integral
    show ([([0, 1, 2, 3, 4, 5], [0, 1, 2])].map _).sum = _
    rw [List.map_singleton, List.sum_singleton]
    refine Finset.sum_congr rfl fun (g : Fin 3) _ => ?_
    rw [flowTriangle_coords]
    refine congrArg₂ (· * ·) (flowTriangle_measure g) ?_
    show flowTriangle.pres _ _ g * ∑ k : Fin 2, flowTriangle.dvel _ _ g k k = _
    rw [hp]
    simp only [hd, Finset.sum_ite_eq', Finset.mem_univ, if_true]
  refine ⟨(e 0).trans ?_, (e 1).trans ?_⟩ <;> rw [Fin.sum_univ_three] <;> simp [SF.triangle6, trianglePts] <;> norm_num

theorem unitField_noVel {m n : ℕ} (G : FlowMesh m n) (a : ℕ) : G.NoVel (unitField a 2) :=
  FlowMesh.noVel_of fun b d hd => by simp [unitField]; omega

theorem triangle_unit {d : ℕ} (h : (5, d) ∉ triangleGiven.map Prod.fst) : Vanishing triangleGiven (unitField 5 d) :=
  unit_vanishing h

theorem triangle_equation {E : (ℕ → ℕ → ℝ) → (ℕ → ℕ → ℝ) → (ℕ → ℕ → ℝ) → ℝ} {u v : ℕ → ℕ → ℝ}
    (hA : ∀ w w', flowTriangle.Agree w w' → E u v w = E u v w')
    (hL : ∀ (c c' : ℝ) (w w' : ℕ → ℕ → ℝ), E u v (c • w + c' • w') = c * E u v w + c' * E u v w')
    (h1 : E u v (unitField 5 0) = 0) (h2 : E u v (unitField 0 2) = 0)
    (hb : ∀ r ∈ triangleGiven, v r.1.1 r.1.2 = u r.1.1 r.1.2) : FlowExact triangleGiven E u v :=
  ⟨fun w hw => by rw [hA _ _ (flowTriangle_agree hw), hL, h1, h2, mul_zero, mul_zero, add_zero], hb⟩

theorem triangle_boundary (u : ℕ → ℕ → ℝ) (c c' : ℝ) : ∀ r ∈ triangleGiven,
    (u + c • (unitField 5 0 : ℕ → ℕ → ℝ) + c' • (unitField 0 2 : ℕ → ℕ → ℝ) : ℕ → ℕ → ℝ) r.1.1 r.1.2 = u r.1.1 r.1.2 := by
  intro r hr
  simp only [triangleGiven, List.mem_cons, List.not_mem_nil, or_false] at hr
  rcases hr with rfl | rfl | rfl | rfl | rfl | rfl | rfl | rfl | rfl | rfl | rfl | rfl | rfl | rfl | rfl | rfl <;>
    simp [unitField]

/-- The first step on the triangle can be solved. -/
theorem triangle_galerkin (rho mu dt theta : ℝ) (b : ℕ → ℕ → ℝ) :
    ∃ v, FlowExact triangleGiven (flowTriangle.galerkin rho mu dt theta b) (unitField 5 1) v := by
  obtain ⟨E1, E2⟩ := flowTriangle_expand
  obtain ⟨A, hA⟩ : ∃ A, A = flowTriangle.galerkin rho mu dt theta b (unitField 5 1)
    (unitField 5 1 + (-2 : ℝ) • unitField 5 0) (unitField 5 0) := ⟨_, rfl⟩
  refine ⟨unitField 5 1 + (-2 : ℝ) • unitField 5 0 + (-6 * A) • unitField 0 2, triangle_equation (fun _ _ h => h.galerkin)
    (fun c c' w w' => FlowMesh.galerkin_test c c') ?_ ?_ (triangle_boundary _ _ _)⟩
  · rw [FlowMesh.galerkin_press (unitField_noVel _ 0), E1, ← hA]
    ring
  · rw [FlowMesh.galerkin_press (unitField_noVel _ 0), FlowMesh.galerkin_noVel (unitField_noVel _ 0),
      FlowMesh.expand_add_right, FlowMesh.expand_smul_right, E1, E2]
    have : flowTriangle.expand (unitField 0 2) (unitField 0 2) = 0 := by
      refine (FlowMesh.integral_congr (h := fun _ _ => 0) fun e he g => ?_).trans (by simp [FlowMesh.integral])
      simp [(unitField_noVel flowTriangle 0 e he g _).2]
    rw [this]
    ring

/-- The step of the Stokes program on the triangle from any field. -/
theorem triangle_stokes (rho mu dt : ℝ) (ht : theta ≠ 0) (u : ℕ → ℕ → ℝ) :
    ∃ v, FlowExact triangleGiven (flowTriangle.stokes rho mu dt theta fun _ => 0) u v := by
  obtain ⟨E1, -⟩ := flowTriangle_expand
  obtain ⟨E, hE⟩ : ∃ E, E = flowTriangle.expand (unitField 0 2) u := ⟨_, rfl⟩
  obtain ⟨A, hA⟩ : ∃ A, A = flowTriangle.stokes rho mu dt theta (fun _ => 0) u
    (u + (6 * E / theta) • unitField 5 0) (unitField 5 0) := ⟨_, rfl⟩
  refine ⟨u + (6 * E / theta) • unitField 5 0 + (-6 * A / theta) • unitField 0 2,
    triangle_equation (fun _ _ h => h.stokes) (fun c c' w w' => FlowMesh.stokes_test c c') ?_ ?_ (triangle_boundary _ _ _)⟩
  · rw [FlowMesh.stokes_press (unitField_noVel _ 0), E1, ← hA]
    field_simp
    ring
  · rw [FlowMesh.stokes_press (unitField_noVel _ 0), FlowMesh.stokes_noVel (unitField_noVel _ 0),
      FlowMesh.expand_add_right, FlowMesh.expand_smul_right, E1, ← hE]
    have : flowTriangle.expand (unitField 0 2) (unitField 0 2) = 0 := by
      refine (FlowMesh.integral_congr (h := fun _ _ => 0) fun e he g => ?_).trans (by simp [FlowMesh.integral])
      simp [(unitField_noVel flowTriangle 0 e he g _).2]
    rw [this]
    field_simp
    ring

/-- All pressures are given: velocity 0 at node 5 is the only unknown. -/
def triangleClosed : List ((ℕ × ℕ) × ℝ) := ((0, 2), 0) :: triangleGiven

theorem triangleClosed_agree {w : ℕ → ℕ → ℝ} (hw : Vanishing triangleClosed w) : flowTriangle.Agree w (w 5 0 • unitField 5 0) := by
  have h := flowTriangle_agree (w := w) fun r hr => hw r (List.mem_cons_of_mem _ hr)
  have h0 : w 0 2 = 0 := hw ((0, 2), 0) (List.mem_cons_self ..)
  rw [h0, zero_smul, add_zero] at h
  exact h

theorem triangle_kinetic : 0 < flowTriangle.kinetic 1 (unitField 5 0) (unitField 5 0) := by
  by_contra hc
  have h := FlowMesh.integral_eq_zero flowTriangle_positive (fun e _ g => by
    rw [one_mul, Fin.sum_univ_two]
    exact add_nonneg (mul_self_nonneg _) (mul_self_nonneg _)) (not_lt.1 hc) ([0, 1, 2, 3, 4, 5], [0, 1, 2])
    (List.mem_singleton.2 rfl) (0 : Fin 3)
  have h0 : flowTriangle.vel ([0, 1, 2, 3, 4, 5], [0, 1, 2]) (unitField 5 0) (0 : Fin 3) 0 = 4 / 9 := by
    show interp (SF.triangle6.N (trianglePts 0)) _ = _
    simp [interp, unitField, SF.triangle6, Fin.sum_univ_succ, trianglePts]
    norm_num
  rw [one_mul, Fin.sum_univ_two] at h
  have h1 := mul_self_nonneg (flowTriangle.vel ([0, 1, 2, 3, 4, 5], [0, 1, 2]) (unitField 5 0) (0 : Fin 3) ((1 : Fin 2) : ℕ))
  have h2 : flowTriangle.vel ([0, 1, 2, 3, 4, 5], [0, 1, 2]) (unitField 5 0) (0 : Fin 3) ((0 : Fin 2) : ℕ) = 4 / 9 := h0
  rw [h2] at h
  linarith

/-- A step from a velocity that is not zero with given values zero. -/
theorem triangle_decay : ∃ v, FlowExact triangleClosed (flowTriangle.galerkin 1 (1 / 1000) (1 / 10) (1 / 2) 0)
    (unitField 5 0) v ∧ Vanishing triangleClosed (unitField 5 0) ∧ flowTriangle.DivFree triangleClosed (unitField 5 0) := by
  have hk := triangle_kinetic
  have hv : 0 ≤ flowTriangle.viscous (1 / 1000) (unitField 5 0) (unitField 5 0) :=
    FlowMesh.integral_nonneg flowTriangle_positive fun e _ g => mul_nonneg (by norm_num)
      (Finset.sum_nonneg fun a _ => Finset.sum_nonneg fun k _ => mul_self_nonneg _)
  obtain ⟨A, hA⟩ : ∃ A, A = flowTriangle.kinetic 1 (unitField 5 0) (unitField 5 0) := ⟨_, rfl⟩
  obtain ⟨B, hB⟩ : ∃ B, B = flowTriangle.viscous (1 / 1000) (unitField 5 0) (unitField 5 0) := ⟨_, rfl⟩
  rw [← hA] at hk
  rw [← hB] at hv
  have hvan : Vanishing triangleClosed (unitField 5 0) := unit_vanishing (by simp [triangleClosed, triangleGiven])
  have hpres : ∀ c : ℝ, ∀ w, flowTriangle.expand (c • unitField 5 0) w = 0 := fun c w => by
    refine (FlowMesh.integral_congr (h := fun _ _ => 0) fun e he g => ?_).trans (by simp [FlowMesh.integral])
    simp [FlowMesh.pres, interp, unitField]
  refine ⟨((10 * A - B / 2) / (10 * A + B / 2)) • unitField 5 0, ⟨fun w hw => ?_, fun r hr => ?_⟩, hvan, fun q hq => ?_⟩
  · rw [(triangleClosed_agree hw).galerkin]
    have hc := FlowMesh.galerkin_test (G := flowTriangle) (rho := 1) (mu := 1 / 1000) (dt := 1 / 10) (theta := 1 / 2) (b := 0)
      (u := unitField 5 0) (v := ((10 * A - B / 2) / (10 * A + B / 2)) • unitField 5 0) (w := unitField 5 0) (w' := 0) (w 5 0) 0
    rw [zero_smul, add_zero, zero_mul, add_zero] at hc
    rw [hc]
    refine mul_eq_zero_of_right _ ?_
    obtain ⟨c, hc'⟩ : ∃ c, c = (10 * A - B / 2) / (10 * A + B / 2) := ⟨_, rfl⟩
    rw [← hc']
    unfold FlowMesh.galerkin
    have k1 : flowTriangle.kinetic 1 (unitField 5 0) ((1 / 10 : ℝ)⁻¹ • (c • unitField 5 0 - unitField 5 0)) =
        10 * (c - 1) * A := by
      rw [hA]
      unfold FlowMesh.kinetic
      rw [FlowMesh.integral_smul]
      exact FlowMesh.integral_congr fun e _ g => by
        simp only [FlowMesh.vel_smul, FlowMesh.vel_sub, Fin.sum_univ_two]
        ring
    have k2 : flowTriangle.convect 1 0 (unitField 5 0) ((1 / 2 : ℝ) • c • unitField 5 0 + (1 - 1 / 2 : ℝ) • unitField 5 0) =
        0 := by
      refine (FlowMesh.integral_congr (h := fun _ _ => 0) fun e he g => ?_).trans (by simp [FlowMesh.integral])
      simp [FlowMesh.vel, interp]
    have k3 : flowTriangle.viscous (1 / 1000) (unitField 5 0)
        ((1 / 2 : ℝ) • c • unitField 5 0 + (1 - 1 / 2 : ℝ) • unitField 5 0) = (c + 1) / 2 * B := by
      rw [hB]
      unfold FlowMesh.viscous
      rw [FlowMesh.integral_smul]
      exact FlowMesh.integral_congr fun e _ g => by
        simp only [FlowMesh.dvel_smul, FlowMesh.dvel_add, Fin.sum_univ_two]
        ring
    have k4 := hpres 1 (c • unitField 5 0)
    rw [one_smul] at k4
    rw [k1, k2, k3, hpres, k4, hc']
    have : 10 * A + B / 2 ≠ 0 := by positivity
    field_simp
    ring
  · show _ * (unitField 5 0 r.1.1 r.1.2 : ℝ) = unitField 5 0 r.1.1 r.1.2
    rw [hvan r hr, mul_zero]
  · rw [(triangleClosed_agree hq).expand_left, hpres]

end Pansfem
