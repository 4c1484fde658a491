/-
**C128**: whether a step of the programs with velocities and pressure in one system determines the new field.

It does not: the pressure of nodes that belong to no pressure element is free (all midside nodes of the meshes with eight and
six nodes), and in the driven cavity, where no pressure is given, so is the level of the pressure.  The system of equations of
every step is singular then.  What is determined are the velocities, and the pressure up to fields that do no work.
-/
import Verif.Props.C127_Flow

noncomputable section

open Matrix

namespace Pansfem

variable {m n : ℕ} {bc : List ((ℕ × ℕ) × ℝ)} {rho mu dt theta : ℝ}

namespace FlowMesh
variable {G : FlowMesh m n} {b u v w P : ℕ → ℕ → ℝ}

theorem expand_zero (h : ∀ e ∈ G.elements, ∀ g, G.pres e P g = 0) : G.expand P w = 0 :=
  (integral_congr (h := fun _ _ => 0) fun e he g => by rw [h e he g, zero_mul]).trans (by simp [integral])

/-- A pressure that no element refers to. -/
theorem unit_unused {a : ℕ} (hl : ∀ e ∈ G.elements, e.2.length = n) (ha : ∀ e ∈ G.elements, a ∉ e.2) :
    ∀ e ∈ G.elements, ∀ g, G.pres e (unitField a 2) g = 0 := fun e he g => by
  unfold pres interp
  refine Finset.sum_eq_zero fun j _ => mul_eq_zero_of_right _ ?_
  unfold unitField
  refine if_neg fun hj => ha e he ?_
  have hlt : (j : ℕ) < e.2.length := by rw [hl e he]; exact j.2
  rw [← hj.1, List.getElem?_eq_getElem hlt, Option.getD_some]
  exact List.getElem_mem _

end FlowMesh

/-- **C128**: the pressure at a node that belongs to no pressure element is arbitrary. -/
theorem C128_unused (G : FlowMesh m n) (hl : ∀ e ∈ G.elements, e.2.length = n) {a : ℕ} (ha : ∀ e ∈ G.elements, a ∉ e.2)
    (hbc : (a, 2) ∉ bc.map Prod.fst) {u v : ℕ → ℕ → ℝ} (c : ℝ) :
    (∀ b, FlowExact bc (G.galerkin rho mu dt theta b) u v →
      FlowExact bc (G.galerkin rho mu dt theta b) u (v + c • unitField a 2)) ∧
    ∀ load, FlowExact bc (G.stokes rho mu dt theta load) u v →
      FlowExact bc (G.stokes rho mu dt theta load) u (v + c • unitField a 2) := by
  have hb : ∀ r ∈ bc, (v + c • (unitField a 2 : ℕ → ℕ → ℝ)) r.1.1 r.1.2 = v r.1.1 r.1.2 := fun r hr => by
    show v r.1.1 r.1.2 + c * unitField a 2 r.1.1 r.1.2 = _
    rw [unit_vanishing hbc r hr, mul_zero, add_zero]
  have he : ∀ w, G.expand (unitField a 2) w = 0 := fun w => FlowMesh.expand_zero (FlowMesh.unit_unused hl ha)
  refine ⟨fun b h => ⟨fun w hw => ?_, fun r hr => (hb r hr).trans (h.boundary r hr)⟩,
    fun load h => ⟨fun w hw => ?_, fun r hr => (hb r hr).trans (h.boundary r hr)⟩⟩
  · rw [FlowMesh.galerkin_press (unitField_noVel G a), he, mul_zero, sub_zero, h.equation w hw]
  · rw [FlowMesh.stokes_press (unitField_noVel G a), he, mul_zero, sub_zero, h.equation w hw]

/-- `C128_unused`: a midside node of the square after a step on it. -/
example {v : ℕ → ℕ → ℝ} (h : FlowExact [((0, 0), 0), ((0, 1), 0)] (flowSquare.galerkin 1 (1 / 1000) (1 / 10) (1 / 2) 0) 0 v) :
    FlowExact [((0, 0), 0), ((0, 1), 0)] (flowSquare.galerkin 1 (1 / 1000) (1 / 10) (1 / 2) 0) 0 (v + (7 : ℝ) • unitField 4 2) :=
  (C128_unused flowSquare flowSquare_valid.lengthp (a := 4) (by simp [flowSquare, galerkinMesh]) (by simp) 7).1 0 h

/-- Rest is an exact step. -/
theorem flow_still (G : FlowMesh m n) (b : ℕ → ℕ → ℝ) : FlowExact bc (G.galerkin rho mu dt theta b) 0 0 ∧
    FlowExact bc (G.stabilised rho mu dt theta b) 0 0 := by
  have z : theta • (0 : ℕ → ℕ → ℝ) + (1 - theta) • (0 : ℕ → ℕ → ℝ) = 0 := by simp
  have z' : dt⁻¹ • ((0 : ℕ → ℕ → ℝ) - 0) = 0 := by simp
  have v0 : ∀ e g a, G.vel e 0 g a = 0 := fun e g a => by simp [FlowMesh.vel, interp]
  have d0 : ∀ e g k a, G.dvel e 0 g k a = 0 := fun e g k a => by simp [FlowMesh.dvel, interp]
  have p0 : ∀ e g, G.pres e 0 g = 0 := fun e g => by simp [FlowMesh.pres, interp]
  have q0 : ∀ e g k, G.dpres e 0 g k = 0 := fun e g k => by simp [FlowMesh.dpres, interp]
  have hg : ∀ w, G.galerkin rho mu dt theta b 0 0 w = 0 := fun w => by
    rw [FlowMesh.galerkin_eq]
    refine (FlowMesh.integral_congr (h := fun _ _ => 0) fun e he g => ?_).trans (by simp [FlowMesh.integral])
    simp [FlowMesh.galerkinAt, z, z', v0, d0, p0]
  refine ⟨⟨fun w _ => hg w, fun _ _ => rfl⟩, fun w _ => ?_, fun _ _ => rfl⟩
  unfold FlowMesh.stabilised
  rw [hg, zero_add]
  refine (FlowMesh.integral_congr (h := fun _ _ => 0) fun e he g => ?_).trans (by simp [FlowMesh.integral])
  simp [FlowMesh.momentum, z, z', v0, d0, q0]

/-- **C128** fails: the steps of sample_navierstokes_dynamic.cpp do not determine the new field on a valid mesh. -/
theorem C128_determined_false :
    ¬ ∀ (x : List (Vec ℝ)) (elements : List (List ℕ × List ℕ)) (bc : List ((ℕ × ℕ) × ℝ)) (u v v' : ℕ → ℕ → ℝ),
      (galerkinMesh x elements).Valid → (galerkinMesh x elements).Positive →
      FlowExact bc ((galerkinMesh x elements).galerkin 1 (1 / 1000) (1 / 10) (1 / 2) 0) u v →
      FlowExact bc ((galerkinMesh x elements).galerkin 1 (1 / 1000) (1 / 10) (1 / 2) 0) u v' →
      ∀ a < x.length, ∀ d < 3, v a d = v' a d := by
  intro H
  have h0 := (flow_still (bc := []) (rho := 1) (mu := 1 / 1000) (dt := 1 / 10) (theta := 1 / 2) flowSquare 0).1
  have h1 := (C128_unused flowSquare flowSquare_valid.lengthp (a := 4) (by simp [flowSquare, galerkinMesh]) (by simp) 1).1 0 h0
  have := H flowNodes _ [] 0 0 _ flowSquare_valid flowSquare_positive h0 h1 4 (by simp [flowNodes]) 2 (by norm_num)
  simp [unitField] at this

/-! ### The cavity -/

/-- Pressure one everywhere. -/
def levelField (_ d : ℕ) : ℝ := if d = 2 then 1 else 0

theorem levelField_noVel (G : FlowMesh m n) : G.NoVel levelField := FlowMesh.noVel_of fun _ d hd => if_neg (by omega)

theorem mem_of_lastValue {bc : List ((ℕ × ℕ) × ℝ)} {a d : ℕ} {c : ℝ} (h : lastValue bc a d = some c) : ∃ r ∈ bc, r.1 = (a, d) := by
  unfold lastValue at h
  obtain ⟨r, hr, -⟩ := Option.map_eq_some_iff.1 h
  exact ⟨r, List.mem_reverse.1 (List.mem_of_find?_eq_some hr), by simpa using List.find?_some hr⟩

section
variable {k : ℕ}

theorem cavity_cell (hk : 0 < k) {i j : ℕ} (hi : i < k) (hj : j < k) (G : FlowMesh 4 4)
    (hG : G = supgMesh (asVectors (squareNodes4 ⟨1, 1, k, k⟩)) (squareCells4 ⟨1, 1, k, k⟩)) :
    G.coords (quad (squareNode k) (· + 1) (i, j), quad (squareNode k) (· + 1) (i, j)) =
      rect (1 * ((i : ℝ) / k)) (1 * ((j : ℝ) / k)) (1 / k) (1 / k) := by
  subst hG
  exact cell_coords (m := ⟨1, 1, k, k⟩) hi hj

/-- The divergence of a velocity integrated over a cell is the flow through its sides. -/
theorem cavity_flux (hk : 0 < k) {i j : ℕ} (hi : i < k) (hj : j < k) (w : ℕ → ℕ → ℝ) (G : FlowMesh 4 4)
    (hG : G = supgMesh (asVectors (squareNodes4 ⟨1, 1, k, k⟩)) (squareCells4 ⟨1, 1, k, k⟩)) :
    ∑ g, measure2 G.sfp G.ic (G.coords (quad (squareNode k) (· + 1) (i, j), quad (squareNode k) (· + 1) (i, j))) g *
      (G.pres (quad (squareNode k) (· + 1) (i, j), quad (squareNode k) (· + 1) (i, j)) levelField g *
        ∑ c : Fin 2, G.dvel (quad (squareNode k) (· + 1) (i, j), quad (squareNode k) (· + 1) (i, j)) w g c c) =
      1 / (2 * k) * ((w (squareNode k (i + 1) j) 0 + w (squareNode k (i + 1) (j + 1)) 0) -
        (w (squareNode k i j) 0 + w (squareNode k i (j + 1)) 0)) +
      1 / (2 * k) * ((w (squareNode k i (j + 1)) 1 + w (squareNode k (i + 1) (j + 1)) 1) -
        (w (squareNode k i j) 1 + w (squareNode k (i + 1) j) 1)) := by
  have hc := cavity_cell hk hi hj G hG
  have hk' : (1 / (k : ℝ)) ≠ 0 := by positivity
  obtain ⟨e, he⟩ : ∃ e, e = quad (squareNode k) (· + 1) (i, j) := ⟨_, rfl⟩
  have c0 := cell_comp (m := (⟨1, 1, k, k⟩ : SquareMesh ℝ)) i j w 0
  have c1 := cell_comp (m := (⟨1, 1, k, k⟩ : SquareMesh ℝ)) i j w 1
  rw [show (⟨1, 1, k, k⟩ : SquareMesh ℝ).ny = k from rfl, ← he] at c0 c1
  rw [← he] at hc ⊢
  rw [hc]
  have hs : ∀ g, G.pres (e, e) levelField g * ∑ c : Fin 2, G.dvel (e, e) w g c c =
      (fun r : Fin 2 → ℝ => (bilinear4 (nodeComp e w 0) 0 + bilinear4 (nodeComp e w 0) 2 * r 1) / (2 * (1 / k)) +
        (bilinear4 (nodeComp e w 1) 1 + bilinear4 (nodeComp e w 1) 2 * r 0) / (2 * (1 / k))) (G.ic.points g) := by
    intro g
    have hp : G.pres (e, e) levelField g = 1 := by
      subst hG
      have := partition_square4 (K := ℝ) (IC.gauss4Square.points g)
      unfold FlowMesh.pres interp
      simp only [levelField, if_true, mul_one]
      exact this
    have hd : ∀ c : Fin 2, G.dvel (e, e) w g c c =
        interp (gradAt SF.square4 (rect (1 * ((i : ℝ) / k)) (1 * ((j : ℝ) / k)) (1 / k) (1 / k)) (G.ic.points g) c)
          (nodeComp e w c) := fun c => by
      unfold FlowMesh.dvel
      rw [hc]
      subst hG
      rfl
    rw [hp, one_mul, Fin.sum_univ_two, hd, hd, (rect_grad hk' hk' _ _).1, (rect_grad hk' hk' _ _).2]
    rfl
  simp only [hs]
  subst hG
  refine (rect_integral (p := 1 * ((i : ℝ) / k)) (q := 1 * ((j : ℝ) / k)) (a := 1 / k) (b := 1 / k)
    (fun r : Fin 2 → ℝ => (bilinear4 (nodeComp e w 0) 0 + bilinear4 (nodeComp e w 0) 2 * r 1) / (2 * (1 / k)) +
        (bilinear4 (nodeComp e w 1) 1 + bilinear4 (nodeComp e w 1) 2 * r 0) / (2 * (1 / k)))
    (c0 := (bilinear4 (nodeComp e w 0) 0 + bilinear4 (nodeComp e w 1) 1) / (2 * (1 / k)))
    (c1 := bilinear4 (nodeComp e w 1) 2 / (2 * (1 / k))) (c2 := bilinear4 (nodeComp e w 0) 2 / (2 * (1 / k)))
    (c3 := 0) (c4 := 0) (c5 := 0) (c6 := 0) (c7 := 0) (c8 := 0) (fun r => by ring)).trans ?_
  rw [c0, c1]
  have : (k : ℝ) ≠ 0 := by positivity
  simp only [bilinear4, cons_val_zero, cons_val_one, cons_val]
  field_simp
  ring

/-- A constant pressure does no work on velocities that vanish at the walls. -/
theorem cavity_work (hk : 0 < k) {w : ℕ → ℕ → ℝ} (G : FlowMesh 4 4)
    (hG : G = supgMesh (asVectors (squareNodes4 ⟨1, 1, k, k⟩)) (squareCells4 ⟨1, 1, k, k⟩))
    (hw : ∀ i ≤ k, ∀ j ≤ k, (i = 0 ∨ i = k ∨ j = 0 ∨ j = k) → ∀ d < 2, w (squareNode k i j) d = 0) :
    G.expand levelField w = 0 := by
  have e : G.expand levelField w = ∑ i ∈ Finset.range k, ∑ j ∈ Finset.range k,
      (1 / (2 * k) * ((w (squareNode k (i + 1) j) 0 + w (squareNode k (i + 1) (j + 1)) 0) -
        (w (squareNode k i j) 0 + w (squareNode k i (j + 1)) 0)) +
      1 / (2 * k) * ((w (squareNode k i (j + 1)) 1 + w (squareNode k (i + 1) (j + 1)) 1) -
        (w (squareNode k i j) 1 + w (squareNode k (i + 1) j) 1))) := by
    have hl : G.elements = (grid k k Prod.mk).map fun c =>
        (quad (squareNode k) (· + 1) c, quad (squareNode k) (· + 1) c) := by
      subst hG
      simp only [supgMesh, squareCells4, List.map_map]
      rfl
    unfold FlowMesh.expand FlowMesh.integral
    rw [hl, List.map_map, map_grid, sum_grid]
    refine Finset.sum_congr rfl fun i hi => Finset.sum_congr rfl fun j hj => ?_
    exact cavity_flux hk (Finset.mem_range.1 hi) (Finset.mem_range.1 hj) w G hG
  rw [e]
  simp only [Finset.sum_add_distrib, ← Finset.mul_sum]
  rw [Finset.sum_comm]
  have h1 : ∀ j ∈ Finset.range k, ∑ i ∈ Finset.range k, ((w (squareNode k (i + 1) j) 0 + w (squareNode k (i + 1) (j + 1)) 0) -
      (w (squareNode k i j) 0 + w (squareNode k i (j + 1)) 0)) = 0 := fun j hj => by
    have hj := Finset.mem_range.1 hj
    rw [Finset.sum_range_sub fun i => w (squareNode k i j) 0 + w (squareNode k i (j + 1)) 0,
      hw k le_rfl j hj.le (.inr (.inl rfl)) 0 (by norm_num), hw k le_rfl (j + 1) hj (.inr (.inl rfl)) 0 (by norm_num),
      hw 0 (Nat.zero_le _) j hj.le (.inl rfl) 0 (by norm_num), hw 0 (Nat.zero_le _) (j + 1) hj (.inl rfl) 0 (by norm_num)]
    ring
  have h2 : ∀ i ∈ Finset.range k, ∑ j ∈ Finset.range k, ((w (squareNode k i (j + 1)) 1 + w (squareNode k (i + 1) (j + 1)) 1) -
      (w (squareNode k i j) 1 + w (squareNode k (i + 1) j) 1)) = 0 := fun i hi => by
    have hi := Finset.mem_range.1 hi
    rw [Finset.sum_range_sub fun j => w (squareNode k i j) 1 + w (squareNode k (i + 1) j) 1,
      hw i hi.le k le_rfl (.inr (.inr (.inr rfl))) 1 (by norm_num), hw (i + 1) hi k le_rfl (.inr (.inr (.inr rfl))) 1 (by norm_num),
      hw i hi.le 0 (Nat.zero_le _) (.inr (.inr (.inl rfl))) 1 (by norm_num),
      hw (i + 1) hi 0 (Nat.zero_le _) (.inr (.inr (.inl rfl))) 1 (by norm_num)]
    ring
  rw [Finset.sum_eq_zero h1, Finset.sum_eq_zero h2]
  ring

theorem cavity_level (hk : 0 < k) (G : FlowMesh 4 4)
    (hG : G = supgMesh (asVectors (squareNodes4 ⟨1, 1, k, k⟩)) (squareCells4 ⟨1, 1, k, k⟩)) :
    ∀ e ∈ G.elements, ∀ g c, G.dpres e levelField g c = 0 := by
  intro e he g c
  have he' : ∃ i < k, ∃ j < k, e = (quad (squareNode k) (· + 1) (i, j), quad (squareNode k) (· + 1) (i, j)) := by
    rw [hG] at he
    obtain ⟨q, hq, rfl⟩ := List.mem_map.1 he
    obtain ⟨r, hr, rfl⟩ := List.mem_map.1 hq
    obtain ⟨i, hi, j, hj, rfl⟩ := mem_grid.1 hr
    exact ⟨i, hi, j, hj, rfl⟩
  obtain ⟨i, hi, j, hj, rfl⟩ := he'
  have hk' : (1 / (k : ℝ)) ≠ 0 := by positivity
  unfold FlowMesh.dpres
  rw [cavity_cell hk hi hj G hG]
  subst hG
  have z : (fun j' : Fin 4 => levelField ((quad (squareNode k) (· + 1) (i, j))[(j' : ℕ)]?.getD 0) 2) = fun _ => 1 := by
    funext j'
    exact if_pos rfl
  show interp (gradAt SF.square4 _ (IC.gauss4Square.points g) c) (fun j' : Fin 4 =>
    levelField ((quad (squareNode k) (· + 1) (i, j))[(j' : ℕ)]?.getD 0) 2) = 0
  rw [z]
  match c with
  | 0 => rw [(rect_grad hk' hk' _ _).1]; simp [bilinear4]
  | 1 => rw [(rect_grad hk' hk' _ _).2]; simp [bilinear4]

end

/-- **C128**: the driven cavity of sample_navierstokesSUPG_dynamic.cpp on every grid: the pressure of a step is determined up to a
constant at most, for every advection velocity. -/
theorem C128_cavity {k : ℕ} (h0 : 0 < k) (hk : k ≤ 300) (rho mu dt theta : ℝ) (tmax : ℕ) :
    ∃ (x : List (Vec ℝ)) (elements : List (List ℕ)) (bc : List ((ℕ × ℕ) × ℝ)), CavityMesh k x elements bc ∧
      cavitySUPG ⟨1, 1, k, k⟩ rho mu dt theta tmax = navierStokesSUPG x elements bc rho mu dt theta (tmax + 1) ∧
      ∀ b u v, FlowExact bc ((supgMesh x elements).stabilised rho mu dt theta b) u v → ∀ c : ℝ,
        FlowExact bc ((supgMesh x elements).stabilised rho mu dt theta b) u (v + c • levelField) := by
  obtain ⟨P, e, hP, hX, hE, hO⟩ := cavity_mesh h0 hk rho mu dt theta tmax
  refine ⟨P.x, P.elements, P.ufixed, hP, e, fun b u v h c => ?_⟩
  obtain ⟨G, hG⟩ : ∃ G, G = supgMesh (asVectors (squareNodes4 ⟨1, 1, k, k⟩)) (squareCells4 ⟨1, 1, k, k⟩) := ⟨_, rfl⟩
  rw [hX, hE, ← hG] at h ⊢
  refine ⟨fun w hw => ?_, fun r hr => ?_⟩
  · have h1 : G.expand levelField w = 0 := cavity_work h0 G hG fun i hi j hj hij d hd => by
      have hl := hP.given i hi j hj d
      rw [if_pos hd] at hl
      have : ∃ c, lastValue P.ufixed ((k + 1) * i + j) d = some c := by
        rw [hl]
        by_cases hjk : j = k
        · exact ⟨_, if_pos hjk⟩
        · rw [if_neg hjk, if_pos (by tauto)]
          exact ⟨_, rfl⟩
      obtain ⟨c', hc'⟩ := this
      obtain ⟨r, hr, hr'⟩ := mem_of_lastValue hc'
      have := hw r hr
      rw [hr'] at this
      exact this
    have h2 := h.equation w hw
    unfold FlowMesh.stabilised at h2 ⊢
    rw [FlowMesh.galerkin_press (levelField_noVel G), h1, mul_zero, sub_zero]
    refine Eq.trans ?_ h2
    refine congrArg₂ (· + ·) rfl (FlowMesh.integral_congr fun e he g => ?_)
    refine congrArg₂ (· * ·) rfl (Finset.sum_congr rfl fun a _ => ?_)
    refine congrArg₂ (· * ·) rfl ?_
    simp only [FlowMesh.momentum, FlowMesh.vel_smul, FlowMesh.vel_sub, FlowMesh.vel_add, FlowMesh.dvel_add, FlowMesh.dvel_smul,
      FlowMesh.dpres_add, FlowMesh.dpres_smul, cavity_level h0 G hG e he, (levelField_noVel G e he g _).1,
      (levelField_noVel G e he g _).2, mul_zero, add_zero]
  · rw [← h.boundary r hr]
    show v r.1.1 r.1.2 + c * levelField r.1.1 r.1.2 = v r.1.1 r.1.2
    have : r.1.2 ≠ 2 := by
      have := (hO.ufixedRange r hr).2
      omega
    rw [levelField, if_neg this, mul_zero, add_zero]

/-- **C128** fails for the driven cavity on every grid. -/
theorem C128_cavity_false {k : ℕ} (h0 : 0 < k) (hk : k ≤ 300) (rho mu dt theta : ℝ) (tmax : ℕ) :
    ∃ (x : List (Vec ℝ)) (elements : List (List ℕ)) (bc : List ((ℕ × ℕ) × ℝ)),
      cavitySUPG ⟨1, 1, k, k⟩ rho mu dt theta tmax = navierStokesSUPG x elements bc rho mu dt theta (tmax + 1) ∧
      ¬ ∀ b u v v', FlowExact bc ((supgMesh x elements).stabilised rho mu dt theta b) u v →
        FlowExact bc ((supgMesh x elements).stabilised rho mu dt theta b) u v' → ∀ a < x.length, ∀ d < 3, v a d = v' a d := by
  obtain ⟨x, elements, bc, h1, h2, h3⟩ := C128_cavity h0 hk rho mu dt theta tmax
  refine ⟨x, elements, bc, h2, fun H => ?_⟩
  have e := (flow_still (bc := bc) (rho := rho) (mu := mu) (dt := dt) (theta := theta) (supgMesh x elements) 0).2
  have := H 0 0 0 _ e (h3 0 0 0 e 1) 0 (by rw [h1.nodes]; positivity) 2 (by norm_num)
  simp [levelField] at this

/-- `C128_cavity` and `C128_cavity_false`: the grid of the sample. -/
example : ∃ (x : List (Vec ℝ)) (elements : List (List ℕ)) (bc : List ((ℕ × ℕ) × ℝ)), CavityMesh 30 x elements bc ∧
    FlowExact bc ((supgMesh x elements).stabilised 1 (1 / 1000) (1 / 100) (1 / 2) 0) 0 (0 + (5 : ℝ) • levelField) := by
  obtain ⟨x, elements, bc, h1, -, h3⟩ := C128_cavity (k := 30) (by norm_num) (by norm_num) 1 (1 / 1000) (1 / 100) (1 / 2) 10000
  exact ⟨x, elements, bc, h1, h3 0 0 0 (flow_still _ 0).2 5⟩

/-! ### What is determined -/

namespace FlowMesh
variable {G : FlowMesh m n} {b u v v' w : ℕ → ℕ → ℝ}

theorem galerkin_sub : G.galerkin rho mu dt theta b u v' w - G.galerkin rho mu dt theta b u v w =
    dt⁻¹ * G.kinetic rho w (v' - v) + theta * (G.convect rho b w (v' - v) + G.viscous mu w (v' - v)) -
      G.expand (v' - v) w + G.expand w (v' - v) := by
  rw [galerkin_eq, galerkin_eq]
  unfold kinetic convect viscous expand
  rw [integral_add, integral_smul, integral_smul, integral_add, integral_sub, integral_sub, integral_add]
  refine integral_congr fun e _ g => ?_
  simp only [galerkinAt, vel_add, vel_sub, vel_smul, dvel_add, dvel_sub, dvel_smul, pres_sub, Fin.sum_univ_two]
  ring

theorem stokes_sub (load : (ℕ → ℕ → ℝ) → ℝ) : G.stokes rho mu dt theta load u v' w - G.stokes rho mu dt theta load u v w =
    dt⁻¹ * G.kinetic rho w (v' - v) + theta * (G.laplace mu w (v' - v) - G.expand (v' - v) w - G.expand w (v' - v)) := by
  rw [stokes_eq, stokes_eq, sub_sub_sub_cancel_right]
  unfold kinetic laplace expand
  rw [integral_sub, integral_smul, integral_sub, integral_sub, integral_smul, integral_add]
  refine integral_congr fun e _ g => ?_
  simp only [stokesAt, vel_add, vel_sub, vel_smul, dvel_add, dvel_sub, dvel_smul, pres_add, pres_sub, pres_smul, Fin.sum_univ_two]
  ring

/-- Equal velocities at the nodes of the elements. -/
def SameVel (G : FlowMesh m n) (v v' : ℕ → ℕ → ℝ) : Prop := ∀ e ∈ G.elements, ∀ i : Fin m, ∀ a < 2,
  v (e.1[(i : ℕ)]?.getD 0) a = v' (e.1[(i : ℕ)]?.getD 0) a

theorem SameVel.noVel (h : G.SameVel v v') : G.NoVel (v' - v) := fun e he g a =>
  ⟨by simp [vel, interp, h e he _ _ a.2], fun k => by simp [dvel, interp, h e he _ _ a.2]⟩

end FlowMesh

/-- **C128**, the part that holds for sample_navierstokes_dynamic.cpp: on a mesh with positive orientation, if convection by the
advection velocity does no negative work (as in the first step, where it is zero), the fields that satisfy a step exactly are those
with the same velocities at the nodes of the elements and pressures that differ by a field that does no work.  Missing: the
pressure itself. -/
theorem C128_determined_partial (x : List (Vec ℝ)) (elements : List (List ℕ × List ℕ)) (hG : (galerkinMesh x elements).Positive)
    (hr : 0 < rho) (hmu : 0 ≤ mu) (hdt : 0 < dt) (ht : 0 ≤ theta) {b u v v' : ℕ → ℕ → ℝ}
    (hb : ∀ w, Vanishing bc w → 0 ≤ (galerkinMesh x elements).convect rho b w w)
    (h : FlowExact bc ((galerkinMesh x elements).galerkin rho mu dt theta b) u v) :
    FlowExact bc ((galerkinMesh x elements).galerkin rho mu dt theta b) u v' ↔
      (∀ r ∈ bc, v' r.1.1 r.1.2 = v r.1.1 r.1.2) ∧ (galerkinMesh x elements).SameVel v v' ∧
      ∀ w, Vanishing bc w → (galerkinMesh x elements).expand (v' - v) w = 0 := by
  obtain ⟨G, hGe⟩ : ∃ G, G = galerkinMesh x elements := ⟨_, rfl⟩
  rw [← hGe] at hG hb h ⊢
  have press : G.SameVel v v' → ∀ w, G.galerkin rho mu dt theta b u v' w = G.galerkin rho mu dt theta b u v w -
      G.expand (v' - v) w := fun hs w => by
    have := FlowMesh.galerkin_press (rho := rho) (mu := mu) (dt := dt) (theta := theta) (b := b) (u := u) (v := v) (w := w)
      hs.noVel 1
    rwa [one_smul, one_mul, add_sub_cancel] at this
  refine ⟨fun h' => ?_, fun ⟨h1, h2, h3⟩ => ⟨fun w hw => ?_, fun r hr => (h1 r hr).trans (h.boundary r hr)⟩⟩
  · have hd : Vanishing bc (v' - v) := fun r hr => by
      show v' r.1.1 r.1.2 - v r.1.1 r.1.2 = 0
      rw [h'.boundary r hr, h.boundary r hr, sub_self]
    have hs : G.SameVel v v' := by
      have e := FlowMesh.galerkin_sub (G := G) (rho := rho) (mu := mu) (dt := dt) (theta := theta) (b := b) (u := u) (v := v)
        (v' := v') (w := v' - v)
      rw [h.equation _ hd, h'.equation _ hd, sub_zero, sub_add_cancel] at e
      have e1 := mul_nonneg ht (add_nonneg (hb _ hd) (FlowMesh.viscous_nonneg hG hmu (v' - v)))
      have e2 : G.kinetic rho (v' - v) (v' - v) ≤ 0 := by
        by_contra hc
        have := mul_pos (inv_pos.2 hdt) (not_le.1 hc)
        linarith
      have e3 := FlowMesh.integral_eq_zero hG (fun e _ g => mul_nonneg hr.le (Finset.sum_nonneg fun a _ => mul_self_nonneg _)) e2
      intro el he i a ha
      have e4 : ∀ g, G.vel el (v' - v) g a = 0 := fun g => by
        have e5 := (mul_eq_zero.1 (e3 el he g)).resolve_left hr.ne'
        have e6 := (Finset.sum_eq_zero_iff_of_nonneg fun a _ => mul_self_nonneg _).1 e5 (⟨a, ha⟩ : Fin 2) (Finset.mem_univ _)
        exact mul_self_eq_zero.1 e6
      subst hGe
      have e7 := congrFun (square8_zero (v := fun i : Fin 8 => (v' - v) (el.1[(i : ℕ)]?.getD 0) a) e4) i
      exact (sub_eq_zero.1 e7).symm
    exact ⟨fun r hr => (h'.boundary r hr).trans (h.boundary r hr).symm, hs, fun w hw => by
      have := press hs w
      rw [h.equation w hw, h'.equation w hw, zero_sub, eq_comm, neg_eq_zero] at this
      exact this⟩
  · rw [press h2, h.equation w hw, h3 w hw, sub_zero]

/-- `C128_determined_partial`: the step of the square from rest. -/
example {v' : ℕ → ℕ → ℝ} (h : FlowExact [((0, 0), 0), ((0, 1), 0)] (flowSquare.galerkin 1 (1 / 1000) (1 / 10) (1 / 2) 0) 0 v') :
    flowSquare.SameVel 0 v' :=
  ((C128_determined_partial flowNodes _ flowSquare_positive one_pos (by norm_num) (by norm_num) (by norm_num)
    (fun w _ => by simp [FlowMesh.convect, FlowMesh.integral, FlowMesh.vel, interp]) (flow_still _ 0).1).1 h).2.1

/-- A quadratic polynomial on a triangle is zero if its values and derivatives at the integration points are. -/
theorem triangle6_zero {f : Fin 6 → ℝ} (h : ∀ g : Fin 3, interp (SF.triangle6.N (trianglePts g)) f = 0)
    (hd : ∀ (g : Fin 3) (k : Fin 2), interp (SF.triangle6.dNdr (trianglePts g) k) f = 0) : f = 0 := by
  have h0 := h 0
  have h1 := h 1
  have h2 := h 2
  have a0 := hd 0 0
  have a1 := hd 1 0
  have a2 := hd 2 0
  have b0 := hd 0 1
  have b1 := hd 1 1
  have b2 := hd 2 1
  simp [interp, SF.triangle6, trianglePts, Fin.sum_univ_succ] at h0 h1 h2 a0 a1 a2 b0 b1 b2
  funext i
  match i with
  | 0 | 1 | 2 | 3 | 4 | 5 => show f _ = 0; linarith

/-- A field with the pressure reversed. -/
def flipped (d : ℕ → ℕ → ℝ) (a c : ℕ) : ℝ := if c = 2 then -d a c else d a c

theorem flipped_forms (G : FlowMesh m n) (d : ℕ → ℕ → ℝ) : G.kinetic rho (flipped d) d = G.kinetic rho d d ∧
    G.laplace mu (flipped d) d = G.laplace mu d d ∧ G.expand d (flipped d) = G.expand d d ∧
    G.expand (flipped d) d = -G.expand d d := by
  have h1 : ∀ e g (a : Fin 2), G.vel e (flipped d) g a = G.vel e d g a := fun e g a => by
    have : ∀ c, flipped d c a = d c a := fun c => if_neg (by omega)
    simp only [FlowMesh.vel, this]
  have h2 : ∀ e g (k a : Fin 2), G.dvel e (flipped d) g k a = G.dvel e d g k a := fun e g k a => by
    have : ∀ c, flipped d c a = d c a := fun c => if_neg (by omega)
    simp only [FlowMesh.dvel, this]
  have h3 : ∀ e g, G.pres e (flipped d) g = -G.pres e d g := fun e g => by
    have : ∀ c, flipped d c 2 = -d c 2 := fun c => if_pos rfl
    simp only [FlowMesh.pres, this, interp, mul_neg, Finset.sum_neg_distrib]
  refine ⟨?_, ?_, ?_, ?_⟩
  · exact FlowMesh.integral_congr fun e _ g => by simp only [h1]
  · exact FlowMesh.integral_congr fun e _ g => by simp only [h2]
  · exact FlowMesh.integral_congr fun e _ g => by simp only [h2]
  · rw [← neg_one_mul]
    unfold FlowMesh.expand
    rw [FlowMesh.integral_smul]
    exact FlowMesh.integral_congr fun e _ g => by rw [h3]; ring

/-- **C128**, the part that holds for sample_stokes_dynamic.cpp: a step determines the velocities, and the pressure up to fields that
do no work.  Missing: the pressure itself. -/
theorem C128_stokes_partial (x : List (Vec ℝ)) (elements : List (List ℕ × List ℕ)) (hG : (stokesMesh x elements).Positive)
    (hr : 0 < rho) (hmu : 0 < mu) (hdt : 0 < dt) (ht : 0 < theta) {load : (ℕ → ℕ → ℝ) → ℝ} {u v v' : ℕ → ℕ → ℝ}
    (h : FlowExact bc ((stokesMesh x elements).stokes rho mu dt theta load) u v) :
    FlowExact bc ((stokesMesh x elements).stokes rho mu dt theta load) u v' ↔
      (∀ r ∈ bc, v' r.1.1 r.1.2 = v r.1.1 r.1.2) ∧ (stokesMesh x elements).SameVel v v' ∧
      ∀ w, Vanishing bc w → (stokesMesh x elements).expand (v' - v) w = 0 := by
  obtain ⟨G, hGe⟩ : ∃ G, G = stokesMesh x elements := ⟨_, rfl⟩
  rw [← hGe] at hG h ⊢
  have press : G.SameVel v v' → ∀ w, G.stokes rho mu dt theta load u v' w = G.stokes rho mu dt theta load u v w -
      theta * G.expand (v' - v) w := fun hs w => by
    have := FlowMesh.stokes_press (rho := rho) (mu := mu) (dt := dt) (theta := theta) (u := u) (v := v) (w := w)
      hs.noVel 1 load
    rwa [one_smul, mul_one, add_sub_cancel] at this
  refine ⟨fun h' => ?_, fun ⟨h1, h2, h3⟩ => ⟨fun w hw => ?_, fun r hr => (h1 r hr).trans (h.boundary r hr)⟩⟩
  · have hd : Vanishing bc (flipped (v' - v)) := fun r hr => by
      have : (v' - v) r.1.1 r.1.2 = 0 := by
        show v' r.1.1 r.1.2 - v r.1.1 r.1.2 = 0
        rw [h'.boundary r hr, h.boundary r hr, sub_self]
      unfold flipped
      rw [this, neg_zero, ite_self]
    have hs : G.SameVel v v' := by
      have e := FlowMesh.stokes_sub (G := G) (rho := rho) (mu := mu) (dt := dt) (theta := theta) (u := u) (v := v)
        (v' := v') (w := flipped (v' - v)) load
      obtain ⟨f1, f2, f3, f4⟩ := flipped_forms (rho := rho) (mu := mu) G (v' - v)
      rw [h.equation _ hd, h'.equation _ hd, sub_zero, f1, f2, f3, f4, sub_neg_eq_add, sub_add_cancel] at e
      have k0 : 0 ≤ G.kinetic rho (v' - v) (v' - v) := FlowMesh.kinetic_nonneg hG hr.le _
      have ln : ∀ e ∈ G.elements, ∀ g, 0 ≤ mu * ((∑ a : Fin 2, ∑ k : Fin 2, G.dvel e (v' - v) g k a * G.dvel e (v' - v) g k a) +
          (∑ k : Fin 2, G.dvel e (v' - v) g k k) * ∑ k : Fin 2, G.dvel e (v' - v) g k k) := fun e _ g => mul_nonneg hmu.le
        (add_nonneg (Finset.sum_nonneg fun a _ => Finset.sum_nonneg fun k _ => mul_self_nonneg _) (mul_self_nonneg _))
      have l0 : 0 ≤ G.laplace mu (v' - v) (v' - v) := FlowMesh.integral_nonneg hG ln
      have k1 := mul_nonneg (inv_pos.2 hdt).le k0
      have l1 := mul_nonneg ht.le l0
      have k2 : G.kinetic rho (v' - v) (v' - v) ≤ 0 := by
        by_contra hc
        have := mul_pos (inv_pos.2 hdt) (not_le.1 hc)
        linarith
      have l2 : G.laplace mu (v' - v) (v' - v) ≤ 0 := by
        by_contra hc
        have := mul_pos ht (not_le.1 hc)
        linarith
      have k3 := FlowMesh.integral_eq_zero hG (fun e _ g => mul_nonneg hr.le (Finset.sum_nonneg fun a _ => mul_self_nonneg _)) k2
      have l3 := FlowMesh.integral_eq_zero hG ln l2
      intro el he i a ha
      have k4 : ∀ g, G.vel el (v' - v) g a = 0 := fun g => by
        have e5 := (mul_eq_zero.1 (k3 el he g)).resolve_left hr.ne'
        have e6 := (Finset.sum_eq_zero_iff_of_nonneg fun a _ => mul_self_nonneg _).1 e5 (⟨a, ha⟩ : Fin 2) (Finset.mem_univ _)
        exact mul_self_eq_zero.1 e6
      have l4 : ∀ g k, G.dvel el (v' - v) g k a = 0 := fun g k => by
        have e5 := (mul_eq_zero.1 (l3 el he g)).resolve_left hmu.ne'
        have n1 : 0 ≤ ∑ a : Fin 2, ∑ k : Fin 2, G.dvel el (v' - v) g k a * G.dvel el (v' - v) g k a :=
          Finset.sum_nonneg fun a _ => Finset.sum_nonneg fun k _ => mul_self_nonneg _
        have n2 := mul_self_nonneg (∑ k : Fin 2, G.dvel el (v' - v) g k k)
        have e6 : ∑ a : Fin 2, ∑ k : Fin 2, G.dvel el (v' - v) g k a * G.dvel el (v' - v) g k a = 0 := by linarith
        have e7 := (Finset.sum_eq_zero_iff_of_nonneg fun a _ => Finset.sum_nonneg fun k _ => mul_self_nonneg _).1 e6
          (⟨a, ha⟩ : Fin 2) (Finset.mem_univ _)
        have e8 := (Finset.sum_eq_zero_iff_of_nonneg fun k _ => mul_self_nonneg _).1 e7 k (Finset.mem_univ _)
        exact mul_self_eq_zero.1 e8
      have hdet : ∀ g, (G.sfp.dNdr (G.ic.points g) * G.coords el).det ≠ 0 := fun g h0 => by
        have := hG el he g
        unfold measure2 at this
        rw [h0, zero_mul, zero_mul] at this
        exact lt_irrefl _ this
      have l5 : ∀ g k, interp (G.sfu.dNdr (G.ic.points g) k) (fun i => (v' - v) (el.1[(i : ℕ)]?.getD 0) a) = 0 := fun g k => by
        have e1 : G.sfu.dNdr (G.ic.points g) = (G.sfp.dNdr (G.ic.points g) * G.coords el) *
            gradMix G.sfu G.sfp (G.coords el) (G.ic.points g) := by
          unfold gradMix
          rw [Matrix.mul_nonsing_inv_cancel_left _ _ (isUnit_iff_ne_zero.2 (hdet g))]
        have e2 : G.sfu.dNdr (G.ic.points g) *ᵥ (fun i => (v' - v) (el.1[(i : ℕ)]?.getD 0) a) = 0 := by
          rw [e1, ← Matrix.mulVec_mulVec]
          have : gradMix G.sfu G.sfp (G.coords el) (G.ic.points g) *ᵥ (fun i => (v' - v) (el.1[(i : ℕ)]?.getD 0) a) = 0 :=
            funext fun k => l4 g k
          rw [this, Matrix.mulVec_zero]
        exact congrFun e2 k
      subst hGe
      have e7 := congrFun (triangle6_zero (f := fun i : Fin 6 => (v' - v) (el.1[(i : ℕ)]?.getD 0) a) k4 l5) i
      exact (sub_eq_zero.1 e7).symm
    exact ⟨fun r hr => (h'.boundary r hr).trans (h.boundary r hr).symm, hs, fun w hw => by
      have := press hs w
      rw [h.equation w hw, h'.equation w hw, zero_sub, eq_comm, neg_eq_zero] at this
      exact (mul_eq_zero.1 this).resolve_left ht.ne'⟩
  · rw [press h2, h.equation w hw, h3 w hw, mul_zero, sub_zero]

/-- `C128_stokes_partial`: the step of the triangle. -/
example : ∃ v, ∀ v', FlowExact triangleGiven (flowTriangle.stokes 1 1 (1 / 100) (1 / 2) fun _ => 0) (unitField 5 1) v' →
    flowTriangle.SameVel v v' := by
  obtain ⟨v, h⟩ := triangle_stokes (theta := 1 / 2) 1 1 (1 / 100) (by norm_num) (unitField 5 1)
  exact ⟨v, fun v' h' => ((C128_stokes_partial _ _ flowTriangle_positive one_pos one_pos (by norm_num) (by norm_num) h).1 h').2.1⟩

end Pansfem
