/-
C135: the driven cavity of sample_stokes_static.cpp on every grid: its equations have a solution, which determines the velocities,
and the pressure at the corners of the elements up to a constant.
-/
import Verif.Lemmas.CavityPressure
import Verif.Props.C135_Steady

noncomputable section

open Matrix

namespace Pansfem

namespace FlowMesh
variable {m n : ℕ} (G : FlowMesh m n) {mu : ℝ} {f : (Fin 2 → ℝ) → Fin 2 → ℝ} {v v' w : ℕ → ℕ → ℝ}

theorem steady_sub : G.steady mu f v' w - G.steady mu f v w =
    G.laplace mu w (v' - v) - G.expand (v' - v) w - G.expand w (v' - v) := by
  have h : ∀ a b c a' b' c' d : ℝ, a - b - c - d - (a' - b' - c' - d) = (a - a') - (b - b') - (c - c') := fun _ _ _ _ _ _ _ => by ring
  unfold steady
  rw [h]
  unfold laplace expand
  rw [integral_sub, integral_sub, integral_sub, integral_sub, integral_sub, integral_sub, integral_sub]
  refine integral_congr fun e _ g => ?_
  simp only [dvel_sub, pres_sub, Fin.sum_univ_two]
  ring

/-- A field without velocities. -/
theorem steady_noVel (hw : G.NoVel w) : G.laplace mu w v = 0 ∧ G.laplace mu v w = 0 ∧ G.expand v w = 0 ∧ G.bodyWork f w = 0 := by
  refine ⟨?_, ?_, ?_, ?_⟩
  · exact (integral_congr (h := fun _ _ => 0) fun e he g => by simp only [(hw e he g _).2, Fin.sum_univ_two]; ring).trans
      (by simp [integral])
  · exact (integral_congr (h := fun _ _ => 0) fun e he g => by simp only [(hw e he g _).2, Fin.sum_univ_two]; ring).trans
      (by simp [integral])
  · exact (integral_congr (h := fun _ _ => 0) fun e he g => by simp only [(hw e he g _).2, Fin.sum_univ_two]; ring).trans
      (by simp [integral])
  · exact (integral_congr (h := fun _ _ => 0) fun e he g => by simp only [(hw e he g _).1, Fin.sum_univ_two]; ring).trans
      (by simp [integral])

end FlowMesh

theorem flipped_vanishing {bc : List ((ℕ × ℕ) × ℝ)} {d : ℕ → ℕ → ℝ} (h : Vanishing bc d) : Vanishing bc (flipped d) := fun r hr => by
  unfold flipped
  rw [h r hr, neg_zero, ite_self]

section
variable {nx ny : ℕ} {value mu : ℝ} {x : List (Vec ℝ)} {elements : List (List ℕ × List ℕ)} {bc : List ((ℕ × ℕ) × ℝ)}
  {f : (Fin 2 → ℝ) → Fin 2 → ℝ} {v v' : ℕ → ℕ → ℝ}

theorem Cavity8.bounded (h : Cavity8 nx ny value x elements bc) : ∀ r ∈ bc, r.1.1 < x.length ∧ r.1.2 < 2 := by
  intro r hr
  obtain ⟨s, -, -, hs⟩ := lastValue_of_key hr
  refine ⟨?_, ?_⟩
  · by_contra hc
    rw [h.given, List.getElem?_eq_none (not_lt.1 hc)] at hs
    exact absurd hs (by simp)
  · by_contra hc
    rw [h.given_press (not_lt.1 hc)] at hs
    exact absurd hs (by simp)

/-- **C135**: solutions exist.  The lid pushes no fluid out of the cavity, so for every body force there are velocities and
pressures that meet the equations. -/
theorem C135_exists (h : Cavity8 nx ny value x elements bc) (hx : 0 < nx) (hy : 0 < ny) (hmu : 0 < mu)
    (f : (Fin 2 → ℝ) → Fin 2 → ℝ) : ∃ v, SteadyFlow (steadyMesh x elements) bc mu f v := by
  obtain ⟨G, hG⟩ : ∃ G, G = steadyMesh x elements := ⟨_, rfl⟩
  obtain ⟨calls, h1, h2, h3, h4⟩ := FlowMesh.steadyCalls_spec (G := steadyMesh x elements) h.valid mu f
  have hf : ∀ c ∈ calls, ∀ p ∈ c.dofs, (dofNum (freeTable x.length 3) p.1 p.2.1).isSome :=
    fun c hc p hp => ((h2 c hc).1 p hp).1
  have hfree : ∀ a d, ¬ IsFree (freeTable x.length 3) bc (a, d) ↔ ¬ (a < x.length ∧ d < 3) ∨ (a, d) ∈ bc.map Prod.fst := fun a d => by
    rw [free_table]
    tauto
  obtain ⟨u, hu⟩ : ∃ u : ℕ → ℕ → ℝ, u = fun a d => (lastValue bc a d).getD 0 := ⟨_, rfl⟩
  obtain ⟨v, hv1, hv2⟩ := static_range (bc := bc) hf u fun w hw0 hw => by
    have hwv : Vanishing bc w := fun r hr => hw0 _ _ ((hfree _ _).2 (.inr (List.mem_map.2 ⟨r, hr, rfl⟩)))
    have hfl : ∀ a d, ¬ IsFree (freeTable x.length 3) bc (a, d) → flipped w a d = 0 := fun a d hn => by
      unfold flipped
      rw [hw0 a d hn, neg_zero, ite_self]
    have e := hw _ hfl
    obtain ⟨-, f2, f3, f4⟩ := flipped_forms (rho := 1) (mu := mu) (steadyMesh x elements) w
    have f2' : (steadyMesh x elements).laplace mu w (flipped w) = (steadyMesh x elements).laplace mu (flipped w) w :=
      FlowMesh.integral_congr fun e _ g => by simp only [Fin.sum_univ_two]; ring
    rw [h3, f2', f2, f3, f4, sub_neg_eq_add, add_sub_cancel_right] at e
    have hz := h.rest_laplace hx hy hmu hwv e
    have hn : (steadyMesh x elements).NoVel w := fun e he g a =>
      ⟨by simp [FlowMesh.vel, interp, hz e he _ _ a.2], fun k => by simp [FlowMesh.dvel, interp, hz e he _ _ a.2]⟩
    obtain ⟨n1, -, n3, n4⟩ := FlowMesh.steady_noVel (v := u) (mu := mu) (f := f) _ hn
    rw [sum_freeDofs, residual_work hf, h3, h4, n1, n3, n4, h.lid_expand hx hy w fun a _ d _ => by rw [hu]]
    · ring
    · intro p hp
      have : ¬ IsFree (freeTable x.length 3) bc (p.1, p.2) := fun hc => hp
        (List.mem_filter.2 ⟨mem_allDofs (by rw [dofNum_of_numOf hc.1]; rfl), decide_eq_true hc⟩)
      rw [hw0 _ _ this, zero_mul]
  refine ⟨v, fun a d c hc => ?_, (C135_weak h.valid).1 fun a d hfr => ?_⟩
  · obtain ⟨r, hr, er⟩ := mem_of_lastValue hc
    rw [hv2 a d ((hfree a d).2 (.inr (List.mem_map.2 ⟨r, hr, er⟩))), hu]
    simp only [hc, Option.getD_some]
  · have := hv1 (a, d) (List.mem_filter.2 ⟨mem_allDofs (by rw [dofNum_of_numOf hfr.1]; rfl), decide_eq_true hfr⟩)
    rw [residual_eq, h3, h4] at this
    exact this

/-- **C135**: the flow is divergence free for all test pressures. -/
theorem C135_divfree (h : Cavity8 nx ny value x elements bc) (hv : SteadyFlow (steadyMesh x elements) bc mu f v) (q : ℕ → ℕ → ℝ) :
    (steadyMesh x elements).expand q v = 0 := by
  have hz : Vanishing bc (FlowMesh.pressPart q) := fun r hr => if_neg (by have := (h.bounded r hr).2; omega)
  have e := hv.equation _ hz
  have hn : (steadyMesh x elements).NoVel (FlowMesh.pressPart q) := FlowMesh.noVel_of fun a d hd => if_neg (by omega)
  obtain ⟨n1, -, n3, n4⟩ := FlowMesh.steady_noVel (v := v) (mu := mu) (f := f) _ hn
  have hp : (steadyMesh x elements).expand (FlowMesh.pressPart q) v = (steadyMesh x elements).expand q v :=
    FlowMesh.integral_congr fun e _ g => by rw [FlowMesh.pres_pressPart]
  rw [FlowMesh.steady, n1, n3, n4, hp] at e
  linarith

/-- Two flows have the same velocities, and the difference of their pressures does no work. -/
theorem Cavity8.same (h : Cavity8 nx ny value x elements bc) (hx : 0 < nx) (hy : 0 < ny) (hmu : 0 < mu)
    (hv : SteadyFlow (steadyMesh x elements) bc mu f v) :
    SteadyFlow (steadyMesh x elements) bc mu f v' ↔ (∀ a d c, lastValue bc a d = some c → v' a d = c) ∧
      (steadyMesh x elements).SameVel v v' ∧ ∀ w, Vanishing bc w → (steadyMesh x elements).expand (v' - v) w = 0 := by
  have press : (steadyMesh x elements).SameVel v v' → ∀ w, (steadyMesh x elements).steady mu f v' w -
      (steadyMesh x elements).steady mu f v w = - (steadyMesh x elements).expand (v' - v) w := fun hs w => by
    obtain ⟨-, n2, n3, -⟩ := FlowMesh.steady_noVel (v := w) (mu := mu) (f := f) _ hs.noVel
    rw [FlowMesh.steady_sub, n2, n3]
    ring
  constructor
  · intro hv'
    have hd : Vanishing bc (v' - v) := vanishing_last.2 fun a d c hc => by
      show v' a d - v a d = 0
      rw [hv.boundary a d c hc, hv'.boundary a d c hc, sub_self]
    have e := FlowMesh.steady_sub (steadyMesh x elements) (mu := mu) (f := f) (v := v) (v' := v') (w := flipped (v' - v))
    obtain ⟨-, f2, f3, f4⟩ := flipped_forms (rho := 1) (mu := mu) (steadyMesh x elements) (v' - v)
    rw [hv.equation _ (flipped_vanishing hd), hv'.equation _ (flipped_vanishing hd), f2, f3, f4] at e
    have hz := h.rest_laplace hx hy hmu hd (by linarith)
    have hs : (steadyMesh x elements).SameVel v v' := fun e he i a ha => (sub_eq_zero.1 (hz e he i a ha)).symm
    refine ⟨hv'.boundary, hs, fun w hw => ?_⟩
    have := press hs w
    rw [hv.equation w hw, hv'.equation w hw] at this
    linarith
  · rintro ⟨b, hs, hw⟩
    refine ⟨b, fun w hw' => ?_⟩
    have := press hs w
    rw [hv.equation w hw', hw w hw'] at this
    linarith

/-- **C135**, the part that holds: on a grid with at least three elements in each direction the flows with the given values are
those with the same velocities at all nodes of the elements and the same pressures at the corners up to one constant.  Missing:
the constant and the pressures at the middle nodes. -/
theorem C135_determined_partial (h : Cavity8 nx ny value x elements bc) (hx : 3 ≤ nx) (hy : 3 ≤ ny) (hmu : 0 < mu)
    (hv : SteadyFlow (steadyMesh x elements) bc mu f v) :
    SteadyFlow (steadyMesh x elements) bc mu f v' ↔ (∀ a d c, lastValue bc a d = some c → v' a d = c) ∧
      (∀ e ∈ elements, ∀ a ∈ e.1, ∀ d < 2, v' a d = v a d) ∧
      ∃ c, ∀ i ≤ nx, ∀ j ≤ ny, v' (cornerNo ny i j) 2 = v (cornerNo ny i j) 2 + c := by
  rw [h.same (by omega) (by omega) hmu hv]
  refine and_congr_right fun _ => and_congr ⟨fun hs e he a ha d hd => ?_, fun hs e he i a ha => ?_⟩ ⟨fun hw => ?_, fun hw w hz => ?_⟩
  · obtain ⟨l, hl, rfl⟩ := List.getElem_of_mem ha
    have hl' : l < 8 := (h.valid.lengthu e he) ▸ hl
    have := hs e he ⟨l, hl'⟩ d hd
    simp only [List.getElem?_eq_getElem hl, Option.getD_some] at this
    exact this.symm
  · have hl : (i : ℕ) < e.1.length := by rw [h.valid.lengthu e he]; exact i.2
    rw [List.getElem?_eq_getElem hl, Option.getD_some]
    exact (hs e he _ (List.getElem_mem hl) a ha).symm
  · refine ⟨v' (cornerNo ny 0 0) 2 - v (cornerNo ny 0 0) 2, fun i hi j hj => ?_⟩
    have := h.press_constant hx hy hw i hi j hj
    simp only [Pi.sub_apply] at this
    linarith
  · obtain ⟨c, hc⟩ := hw
    have e : (steadyMesh x elements).expand (v' - v) w = (steadyMesh x elements).expand (c • levelField) w := by
      rw [h.expand, h.expand]
      refine Finset.sum_congr rfl fun i hi => Finset.sum_congr rfl fun j hj => ?_
      have hi := Finset.mem_range.1 hi
      have hj := Finset.mem_range.1 hj
      have hq : cellPres ny i j (v' - v) = cellPres ny i j (c • levelField) := by
        have : ∀ i ≤ nx, ∀ j ≤ ny, (v' - v) (cornerNo ny i j) 2 = (c • levelField) (cornerNo ny i j) 2 := fun i hi j hj => by
          simp [hc i hi j hj, levelField]
        unfold cellPres
        rw [this i hi.le j hj.le, this (i + 1) hi j hj.le, this (i + 1) hi (j + 1) hj, this i hi.le (j + 1) hj]
      rw [hq]
    have := FlowMesh.expand_test (G := steadyMesh x elements) (w := levelField) (w' := 0) c 0 w
    rw [smul_zero, add_zero, zero_mul, add_zero] at this
    rw [e, this, h.level_expand (by omega) (by omega) hz, mul_zero]

/-- **C135**, against the claim: on every grid a constant can be added to the pressure, and the pressure at a middle node can be
anything. -/
theorem C135_determined_false (h : Cavity8 nx ny value x elements bc) (hx : 0 < nx) (hy : 0 < ny) (hmu : 0 < mu)
    (f : (Fin 2 → ℝ) → Fin 2 → ℝ) :
    (∀ v, SteadyFlow (steadyMesh x elements) bc mu f v → ∀ c : ℝ, SteadyFlow (steadyMesh x elements) bc mu f (v + c • levelField) ∧
      SteadyFlow (steadyMesh x elements) bc mu f (v + c • unitField (levelNo nx ny 0 0) 2)) ∧
    ¬ ∀ v v', SteadyFlow (steadyMesh x elements) bc mu f v → SteadyFlow (steadyMesh x elements) bc mu f v' →
      ∀ a < x.length, ∀ d < 3, v a d = v' a d := by
  have add : ∀ {P : ℕ → ℕ → ℝ}, (∀ a, ∀ d < 2, P a d = 0) → (∀ w, Vanishing bc w → (steadyMesh x elements).expand P w = 0) →
      ∀ v, SteadyFlow (steadyMesh x elements) bc mu f v → ∀ c : ℝ, SteadyFlow (steadyMesh x elements) bc mu f (v + c • P) := by
    intro P hP hw v hv c
    refine (h.same hx hy hmu hv).2 ⟨fun a d y hc => ?_, fun e _ i a ha => ?_, fun w hz => ?_⟩
    · have hd : d < 2 := by
        by_contra hd
        rw [h.given_press (not_lt.1 hd)] at hc
        exact absurd hc (by simp)
      simp [hP a d hd, hv.boundary a d y hc]
    · simp [hP _ a ha]
    · have := FlowMesh.expand_test (G := steadyMesh x elements) (w := P) (w' := 0) c 0 w
      rw [smul_zero, add_zero, zero_mul, add_zero] at this
      rw [add_sub_cancel_left, this, hw w hz, mul_zero]
  have level := add (P := levelField) (fun a d hd => if_neg (by omega)) fun w hw => h.level_expand hx hy hw
  refine ⟨fun v hv c => ⟨level v hv c, add (fun a d hd => if_neg (by omega)) (fun w _ => ?_) v hv c⟩, fun H => ?_⟩
  · refine FlowMesh.expand_zero (FlowMesh.unit_unused h.valid.lengthp fun e he ha => ?_)
    obtain ⟨i, hi, j, hj, rfl⟩ := h.mem.1 he
    simp only [cell8, List.mem_cons, List.not_mem_nil, or_false] at ha
    rcases ha with ha | ha | ha | ha
    · exact corner_level hi.le hj.le ha.symm
    · exact corner_level (show i + 1 ≤ nx from hi) hj.le ha.symm
    · exact corner_level (show i + 1 ≤ nx from hi) (show j + 1 ≤ ny from hj) ha.symm
    · exact corner_level hi.le (show j + 1 ≤ ny from hj) ha.symm
  · obtain ⟨v, hv⟩ := C135_exists h hx hy hmu f
    have := H v _ hv (level v hv 1) 0 (by rw [h.size]; positivity) 2 (by norm_num)
    simp [levelField] at this

end

/-! ### The program -/

section
variable {nx ny : ℕ}

/-- The coordinates of the nodes are multiples of half the sides of the elements. -/
theorem square2_halves (hx : 0 < nx) (hy : 0 < ny) {p : ℝ × ℝ} (hp : p ∈ squareNodes2 (⟨1, 1, nx, ny⟩ : SquareMesh ℝ)) :
    ∃ I J : ℕ, p.1 = (I : ℝ) / (2 * nx : ℕ) ∧ p.2 = (J : ℝ) / (2 * ny : ℕ) := by
  have h1 : (nx : ℝ) ≠ 0 := by exact_mod_cast hx.ne'
  have h2 : (ny : ℝ) ≠ 0 := by exact_mod_cast hy.ne'
  have e : ∀ {n : ℕ} (i : ℕ), (n : ℝ) ≠ 0 → (1 : ℝ) * ((i : ℝ) / n) = ((2 * i : ℕ) : ℝ) / (2 * n : ℕ) ∧
      (1 : ℝ) * (((i : ℝ) + 0.5) / n) = ((2 * i + 1 : ℕ) : ℝ) / (2 * n : ℕ) := fun i hn => by
    constructor
    · push_cast
      field_simp
    · push_cast
      field_simp
      ring
  simp only [squareNodes2, List.mem_append, mem_grid] at hp
  rcases hp with (⟨i, -, j, -, rfl⟩ | ⟨i, -, j, -, rfl⟩) | ⟨i, -, j, -, rfl⟩
  · exact ⟨_, _, (e i h1).1, (e j h2).1⟩
  · exact ⟨_, _, (e i h1).1, (e j h2).2⟩
  · exact ⟨_, _, (e i h1).2, (e j h2).1⟩

/-- The tolerance of the predicates separates the nodes. -/
theorem half_close {n I : ℕ} {p : ℝ} (h0 : 0 < n) (hn : n ≤ 5000) (hp : p = (I : ℝ) / (2 * n : ℕ)) :
    (|p| < 1 / 10 ^ 5 ↔ p = 0) ∧ (|p - 1| < 1 / 10 ^ 5 ↔ p = 1) := by
  have hpos : ((2 * n : ℕ) : ℝ) ≠ 0 := by
    have : 2 * n ≠ 0 := by omega
    exact_mod_cast this
  have c0 := grid_close (n := 2 * n) (i := I) (k := 0) (by omega) (by omega)
  have c1 := grid_close (n := 2 * n) (i := I) (k := 2 * n) (by omega) (by omega)
  rw [one_mul, ← hp, Nat.cast_zero, zero_div, sub_zero] at c0
  rw [one_mul, ← hp, div_self hpos] at c1
  rw [c0, c1, hp, div_eq_zero_iff, or_iff_left hpos, div_eq_one_iff_eq hpos, Nat.cast_eq_zero, Nat.cast_inj]
  exact ⟨Iff.rfl, Iff.rfl⟩

/-- **C135**: mesh and boundary conditions of the program are those of the driven cavity. -/
theorem C135_program (hx : 0 < nx) (hx' : nx ≤ 5000) (hy : 0 < ny) (hy' : ny ≤ 5000) (value : ℝ) :
    ∃ x elements bc, stokesProblem ⟨1, 1, nx, ny⟩ cavitySides cavityLid value = some (x, elements, bc) ∧
      Cavity8 nx ny value x elements bc := by
  obtain ⟨M, hM⟩ : ∃ M : SquareMesh ℝ, M = ⟨1, 1, nx, ny⟩ := ⟨_, rfl⟩
  have h1 : (nx : ℝ) ≠ 0 := by exact_mod_cast hx.ne'
  have h2 : (ny : ℝ) ≠ 0 := by exact_mod_cast hy.ne'
  obtain ⟨n1, u0, hn1, hu0, s0⟩ := C54_square2 (⟨1, 1, nx, ny⟩ : SquareMesh ℝ) hx hy [0, 1] (by decide) (by decide) cavitySides
  obtain ⟨n2, u1, hn2, hu1, s1⟩ := C54_square2 (⟨1, 1, nx, ny⟩ : SquareMesh ℝ) hx hy [0] (by decide) (by decide) cavityLid
  have hn := squareNodes2_eq (⟨1, 1, nx, ny⟩ : SquareMesh ℝ) hx hy
  obtain rfl : n1 = _ := Option.some.inj (hn1.symm.trans hn)
  obtain rfl : n2 = _ := Option.some.inj (hn2.symm.trans hn)
  obtain ⟨N, hN⟩ : ∃ N, N = squareNodes2 (⟨1, 1, nx, ny⟩ : SquareMesh ℝ) := ⟨_, rfl⟩
  have get : ∀ {a : ℕ} {p : ℝ × ℝ}, N[a]? = some p → (nodeVectors N)[a]? = some ⟨[p.1, p.2]⟩ := fun h => by
    rw [nodeVectors, List.getElem?_map, h]
    rfl
  refine ⟨nodeVectors N, ((grid nx ny Prod.mk).map (quad2 nx ny)).zip ((grid nx ny Prod.mk).map (quad (squareNode ny) (· + 1))),
    fixedDofs u0 ++ setLoads value (fixedDofs u1), ?_, ⟨fun i hi j hj => ?_, fun i hi j hj => ?_, fun i hi j hj => ?_, ?_, ?_, ?_⟩⟩
  · unfold stokesProblem
    rw [hn, squareElements2_eq, squareElements_eq, hu0, hu1, hN]
    rfl
  · have := get (hN ▸ squareNodes2_corner (⟨1, 1, nx, ny⟩ : SquareMesh ℝ) hi hj)
    refine (show (nodeVectors N)[cornerNo ny i j]? = _ from this).trans ?_
    simp
  · have := get (hN ▸ squareNodes2_vertical (⟨1, 1, nx, ny⟩ : SquareMesh ℝ) hi hj)
    refine (show (nodeVectors N)[uprightNo nx ny i j]? = _ from this).trans ?_
    norm_num
  · have := get (hN ▸ squareNodes2_horizontal (⟨1, 1, nx, ny⟩ : SquareMesh ℝ) hi hj)
    refine (show (nodeVectors N)[levelNo nx ny i j]? = _ from this).trans ?_
    norm_num
  · rw [nodeVectors, List.length_map, hN, squareNodes2_length]
  · rw [List.zip_map']
    rfl
  · intro a d
    rw [lastValue_append, lastValue_uniform (c := fun _ => value) (l := setLoads value (fixedDofs u1)) (fun r hr => by
        obtain ⟨s, -, rfl⟩ := List.mem_map.1 hr
        rfl),
      lastValue_uniform (c := fun _ => 0) (l := fixedDofs u0) (fun r hr => by
        obtain ⟨s, hs, rfl⟩ := List.mem_map.1 hr
        exact s0.1 s hs)]
    have hk : (setLoads value (fixedDofs u1)).map Prod.fst = (fixedDofs u1).map Prod.fst := by
      rw [setLoads, List.map_map]
      rfl
    rw [hk]
    simp only [fixedDofs_mem (by decide) s0, fixedDofs_mem (by decide) s1, ← hN]
    have d01 : ((d : ℤ) ∈ ([0, 1] : List ℤ)) ↔ d < 2 := by
      simp only [List.mem_cons, List.not_mem_nil, or_false]
      omega
    have d0 : ((d : ℤ) ∈ ([0] : List ℤ)) ↔ d = 0 := by
      simp only [List.mem_cons, List.not_mem_nil, or_false]
      omega
    simp only [d01, d0]
    cases hp : N[a]? with
    | none =>
      rw [nodeVectors, List.getElem?_map, hp]
      simp
    | some p =>
      rw [get hp, Option.bind_some]
      obtain ⟨I, J, hI, hJ⟩ := square2_halves hx hy (hN ▸ List.mem_of_getElem? hp)
      obtain ⟨a1, a2⟩ := half_close hx hx' hI
      obtain ⟨b1, b2⟩ := half_close hy hy' hJ
      have l1 : cavityLid p = true ↔ p.2 = 1 := by
        unfold cavityLid
        rw [decide_eq_true_eq]
        exact b2
      have l2 : cavitySides p = true ↔ p.1 = 0 ∨ p.2 = 0 ∨ p.1 = 1 ∨ p.2 = 1 := by
        unfold cavitySides
        rw [decide_eq_true_eq, a1, a2, b1, b2]
      simp only [Option.some.injEq, exists_eq_left', l1, l2]
      by_cases c1 : p.2 = 1 ∧ d = 0
      · rw [if_pos c1, if_pos (show d = 0 ∧ p.2 = 1 from ⟨c1.2, c1.1⟩)]
        rfl
      · rw [if_neg c1, if_neg (show ¬ (d = 0 ∧ p.2 = 1) from fun hc => c1 ⟨hc.2, hc.1⟩), Option.none_or]
        refine if_congr ⟨fun hc => ⟨hc.2, ?_⟩, fun hc => ⟨?_, hc.1⟩⟩ rfl rfl
        · rcases hc.1 with h | h | h | h <;> simp [h]
        · rcases hc.2 with h | h | h | h <;> simp [h]

end

/-- A cavity of three times three elements with a lid of velocity two, on which the theorems of this claim apply. -/
theorem cavity_three : ∃ x elements bc, stokesProblem ⟨1, 1, 3, 3⟩ cavitySides cavityLid 2 = some (x, elements, bc) ∧
    Cavity8 3 3 2 x elements bc :=
  C135_program (by norm_num) (by norm_num) (by norm_num) (by norm_num) 2

/-- `C135_equations`, `C135_answers`, `C135_weak`: the cavity of three times three elements. -/
example : ∃ x elements bc, Cavity8 3 3 2 x elements bc ∧
    (∃ calls, steadyCalls SF.square8 SF.square4 IC.gauss9Square x elements 1 corneredForce = some calls ∧
      residual calls 0 5 1 = (steadyMesh x elements).steady 1 corneredForce 0 (unitField 5 1)) ∧
    (∃ calls up conv, steadyCalls SF.square8 SF.square4 IC.gauss9Square x elements 1 corneredForce = some calls ∧
      staticAnalysis idealSolver (zeroField x.length 3) (freeTable x.length 3) bc calls = some (up, conv)) ∧
    ∃ v, ∀ a d, IsFree (freeTable x.length 3) bc (a, d) → (steadyMesh x elements).steady 1 corneredForce v (unitField a d) = 0 := by
  obtain ⟨x, elements, bc, -, h⟩ := cavity_three
  obtain ⟨calls, h1, -, h3⟩ := C135_equations h.valid 1 corneredForce
  obtain ⟨v, hv⟩ := C135_exists h (by norm_num) (by norm_num) one_pos corneredForce
  exact ⟨x, elements, bc, h, ⟨calls, h1, h3 0 5 1⟩, C135_answers h.valid idealSolver idealSolver_answers
    (fun r hr => ⟨(h.bounded r hr).1, (h.bounded r hr).2.trans (by norm_num)⟩) 1 corneredForce, v, (C135_weak h.valid).2 hv.equation⟩

/-- `C135_exists`, `C135_divfree`, `C135_determined_partial`, `C135_determined_false`: the cavity of three times three elements. -/
example : ∃ x elements bc v, Cavity8 3 3 2 x elements bc ∧ SteadyFlow (steadyMesh x elements) bc 1 corneredForce v ∧
    v (cornerNo 3 1 3) 0 = 2 ∧ (steadyMesh x elements).expand (unitField 0 2) v = 0 ∧
    (∀ v', SteadyFlow (steadyMesh x elements) bc 1 corneredForce v' → v' (cornerNo 3 1 1) 0 = v (cornerNo 3 1 1) 0) ∧
    SteadyFlow (steadyMesh x elements) bc 1 corneredForce (v + (7 : ℝ) • levelField) := by
  obtain ⟨x, elements, bc, -, h⟩ := cavity_three
  obtain ⟨v, hv⟩ := C135_exists h (by norm_num) (by norm_num) one_pos corneredForce
  refine ⟨x, elements, bc, v, h, hv, ?_, C135_divfree h hv _, fun v' hv' => ?_,
    ((C135_determined_false h (by norm_num) (by norm_num) one_pos corneredForce).1 v hv 7).1⟩
  · have := h.given_corner (by norm_num) (by norm_num) (i := 1) (j := 3) (by norm_num) le_rfl 0
    exact hv.boundary _ _ _ this
  · exact ((C135_determined_partial h le_rfl le_rfl one_pos hv).1 hv').2.1 _
      (h.mem.2 ⟨1, by norm_num, 1, by norm_num, rfl⟩) _ (by simp [cell8]) 0 (by norm_num)

/-- **C135**: sample_stokes_static.cpp.  It solves the driven cavity on a grid of 20 times 20 elements: there are flows that meet its
equations, and what a run returns has the given velocities and, if the solver reports convergence, residuals at most `1e-10` times
those of the given values alone. -/
theorem C135_sample : ∃ x elements bc, Cavity8 20 20 1 x elements bc ∧ stokesProgram = stokesStatic x elements bc 1 corneredForce ∧
    (∃ v, SteadyFlow (steadyMesh x elements) bc 1 corneredForce v) ∧
    ∀ up conv, stokesProgram = some (up, conv) → (∀ a d v, lastValue bc a d = some v → nodal up a d = some v) ∧
      (conv = true ↔ dofNorm (freeDofs (freeTable x.length 3) bc) (fun a d =>
          (steadyMesh x elements).steady 1 corneredForce (valOf up) (unitField a d)) <
        1 / 10 ^ 10 * dofNorm (freeDofs (freeTable x.length 3) bc) fun a d =>
          (steadyMesh x elements).steady 1 corneredForce (given (zeroField x.length 3) (freeTable x.length 3) bc) (unitField a d)) := by
  obtain ⟨x, elements, bc, e, h⟩ := C135_program (nx := 20) (ny := 20) (by norm_num) (by norm_num) (by norm_num) (by norm_num) 1
  have hp : stokesProgram = stokesStatic x elements bc 1 corneredForce := by
    unfold stokesProgram
    rw [e]
    rfl
  exact ⟨x, elements, bc, h, hp, C135_exists h (by norm_num) (by norm_num) one_pos _, fun up conv hr => C135_run h.valid (hp ▸ hr)⟩

end Pansfem
