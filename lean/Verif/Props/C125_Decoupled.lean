/-
C125: the decoupled Navier-Stokes program.
-/
import Verif.Lemmas.DecoupledStep
import Verif.Lemmas.Cavity
import Verif.Props.C124_LevelSet

noncomputable section

open Matrix

namespace Pansfem

variable {P : DecoupledProgram}

/-! ### Velocities from the weak form -/

theorem unit_vanishing {fixed : List ((ℕ × ℕ) × ℝ)} {n d : ℕ} (h : (n, d) ∉ fixed.map Prod.fst) :
    Vanishing fixed (unitField n d) := by
  intro r hr
  unfold unitField
  rw [if_neg]
  rintro ⟨h1, h2⟩
  refine h (List.mem_map.2 ⟨r, hr, ?_⟩)
  rw [← h1, ← h2]

theorem lumpedMass_unit (n d : ℕ) (w : ℕ → ℕ → ℝ) :
    lumpedMass P (unitField n d) w = w n d * lumpedMass P (unitField n d) (unitField n d) := by
  unfold lumpedMass
  rw [list_sum_mul_left]
  refine congrArg List.sum (List.map_congr_left fun e _ => ?_)
  rw [mul_left_comm]
  refine congrArg (P.rho * (∑ g, measure2 SF.square4 IC.gauss4Square (nodeCoords P.x e) g) / 4 * ·) ?_
  rw [Finset.mul_sum]
  refine Finset.sum_congr rfl fun i _ => ?_
  rw [Finset.mul_sum]
  refine Finset.sum_congr rfl fun a _ => ?_
  unfold nodeComp unitField
  split_ifs with hc
  · rw [hc.1, hc.2]
    ring
  · ring

theorem lumpedMass_unit_pos (h : P.Ok) {n d : ℕ} (hn : n < P.x.length) (hd : d < 2) :
    0 < lumpedMass P (unitField n d) (unitField n d) := by
  refine lumpedMass_pos h (fun m k hm => ?_) ⟨n, d, by simp [unitField]⟩
  unfold unitField at hm
  split_ifs at hm with hc
  · rw [hc.1, hc.2]
    exact ⟨hn, hd⟩
  · exact absurd rfl hm

/-- **C125**: an explicit step determines the velocity.  Two fields with the boundary values that both satisfy the
equation of the auxiliary velocity agree, and so do two that satisfy that of the next velocity. -/
theorem C125_unique (h : P.Ok) {v v' : List (Vec ℝ)} (hv : VelocityOf P v) (hv' : VelocityOf P v') :
    (∀ u, Predicted P u (valOf v) → Predicted P u (valOf v') → ∀ n d, nodal v n d = nodal v' n d) ∧
    (∀ u p, Corrected P u p (valOf v) → Corrected P u p (valOf v') → ∀ n d, nodal v n d = nodal v' n d) := by
  have key : ∀ u, (∀ w, Vanishing P.ufixed w → lumpedMass P w (valOf v - u) = lumpedMass P w (valOf v' - u)) →
      ∀ n d, nodal v n d = nodal v' n d := by
    intro u hu n d
    by_cases hs : (nodal v n d).isSome
    · have hs' : (nodal v' n d).isSome := (hv'.shaped.2 n d).2 ((hv.shaped.2 n d).1 hs)
      obtain ⟨h1, h2⟩ := freeTable_lt ((hv.shaped.2 n d).1 hs)
      by_cases hm : (n, d) ∈ P.ufixed.map Prod.fst
      · obtain ⟨r, hr, e⟩ := List.mem_map.1 hm
        obtain ⟨s, -, -, es⟩ := lastValue_of_key hr
        rw [e] at es
        rw [hv.boundary n d _ es, hv'.boundary n d _ es]
      · have := hu _ (unit_vanishing hm)
        rw [lumpedMass_unit n d (valOf v - u), lumpedMass_unit n d (valOf v' - u)] at this
        have := mul_right_cancel₀ (lumpedMass_unit_pos h h1 h2).ne' this
        simp only [Pi.sub_apply, sub_left_inj] at this
        obtain ⟨a, ha⟩ := Option.isSome_iff_exists.1 hs
        obtain ⟨b, hb⟩ := Option.isSome_iff_exists.1 hs'
        simp only [valOf, ha, hb, Option.getD_some] at this
        rw [ha, hb, this]
    · have hs' : ¬ (nodal v' n d).isSome := fun hc => hs ((hv.shaped.2 n d).2 ((hv'.shaped.2 n d).1 hc))
      rw [Option.not_isSome_iff_eq_none.1 hs, Option.not_isSome_iff_eq_none.1 hs']
  refine ⟨fun u h1 h2 => key u fun w hw => ?_, fun u p h1 h2 => key u fun w hw => ?_⟩
  · linarith [h1 w hw, h2 w hw]
  · linarith [h1 w hw, h2 w hw]

/-! ### Runs -/

/-- **C125**: a time step.  Starting from fields with the boundary values, the step of the program is undefined exactly if
the auxiliary velocity is divergence free at all nodes without given pressure: then the conjugate gradient method divides
zero by zero.  Otherwise it gives fields with the boundary values that satisfy the three equations, and the pressure solver
reports success. -/
theorem C125_step (h : P.Ok) {t t' : List (List ℤ)} (ht : Marks (freeTable P.x.length 2) P.ufixed t)
    (ht' : Marks (freeTable P.x.length 1) P.pfixed t') {f : Flow} (hf : f.Bounded P) :
    (DecoupledStalls P f →
      decoupledStep P (renumbering t).1 (renumbering t).2 (renumbering t').1 (renumbering t').2 f = none) ∧
    (¬ DecoupledStalls P f → ∃ f',
      decoupledStep P (renumbering t).1 (renumbering t).2 (renumbering t').1 (renumbering t').2 f = some (f', true) ∧
        f'.Bounded P ∧ DecoupledStep P f f') := by
  obtain ⟨v, h1, h2, h3, h4⟩ := decoupledStep_spec h ht ht' hf
  constructor
  · rintro ⟨v', k1, k2, k3⟩
    refine h3 ?_
    have : valOf v = valOf v' := by
      funext n d
      unfold valOf
      rw [(C125_unique h h1 k1).1 _ h2 k2 n d]
    rwa [this]
  · intro hs
    obtain ⟨f', a, -, b, c⟩ := h4 fun hS => hs ⟨v, h1, h2, hS⟩
    exact ⟨f', a, b, c⟩

theorem decoupledSteps_spec (h : P.Ok) {t t' : List (List ℤ)} (ht : Marks (freeTable P.x.length 2) P.ufixed t)
    (ht' : Marks (freeTable P.x.length 1) P.pfixed t') (k : ℕ) {f : Flow} (hf : f.Bounded P) :
    ∃ flow : ℕ → Flow, flow 0 = f ∧
      ((∀ i ≤ k, (flow i).Bounded P) ∧ (∀ i < k, DecoupledStep P (flow i) (flow (i + 1))) ∧
          decoupledSteps P (renumbering t).1 (renumbering t).2 (renumbering t').1 (renumbering t').2 k f =
            some (flow k, true) ∨
        ∃ j < k, (∀ i ≤ j, (flow i).Bounded P) ∧ (∀ i < j, DecoupledStep P (flow i) (flow (i + 1))) ∧
          DecoupledStalls P (flow j) ∧
          decoupledSteps P (renumbering t).1 (renumbering t).2 (renumbering t').1 (renumbering t').2 k f = none) := by
  induction k generalizing f with
  | zero =>
    refine ⟨fun _ => f, rfl, Or.inl ⟨fun _ _ => hf, fun i hi => absurd hi (by omega), rfl⟩⟩
  | succ k ih =>
    obtain ⟨s1, s2⟩ := C125_step h ht ht' hf
    by_cases hs : DecoupledStalls P f
    · refine ⟨fun _ => f, rfl, Or.inr ⟨0, by omega, fun _ _ => hf, fun i hi => absurd hi (by omega), hs, ?_⟩⟩
      rw [decoupledSteps, s1 hs]
      rfl
    · obtain ⟨f', a, b, c⟩ := s2 hs
      obtain ⟨flow, e, ih⟩ := ih b
      refine ⟨fun i => match i with | 0 => f | i + 1 => flow i, rfl, ?_⟩
      rcases ih with ⟨b1, b2, b3⟩ | ⟨j, hj, b1, b2, b3, b4⟩
      · refine Or.inl ⟨fun i hi => ?_, fun i hi => ?_, ?_⟩
        · cases i with
          | zero => exact hf
          | succ i => exact b1 i (by omega)
        · cases i with
          | zero =>
            show DecoupledStep P f (flow 0)
            rw [e]
            exact c
          | succ i => exact b2 i (by omega)
        · rw [decoupledSteps, a]
          simp only [Option.bind_eq_bind, Option.bind_some, b3, Option.pure_def, Bool.true_and]
      · refine Or.inr ⟨j + 1, by omega, fun i hi => ?_, fun i hi => ?_, b3, ?_⟩
        · cases i with
          | zero => exact hf
          | succ i => exact b1 i (by omega)
        · cases i with
          | zero =>
            show DecoupledStep P f (flow 0)
            rw [e]
            exact c
          | succ i => exact b2 i (by omega)
        · rw [decoupledSteps, a]
          simp only [Option.bind_eq_bind, Option.bind_some, b4, Option.bind_none]

/-- **C125**: a run of any number of steps.  Either all steps satisfy their equations and keep the boundary values, with
success of all solvers, or some step has a divergence free auxiliary velocity and the result is undefined. -/
theorem C125_run (h : P.Ok) (steps : ℕ) :
    ∃ flow : ℕ → Flow,
      (DecoupledChain P flow steps ∧ runDecoupled P steps = some (flow steps, true)) ∨
      ∃ k < steps, DecoupledChain P flow k ∧ DecoupledStalls P (flow k) ∧ runDecoupled P steps = none := by
  obtain ⟨f, t, t', a1, a2, a3, a4, a5⟩ := decoupledStart_spec h
  obtain ⟨flow, e, hs⟩ := decoupledSteps_spec h a4 a5 steps a2
  have hstart : (flow 0).Starts P := by
    rw [e]
    exact ⟨a2, a3⟩
  have hrun : runDecoupled P steps =
      decoupledSteps P (renumbering t).1 (renumbering t).2 (renumbering t').1 (renumbering t').2 steps f := by
    unfold runDecoupled
    simp only [a1, Option.bind_eq_bind, Option.bind_some]
  refine ⟨flow, ?_⟩
  rcases hs with ⟨b1, b2, b3⟩ | ⟨j, hj, b1, b2, b3, b4⟩
  · exact Or.inl ⟨⟨hstart, b1, b2⟩, hrun.trans b3⟩
  · exact Or.inr ⟨j, hj, ⟨hstart, b1, b2⟩, b3, hrun.trans b4⟩

theorem starts_val {f : Flow} (hf : f.Starts P) {u : ℕ → ℕ → ℝ}
    (hb : ∀ n d a, lastValue P.ufixed n d = some a → u n d = a) (h0 : ∀ n d, lastValue P.ufixed n d = none → u n d = 0) :
    valOf f.u = u := by
  funext n d
  cases hl : lastValue P.ufixed n d with
  | none => rw [hf.rest n d hl, h0 n d hl]
  | some a => rw [hb n d a hl, valOf, hf.bounded.u.boundary n d a hl, Option.getD_some]

/-- **C125**: the equations of a step cannot be met if the auxiliary velocity is divergence free: the criterion of the
pressure solver is then to be below zero. -/
theorem C125_stalled (h : P.Ok) {f f' : Flow} (hs : DecoupledStalls P f) (hv : VelocityOf P f'.v) :
    ¬ DecoupledStep P f f' := by
  intro hstep
  obtain ⟨v, h2, h3, h4⟩ := hs
  have hv : valOf v = valOf f'.v := by
    funext n d
    unfold valOf
    rw [(C125_unique h h2 hv).1 _ h3 hstep.predicted n d]
  rw [hv] at h4
  have hp := hstep.pressure
  unfold PressureSolved at hp
  have h0 : dofNorm (freeDofs (freeTable P.x.length 1) P.pfixed) (pressureResidual P (valOf f'.v) 0) = 0 := by
    unfold dofNorm
    rw [List.sum_eq_zero, Real.sqrt_zero]
    intro r hr
    obtain ⟨q, hq, rfl⟩ := List.mem_map.1 hr
    have hf : IsFree (freeTable P.x.length 1) P.pfixed (q.1, q.2) := of_decide_eq_true (List.mem_filter.1 hq).2
    obtain ⟨a1, a2, a3⟩ := free_table.1 hf
    obtain e : q.2 = 0 := by omega
    rw [e] at a3 ⊢
    rw [pressureResidual_zero, h4 _ a1 a3, mul_zero, zero_pow two_ne_zero]
  rw [h0, mul_zero] at hp
  exact absurd hp (not_lt.2 (Real.sqrt_nonneg _))

theorem starts_stalls {f g : Flow} (hf : f.Starts P) (hg : g.Starts P) (h : DecoupledStalls P f) : DecoupledStalls P g := by
  have hu : valOf f.u = valOf g.u :=
    starts_val hf (fun n d a ha => by rw [valOf, hg.bounded.u.boundary n d a ha, Option.getD_some]) hg.rest
  unfold DecoupledStalls at *
  rwa [← hu]

/-- **C125**: whether the first step succeeds depends on the problem alone.  A run of at least one step is undefined if
the step from the fields at rest has a divergence free auxiliary velocity, and otherwise one step is computed. -/
theorem C125_first_step (h : P.Ok) {f : Flow} (hf : f.Starts P) :
    (DecoupledStalls P f → ∀ steps, runDecoupled P (steps + 1) = none) ∧
    (¬ DecoupledStalls P f → ∃ f', runDecoupled P 1 = some (f', true) ∧ f'.Bounded P ∧ DecoupledStep P f f') := by
  constructor
  · intro hs steps
    obtain ⟨flow, ⟨hc, -⟩ | ⟨k, hk, hc, -, hr⟩⟩ := C125_run h (steps + 1)
    · exact absurd (hc.step 0 (by omega)) (C125_stalled h (starts_stalls hf hc.start hs) (hc.bounded 1 (by omega)).v)
    · exact hr
  · intro hs
    obtain ⟨flow, ⟨hc, hr⟩ | ⟨k, hk, hc, hk', -⟩⟩ := C125_run h 1
    · have hu : valOf f.u = valOf (flow 0).u :=
        starts_val hf (fun n d a ha => by rw [valOf, hc.start.bounded.u.boundary n d a ha, Option.getD_some])
          hc.start.rest
      obtain ⟨s1, s2, s3⟩ := hc.step 0 (by omega)
      exact ⟨flow 1, hr, hc.bounded 1 le_rfl, ⟨by rw [hu]; exact s1, s2, s3⟩⟩
    · obtain rfl : k = 0 := by omega
      exact absurd (starts_stalls hc.start hf hk') hs

/-- **C125**: a fluid at rest between walls at rest.  The first step already divides zero by zero. -/
theorem C125_rest (h : P.Ok) (hlast : ∀ n d a, lastValue P.ufixed n d = some a → a = 0) (steps : ℕ) :
    runDecoupled P (steps + 1) = none := by
  obtain ⟨f, -, -, -, hb, hr, -⟩ := decoupledStart_spec h
  refine (C125_first_step h ⟨hb, hr⟩).1 ⟨f.u, hb.u, ?_, ?_⟩ steps
  all_goals rw [starts_val ⟨hb, hr⟩ (u := 0) (fun n d a ha => (hlast n d a ha).symm) fun _ _ _ => rfl]
  · intro w _
    rw [sub_zero, lumpedMass_zero (v := 0) fun _ _ => mul_zero _]
    have : convection P w 0 = 0 := by
      unfold convection meshIntegral
      refine List.sum_eq_zero fun r hr => ?_
      obtain ⟨e, -, rfl⟩ := List.mem_map.1 hr
      refine Finset.sum_eq_zero fun g _ => ?_
      have : ∀ (k : Fin 2) a, derivAt P e 0 g k a = 0 := fun k a => by simp [derivAt, interp, nodeComp]
      simp only [this, mul_zero, Finset.sum_const_zero, add_zero]
    rw [this, mul_zero, add_zero]
  · intro n _ _
    unfold divergenceWork meshIntegral
    refine List.sum_eq_zero fun r hr => ?_
    obtain ⟨e, -, rfl⟩ := List.mem_map.1 hr
    refine Finset.sum_eq_zero fun g _ => ?_
    have : ∀ (k : Fin 2) a, derivAt P e 0 g k a = 0 := fun k a => by simp [derivAt, interp, nodeComp]
    simp only [this, mul_zero, Finset.sum_const_zero]

/-! ### The problem -/

theorem lastValue_append (l l' : List ((ℕ × ℕ) × ℝ)) (n d : ℕ) :
    lastValue (l ++ l') n d = (lastValue l' n d).or (lastValue l n d) := by
  unfold lastValue
  rw [List.reverse_append, List.find?_append, Option.map_or]

/-- The value given by a list with one value for each dof. -/
theorem lastValue_uniform {l : List ((ℕ × ℕ) × ℝ)} {c : ℕ → ℝ} (hl : ∀ r ∈ l, r.2 = c r.1.2) (n d : ℕ) :
    lastValue l n d = if (n, d) ∈ l.map Prod.fst then some (c d) else none := by
  split_ifs with hm
  · obtain ⟨r, hr, e⟩ := List.mem_map.1 hm
    obtain ⟨s, hs, es, e2⟩ := lastValue_of_key hr
    rw [e] at e2
    rw [e2, hl s hs, es, e]
  · cases hc : lastValue l n d with
    | none => rfl
    | some a => exact absurd (key_of_lastValue hc) hm

theorem selects_keys {nodes : List (ℝ × ℝ)} {ulist : List ℤ} {pred : ℝ × ℝ → Bool} {l : List ((ℕ × ℤ) × ℝ)}
    (hu : ∀ u ∈ ulist, 0 ≤ u) (h : Selects nodes ulist pred l) (n d : ℕ) : (n, d) ∈ (fixedDofs l).map Prod.fst ↔
      n < (asVectors nodes).length ∧ (d : ℤ) ∈ ulist ∧
        pred (coord (asVectors nodes) n 0, coord (asVectors nodes) n 1) = true := by
  rw [fixedDofs_mem hu h, show (asVectors nodes).length = nodes.length by simp [asVectors]]
  constructor
  · rintro ⟨⟨r, hr, hp⟩, hd⟩
    obtain ⟨c1, c2⟩ := coord_asVectors hr
    exact ⟨(List.getElem?_eq_some_iff.1 hr).1, hd, by rw [c1, c2]; exact hp⟩
  · rintro ⟨hn, hd, hp⟩
    obtain ⟨c1, c2⟩ := coord_asVectors (List.getElem?_eq_getElem hn)
    rw [c1, c2] at hp
    exact ⟨⟨_, List.getElem?_eq_getElem hn, hp⟩, hd⟩

theorem fixedDofs_zero {nodes : List (ℝ × ℝ)} {ulist : List ℤ} {pred : ℝ × ℝ → Bool} {l : List ((ℕ × ℤ) × ℝ)}
    (h : Selects nodes ulist pred l) : ∀ r ∈ fixedDofs l, r.2 = 0 := by
  intro r hr
  obtain ⟨q, hq, rfl⟩ := List.mem_map.1 hr
  exact h.1 q hq

theorem setLid_keys (l : List ((ℕ × ℕ) × ℝ)) : (setLid l).map Prod.fst = l.map Prod.fst := by
  unfold setLid
  rw [List.map_map]
  refine List.map_congr_left fun r _ => ?_
  simp only [Function.comp_apply]
  split_ifs <;> rfl

theorem setLid_values {l : List ((ℕ × ℕ) × ℝ)} (h : ∀ r ∈ l, r.2 = 0) :
    ∀ r ∈ setLid l, r.2 = if r.1.2 = 0 then 1 else 0 := by
  intro r hr
  obtain ⟨q, hq, rfl⟩ := List.mem_map.1 hr
  by_cases h0 : q.1.2 = 0
  · simp [h0]
  · simp [h0, h q hq]

/-- What the program makes of a mesh. -/
structure CavityProblem (m : SquareMesh ℝ) (walls lid pinned : ℝ × ℝ → Bool) (P : DecoupledProgram) : Prop where
  nodes : P.x.length = (m.nx + 1) * (m.ny + 1)
  cells : P.elements.length = m.nx * m.ny
  coords : ∀ i ≤ m.nx, ∀ j ≤ m.ny, coord P.x ((m.ny + 1) * i + j) 0 = m.x * (i / m.nx) ∧
    coord P.x ((m.ny + 1) * i + j) 1 = m.y * (j / m.ny)
  velocities : ∀ n d, lastValue P.ufixed n d = if n < P.x.length ∧ d < 2 then
    (if lid (coord P.x n 0, coord P.x n 1) = true then some (if d = 0 then 1 else 0)
      else if walls (coord P.x n 0, coord P.x n 1) = true then some 0 else none) else none
  pressures : ∀ n d, (n, d) ∈ P.pfixed.map Prod.fst ↔
    n < P.x.length ∧ d = 0 ∧ pinned (coord P.x n 0, coord P.x n 1) = true

theorem decoupledProgram_eq (m : SquareMesh ℝ) (hx : 0 < m.nx) (hy : 0 < m.ny) (h1 : 0 < m.x) (h2 : 0 < m.y)
    (hN : (m.nx + 1) * (m.ny + 1) ≤ 100000) (walls lid : ℝ × ℝ → Bool) {pinned : ℝ × ℝ → Bool}
    (hp : ∃ i ≤ m.nx, ∃ j ≤ m.ny, pinned (m.x * (i / m.nx), m.y * (j / m.ny)) = true) {rho mu dt : ℝ} (hr : 0 < rho)
    (ht : 0 < dt) :
    ∃ P, decoupledProgram m walls lid pinned rho mu dt = some P ∧ P.Ok ∧ CavityProblem m walls lid pinned P ∧
      (P.rho = rho ∧ P.mu = mu ∧ P.dt = dt) ∧ P.x = asVectors (squareNodes4 m) ∧ P.elements = squareCells4 m := by
  obtain ⟨n1, ws, a1, a2, a3⟩ := C54_square m hx hy [0, 1] (by simp) (by decide) walls
  obtain ⟨n2, ls, b1, b2, b3⟩ := C54_square m hx hy [0, 1] (by simp) (by decide) lid
  obtain ⟨n3, ps, c1, c2, c3⟩ := C54_square m hx hy [0] (by simp) (by decide) pinned
  obtain ⟨nodes', elements', g1, g2, gl, gq, g3⟩ := C112_reaction_mesh m hx hy h1 h2
  rw [squareNodes_eq m hx hy] at a1 b1 c1 g1
  rw [squareElements_eq] at g2
  obtain rfl : squareNodes4 m = n1 := Option.some.inj a1
  obtain rfl : squareNodes4 m = n2 := Option.some.inj b1
  obtain rfl : squareNodes4 m = n3 := Option.some.inj c1
  obtain rfl : squareNodes4 m = nodes' := Option.some.inj g1
  obtain rfl : squareCells4 m = elements' := Option.some.inj g2
  have two : ∀ d : ℕ, (d : ℤ) ∈ ([0, 1] : List ℤ) ↔ d < 2 := by
    intro d
    simp only [List.mem_cons, List.not_mem_nil, or_false]
    omega
  have one : ∀ d : ℕ, (d : ℤ) ∈ ([0] : List ℤ) ↔ d = 0 := by
    intro d
    simp only [List.mem_cons, List.not_mem_nil, or_false]
    omega
  have kw := selects_keys (by decide) a3
  have kl := selects_keys (by decide) b3
  have kp := selects_keys (by decide) c3
  simp only [two] at kw kl
  simp only [one] at kp
  refine ⟨⟨asVectors (squareNodes4 m), squareCells4 m, fixedDofs ws ++ setLid (fixedDofs ls), fixedDofs ps, rho, mu, dt⟩,
    ?_, ⟨gq, g3, ?_, ?_, ?_, fixedDofs_zero c3, ?_, hr, ht⟩, ⟨gl, ?_, ?_, ?_, kp⟩, ⟨rfl, rfl, rfl⟩, rfl, rfl⟩
  · unfold decoupledProgram
    rw [squareNodes_eq m hx hy, squareElements_eq, a2, b2, c2]
    rfl
  · obtain ⟨i, hi, j, hj, hij⟩ := hp
    intro n hn
    have hn : n < (asVectors (squareNodes4 m)).length := hn
    rw [gl] at hn
    refine square4_anchored m hx hy hi hj ((kp _ _).2 ⟨?_, rfl, ?_⟩) n hn
    · rw [gl]
      exact squareNode_lt hi hj
    · obtain ⟨e1, e2⟩ := coord_asVectors (squareNodes4_at m hi hj)
      rw [e1, e2]
      exact hij
  · intro r hr
    rcases List.mem_append.1 hr with hr | hr
    · obtain ⟨k1, k2, -⟩ := (kw r.1.1 r.1.2).1 (List.mem_map_of_mem hr)
      exact ⟨k1, k2⟩
    · have : (r.1.1, r.1.2) ∈ (setLid (fixedDofs ls)).map Prod.fst := List.mem_map_of_mem hr
      rw [setLid_keys] at this
      obtain ⟨k1, k2, -⟩ := (kl r.1.1 r.1.2).1 this
      exact ⟨k1, k2⟩
  · intro r hr
    obtain ⟨k1, k2, -⟩ := (kp r.1.1 r.1.2).1 (List.mem_map_of_mem hr)
    exact ⟨k1, by omega⟩
  · show (asVectors (squareNodes4 m)).length ≤ 100000
    rw [gl]
    exact hN
  · show (squareCells4 m).length = _
    simp [squareCells4, grid]
  · intro i hi j hj
    exact coord_asVectors (squareNodes4_at m hi hj)
  · intro n d
    show lastValue (fixedDofs ws ++ setLid (fixedDofs ls)) n d = _
    rw [lastValue_append, lastValue_uniform (c := fun _ => 0) (fixedDofs_zero a3),
      lastValue_uniform (c := fun d => if d = 0 then 1 else 0) (setLid_values (fixedDofs_zero b3)), setLid_keys]
    by_cases hnd : n < (asVectors (squareNodes4 m)).length ∧ d < 2
    · rw [if_pos hnd]
      by_cases hL : lid (coord (asVectors (squareNodes4 m)) n 0, coord (asVectors (squareNodes4 m)) n 1) = true
      · rw [if_pos ((kl n d).2 ⟨hnd.1, hnd.2, hL⟩), if_pos hL, Option.some_or]
      · rw [if_neg (fun hc => hL ((kl n d).1 hc).2.2), if_neg hL, Option.none_or]
        by_cases hW : walls (coord (asVectors (squareNodes4 m)) n 0, coord (asVectors (squareNodes4 m)) n 1) = true
        · rw [if_pos ((kw n d).2 ⟨hnd.1, hnd.2, hW⟩), if_pos hW]
        · rw [if_neg (fun hc => hW ((kw n d).1 hc).2.2), if_neg hW]
    · rw [if_neg hnd, if_neg (fun hc => hnd ⟨((kl n d).1 hc).1, ((kl n d).1 hc).2.1⟩),
        if_neg (fun hc => hnd ⟨((kw n d).1 hc).1, ((kw n d).1 hc).2.1⟩), Option.none_or]

/-- **C125**: the problem of the program.  On every mesh of at most 100000 nodes with a node of given pressure everything
before the loop succeeds: the velocities of the lid are given as `(1, 0)`, also at its ends, those of the walls as zero,
and the pressure as zero at the chosen nodes; the loop can treat the problem. -/
theorem C125_problem (m : SquareMesh ℝ) (hx : 0 < m.nx) (hy : 0 < m.ny) (h1 : 0 < m.x) (h2 : 0 < m.y)
    (hN : (m.nx + 1) * (m.ny + 1) ≤ 100000) (walls lid : ℝ × ℝ → Bool) {pinned : ℝ × ℝ → Bool}
    (hp : ∃ i ≤ m.nx, ∃ j ≤ m.ny, pinned (m.x * (i / m.nx), m.y * (j / m.ny)) = true) {rho mu dt : ℝ} (hr : 0 < rho)
    (ht : 0 < dt) :
    ∃ P, decoupledProgram m walls lid pinned rho mu dt = some P ∧ P.Ok ∧ CavityProblem m walls lid pinned P ∧
      (P.rho = rho ∧ P.mu = mu ∧ P.dt = dt) := by
  obtain ⟨P, a, b, c, d, -⟩ := decoupledProgram_eq m hx hy h1 h2 hN walls lid hp hr ht (mu := mu)
  exact ⟨P, a, b, c, d⟩

/-! ### The first step of the cavity -/

theorem sum_pos_of_mem {α : Type} {l : List α} {f : α → ℝ} (h : ∀ a ∈ l, 0 ≤ f a) {a : α} (ha : a ∈ l) (hp : 0 < f a) :
    0 < (l.map f).sum := by
  refine lt_of_lt_of_le hp (List.single_le_sum (fun r hr => ?_) _ (List.mem_map.2 ⟨a, ha, rfl⟩))
  obtain ⟨b, hb, rfl⟩ := List.mem_map.1 hr
  exact h b hb

/-- **C125**: a lid that moves over a viscous fluid at rest.  If all nodes on the top move with `(1, 0)`, the other sides
are walls, and the pressure is not given at the upper left corner, the auxiliary velocity of the first step has a
divergence there, so the first step is computed. -/
theorem C125_lid (m : SquareMesh ℝ) (hx : 2 ≤ m.nx) (hy : 2 ≤ m.ny) (h1 : 0 < m.x) (h2 : 0 < m.y)
    (hN : (m.nx + 1) * (m.ny + 1) ≤ 100000) {walls lid pinned : ℝ × ℝ → Bool}
    (hp : ∃ i ≤ m.nx, ∃ j ≤ m.ny, pinned (m.x * (i / m.nx), m.y * (j / m.ny)) = true)
    (hc : pinned (0, m.y) = false)
    (hw : ∀ i ≤ m.nx, ∀ j ≤ m.ny, walls (m.x * (i / m.nx), m.y * (j / m.ny)) = true ↔ i = 0 ∨ j = 0 ∨ i = m.nx)
    (hl : ∀ i ≤ m.nx, ∀ j ≤ m.ny, lid (m.x * (i / m.nx), m.y * (j / m.ny)) = true ↔ j = m.ny)
    {rho mu dt : ℝ} (hr : 0 < rho) (hm : 0 < mu) (ht : 0 < dt) :
    ∃ P f f', decoupledProgram m walls lid pinned rho mu dt = some P ∧ P.Ok ∧ f.Starts P ∧
      runDecoupled P 1 = some (f', true) ∧ f'.Bounded P ∧ DecoupledStep P f f' := by
  obtain ⟨P, e, hP, hC, ⟨er, em, et⟩, hX, hE⟩ := decoupledProgram_eq m (by omega) (by omega) h1 h2 hN walls lid hp hr ht (mu := mu)
  obtain ⟨f, -, -, -, hb, hrest, -⟩ := decoupledStart_spec hP
  have hstart : f.Starts P := ⟨hb, hrest⟩
  have hnx : (0 : ℝ) < m.nx := Nat.cast_pos.2 (by omega)
  have hny : (0 : ℝ) < m.ny := Nat.cast_pos.2 (by omega)
  have ha : 0 < m.x / m.nx := div_pos h1 hnx
  have hb' : 0 < m.y / m.ny := div_pos h2 hny
  have hlast : ∀ i ≤ m.nx, ∀ j ≤ m.ny, ∀ d < 2, lastValue P.ufixed (squareNode m.ny i j) d =
      if j = m.ny then some (if d = 0 then 1 else 0) else if i = 0 ∨ j = 0 ∨ i = m.nx then some 0 else none := by
    intro i hi j hj d hd
    obtain ⟨c0, c1⟩ := hC.coords i hi j hj
    rw [hC.velocities, if_pos ⟨by rw [hC.nodes]; exact squareNode_lt hi hj, hd⟩, squareNode, c0, c1,
      if_congr (hl i hi j hj) rfl rfl, if_congr (hw i hi j hj) rfl rfl]
  have hval : ∀ {v : List (Vec ℝ)}, VelocityOf P v → ∀ i ≤ m.nx, ∀ j ≤ m.ny, ∀ d < 2,
      (j = m.ny → valOf v (squareNode m.ny i j) d = if d = 0 then 1 else 0) ∧
      (j ≠ m.ny → (i = 0 ∨ j = 0 ∨ i = m.nx) → valOf v (squareNode m.ny i j) d = 0) := by
    intro v hv i hi j hj d hd
    have h0 := hlast i hi j hj d hd
    constructor
    · intro hj'
      rw [if_pos hj'] at h0
      rw [valOf, hv.boundary _ _ _ h0, Option.getD_some]
    · intro hj' hw'
      rw [if_neg hj', if_pos hw'] at h0
      rw [valOf, hv.boundary _ _ _ h0, Option.getD_some]
  have hu : ∀ i ≤ m.nx, ∀ j ≤ m.ny, ∀ d < 2, valOf f.u (squareNode m.ny i j) d = if j = m.ny ∧ d = 0 then 1 else 0 := by
    intro i hi j hj d hd
    obtain ⟨k1, k2⟩ := hval hb.u i hi j hj d hd
    by_cases hj' : j = m.ny
    · rw [k1 hj']
      simp [hj']
    · rw [if_neg fun hc => hj' hc.1]
      by_cases hw' : i = 0 ∨ j = 0 ∨ i = m.nx
      · exact k2 hj' hw'
      · exact hrest _ _ (by rw [hlast i hi j hj d hd, if_neg hj', if_neg hw'])
  have hcell : ∀ r ∈ P.elements, ∃ i < m.nx, ∃ j < m.ny, r = quad (squareNode m.ny) (· + 1) (i, j) := by
    intro r hr
    rw [hE] at hr
    obtain ⟨q, hq, rfl⟩ := List.mem_map.1 hr
    obtain ⟨i, hi, j, hj, rfl⟩ := mem_grid.1 hq
    exact ⟨i, hi, j, hj, rfl⟩
  have hmem : ∀ i < m.nx, ∀ j < m.ny, quad (squareNode m.ny) (· + 1) (i, j) ∈ P.elements := by
    intro i hi j hj
    rw [hE]
    exact List.mem_map_of_mem (mem_grid.2 ⟨i, hi, j, hj, rfl⟩)
  refine (fun hs => ?_ : ¬ DecoupledStalls P f → _) ?_
  · obtain ⟨f', k⟩ := (C125_first_step hP hstart).2 hs
    exact ⟨P, f, f', e, hP, hstart, k⟩
  rintro ⟨v, hv, hpred, hsol⟩
  obtain ⟨K, hK⟩ : ∃ K, m.ny = K + 1 := ⟨m.ny - 1, by omega⟩
  -- the node below the lid next to the left wall
  have hBn : squareNode m.ny 1 K < P.x.length := by
    rw [hC.nodes]
    exact squareNode_lt (by omega) (by omega)
  have hBfree : ∀ d < 2, (squareNode m.ny 1 K, d) ∉ P.ufixed.map Prod.fst := by
    intro d hd hm'
    obtain ⟨r, hr', e'⟩ := List.mem_map.1 hm'
    obtain ⟨s, -, -, es⟩ := lastValue_of_key hr'
    rw [e', hlast 1 (by omega) K (by omega) d hd, if_neg (by omega), if_neg (by omega)] at es
    cases es
  have hstep : ∀ d < 2, valOf v (squareNode m.ny 1 K) d * lumpedMass P (unitField (squareNode m.ny 1 K) d)
      (unitField (squareNode m.ny 1 K) d) = - (P.dt * convection P (unitField (squareNode m.ny 1 K) d) (valOf f.u)) := by
    intro d hd
    have h0 := hpred _ (unit_vanishing (hBfree d hd))
    rw [lumpedMass_unit _ _ (valOf v - valOf f.u), Pi.sub_apply, Pi.sub_apply, hu 1 (by omega) K (by omega) d hd,
      if_neg (by omega), sub_zero] at h0
    linarith
  have hshear : ∀ (w : ℕ → ℕ → ℝ), ∀ i < m.nx, ∀ j < m.ny,
      (∑ g, measure2 SF.square4 IC.gauss4Square (nodeCoords P.x (quad (squareNode m.ny) (· + 1) (i, j))) g * ∑ c : Fin 2,
        (P.rho * valueAt (quad (squareNode m.ny) (· + 1) (i, j)) w g c *
        ∑ k : Fin 2, valueAt (quad (squareNode m.ny) (· + 1) (i, j)) (valOf f.u) g k *
          derivAt P (quad (squareNode m.ny) (· + 1) (i, j)) (valOf f.u) g k c +
        P.mu * ∑ k : Fin 2, derivAt P (quad (squareNode m.ny) (· + 1) (i, j)) w g k c *
          derivAt P (quad (squareNode m.ny) (· + 1) (i, j)) (valOf f.u) g k c)) =
      P.mu * (if j = K then 1 else 0) * (m.x / m.nx) / (2 * (m.y / m.ny)) *
        bilinear4 (nodeComp (quad (squareNode m.ny) (· + 1) (i, j)) w 0) 1 := by
    intro w i hi j hj
    refine cell_shear (by rw [hX]; exact cell_coords m hi hj) ha.ne' hb'.ne' ?_ ?_
    · rw [cell_comp, hu i (by omega) j (by omega) 0 (by norm_num), hu (i + 1) (by omega) j (by omega) 0 (by norm_num),
        hu (i + 1) (by omega) (j + 1) (by omega) 0 (by norm_num), hu i (by omega) (j + 1) (by omega) 0 (by norm_num),
        if_neg (by omega)]
      simp only [and_true, show (j + 1 = m.ny) ↔ j = K by omega]
    · rw [cell_comp, hu i (by omega) j (by omega) 1 (by norm_num), hu (i + 1) (by omega) j (by omega) 1 (by norm_num),
        hu (i + 1) (by omega) (j + 1) (by omega) 1 (by norm_num), hu i (by omega) (j + 1) (by omega) 1 (by norm_num)]
      simp only [one_ne_zero, and_false, if_false]
      funext k
      fin_cases k <;> rfl
  have hunit : ∀ d i j, j ≤ m.ny → ∀ c, unitField (K := ℝ) (squareNode m.ny 1 K) d (squareNode m.ny i j) c =
      if (i = 1 ∧ j = K) ∧ c = d then 1 else 0 := by
    intro d i j hj c
    unfold unitField
    rw [if_congr (and_congr (squareNode_eq hj (by omega)) Iff.rfl) rfl rfl]
  -- it is dragged along
  have hB0 : 0 < valOf v (squareNode m.ny 1 K) 0 := by
    have hneg : 0 < - convection P (unitField (squareNode m.ny 1 K) 0) (valOf f.u) := by
      unfold convection meshIntegral
      rw [← sum_map_neg']
      refine sum_pos_of_mem (fun r hr' => ?_) (hmem 1 (by omega) K (by omega)) ?_
      · obtain ⟨i, hi, j, hj, rfl⟩ := hcell r hr'
        dsimp only
        rw [hshear _ i hi j hj, cell_comp, hunit _ _ _ (by omega), hunit _ _ _ (by omega), hunit _ _ _ (by omega),
          hunit _ _ _ (by omega)]
        by_cases hjK : j = K
        · have e2 : ¬ j + 1 = K := by omega
          rw [if_pos hjK]
          have hk : 0 < P.mu * 1 * (m.x / m.nx) / (2 * (m.y / m.ny)) := by
            rw [em]
            positivity
          refine neg_nonneg.2 (mul_nonpos_of_nonneg_of_nonpos hk.le ?_)
          simp only [bilinear4, cons_val_one, cons_val_zero, cons_val, e2, and_false, false_and, if_false]
          split_ifs <;> norm_num
        · rw [if_neg hjK]
          simp
      · dsimp only
        rw [hshear _ 1 (by omega) K (by omega), cell_comp, hunit _ _ _ (by omega), hunit _ _ _ (by omega),
          hunit _ _ _ (by omega), hunit _ _ _ (by omega), em]
        have : 0 < mu * 1 * (m.x / m.nx) / (2 * (m.y / m.ny)) := by positivity
        simp [bilinear4]
        simpa using this
    have h0 := hstep 0 (by norm_num)
    have hM := lumpedMass_unit_pos hP hBn (d := 0) (by norm_num)
    have : 0 < valOf v (squareNode m.ny 1 K) 0 * lumpedMass P (unitField (squareNode m.ny 1 K) 0)
        (unitField (squareNode m.ny 1 K) 0) := by
      rw [h0, ← mul_neg, et]
      exact mul_pos ht hneg
    exact (pos_iff_pos_of_mul_pos this).2 hM
  have hB1 : valOf v (squareNode m.ny 1 K) 1 = 0 := by
    have h0 := hstep 1 (by norm_num)
    have hz : convection P (unitField (squareNode m.ny 1 K) 1) (valOf f.u) = 0 := by
      unfold convection meshIntegral
      refine List.sum_eq_zero fun s hs => ?_
      obtain ⟨r, hr', rfl⟩ := List.mem_map.1 hs
      obtain ⟨i, hi, j, hj, rfl⟩ := hcell r hr'
      rw [hshear _ i hi j hj, cell_comp, hunit _ _ _ (by omega), hunit _ _ _ (by omega), hunit _ _ _ (by omega),
        hunit _ _ _ (by omega)]
      simp [bilinear4]
    rw [hz, mul_zero, neg_zero] at h0
    exact (mul_eq_zero.1 h0).resolve_right (lumpedMass_unit_pos hP hBn (d := 1) (by norm_num)).ne'
  -- the corner
  have hD : divergenceWork P (unitField (squareNode m.ny 0 m.ny) 0) (valOf v) = 0 := by
    refine hsol _ (by rw [hC.nodes]; exact squareNode_lt (by omega) le_rfl) fun hk => ?_
    have h0 := ((hC.pressures _ _).1 hk).2.2
    obtain ⟨c0, c1⟩ := hC.coords 0 (by omega) m.ny le_rfl
    rw [squareNode, c0, c1, div_self hny.ne', mul_one, Nat.cast_zero, zero_div, mul_zero, hc] at h0
    cases h0
  have hunit' : ∀ i j, j ≤ m.ny → ∀ c, unitField (K := ℝ) (squareNode m.ny 0 m.ny) 0 (squareNode m.ny i j) c =
      if (i = 0 ∧ j = m.ny) ∧ c = 0 then 1 else 0 := by
    intro i j hj c
    unfold unitField
    rw [if_congr (and_congr (squareNode_eq hj le_rfl) Iff.rfl) rfl rfl]
  have hpos : 0 < divergenceWork P (unitField (squareNode m.ny 0 m.ny) 0) (valOf v) := by
    have hcorner : (∑ g, measure2 SF.square4 IC.gauss4Square (nodeCoords P.x (quad (squareNode m.ny) (· + 1) (0, K))) g *
        (valueAt (quad (squareNode m.ny) (· + 1) (0, K)) (unitField (squareNode m.ny 0 m.ny) 0) g 0 *
        ∑ k : Fin 2, derivAt P (quad (squareNode m.ny) (· + 1) (0, K)) (valOf v) g k k)) =
        (m.y / m.ny * valOf v (squareNode m.ny 1 K) 0 - m.x / m.nx * 0) / 12 := by
      have b1 := hval hv
      refine cell_divergence (by rw [hX]; exact cell_coords m (by omega) (by omega)) ha.ne' hb'.ne' ?_ ?_ ?_
      · rw [cell_comp, hunit' _ _ (by omega), hunit' _ _ (by omega), hunit' _ _ (by omega), hunit' _ _ (by omega)]
        simp [hK]
      · rw [cell_comp, (b1 0 (by omega) K (by omega) 0 (by norm_num)).2 (by omega) (Or.inl rfl),
          (b1 (0 + 1) (by omega) (K + 1) (by omega) 0 (by norm_num)).1 hK.symm,
          (b1 0 (by omega) (K + 1) (by omega) 0 (by norm_num)).1 hK.symm]
        simp
      · rw [cell_comp, (b1 0 (by omega) K (by omega) 1 (by norm_num)).2 (by omega) (Or.inl rfl),
          (b1 (0 + 1) (by omega) (K + 1) (by omega) 1 (by norm_num)).1 hK.symm,
          (b1 0 (by omega) (K + 1) (by omega) 1 (by norm_num)).1 hK.symm]
        simp [hB1]
    unfold divergenceWork meshIntegral
    refine sum_pos_of_mem (fun r hr' => ?_) (hmem 0 (by omega) K (by omega)) ?_
    · obtain ⟨i, hi, j, hj, rfl⟩ := hcell r hr'
      by_cases hij : i = 0 ∧ j = K
      · obtain ⟨rfl, rfl⟩ := hij
        refine le_of_le_of_eq ?_ hcorner.symm
        have := mul_pos hb' hB0
        linarith
      · refine le_of_eq (Finset.sum_eq_zero fun g _ => ?_).symm
        have : valueAt (quad (squareNode m.ny) (· + 1) (i, j)) (unitField (squareNode m.ny 0 m.ny) 0) g 0 = 0 := by
          have : nodeComp (quad (squareNode m.ny) (· + 1) (i, j)) (unitField (squareNode m.ny 0 m.ny) 0) 0 = (0 : Fin 4 → ℝ) := by
            rw [cell_comp, hunit' _ _ (by omega), hunit' _ _ (by omega), hunit' _ _ (by omega), hunit' _ _ (by omega),
              if_neg (by omega), if_neg (by omega), if_neg (by omega), if_neg (by omega)]
            funext k
            fin_cases k <;> rfl
          rw [valueAt, this]
          simp [interp]
        dsimp only
        rw [this, zero_mul, mul_zero]
    · refine lt_of_lt_of_eq ?_ hcorner.symm
      have := mul_pos hb' hB0
      linarith
  exact absurd hD hpos.ne'

/-! ### The literals -/

/-- The fractions of a grid that is not finer than the tolerance of the predicates. -/
theorem grid_close {n i k : ℕ} (h0 : 0 < n) (hn : n ≤ 10000) :
    |1 * ((i : ℝ) / n) - k / n| < 1 / 10 ^ 5 ↔ i = k := by
  have hpos : (0 : ℝ) < n := Nat.cast_pos.2 h0
  have hle : (n : ℝ) ≤ 10000 := by exact_mod_cast hn
  constructor
  · intro h
    have e : 1 * ((i : ℝ) / n) - k / n = ((i : ℤ) - (k : ℤ) : ℤ) / n := by
      push_cast
      ring
    rw [e, abs_div, abs_of_pos hpos, div_lt_iff₀ hpos] at h
    have h1 : |(((i : ℤ) - (k : ℤ) : ℤ) : ℝ)| < 1 := lt_of_lt_of_le h (by nlinarith)
    rw [← Int.cast_abs] at h1
    have h2 : |(i : ℤ) - k| < 1 := by exact_mod_cast h1
    have := Int.abs_lt_one_iff.1 h2
    omega
  · rintro rfl
    rw [one_mul, sub_self, abs_zero]
    norm_num

/-- The predicates on a unit square of `n` times `n` elements, `n` even. -/
theorem cavity_predicates {n : ℕ} (h0 : 0 < n) (hn : n ≤ 10000) (i j : ℕ) :
    (cavityWalls (1 * (i / n), 1 * (j / n)) = true ↔ i = 0 ∨ j = 0 ∨ i = n) ∧
    (cavityLid (1 * (i / n), 1 * (j / n)) = true ↔ j = n) ∧
    (∀ k, n = 2 * k → (cavityPin (1 * (i / n), 1 * (j / n)) = true ↔ i = k ∧ j = 0)) := by
  have hpos : (0 : ℝ) < n := Nat.cast_pos.2 h0
  have z : (0 : ℝ) = (0 : ℕ) / n := by simp
  have o : (1 : ℝ) = (n : ℕ) / n := (div_self hpos.ne').symm
  have k0 : ∀ i : ℕ, |1 * ((i : ℝ) / n) - 0| < 1 / 10 ^ 5 ↔ i = 0 := fun i => by
    have := grid_close (i := i) (k := 0) h0 hn
    rwa [← z] at this
  have k1 : ∀ i : ℕ, |1 * ((i : ℝ) / n) - 1| < 1 / 10 ^ 5 ↔ i = n := fun i => by
    have := grid_close (i := i) (k := n) h0 hn
    rwa [← o] at this
  refine ⟨?_, ?_, fun k hk => ?_⟩
  · unfold cavityWalls
    rw [decide_eq_true_iff, k0, k0, k1]
  · unfold cavityLid
    rw [decide_eq_true_iff, k1]
  · unfold cavityPin
    have h2 : (1 / 2 : ℝ) = (k : ℝ) / n := by
      rw [hk, Nat.cast_mul, Nat.cast_two]
      have : (k : ℝ) ≠ 0 := Nat.cast_ne_zero.2 (by omega)
      field_simp
    have h3 := k0 j
    rw [sub_zero] at h3
    rw [decide_eq_true_iff, h3, h2]
    exact and_congr_left fun _ => grid_close h0 hn

theorem cavity_square {n k : ℕ} (hk : n = 2 * k) (h0 : 1 ≤ k) (hn : n ≤ 300) {rho mu dt : ℝ} (hr : 0 < rho) (hm : 0 < mu)
    (ht : 0 < dt) :
    ∃ P f f', decoupledProgram ⟨1, 1, n, n⟩ cavityWalls cavityLid cavityPin rho mu dt = some P ∧ P.Ok ∧ f.Starts P ∧
      runDecoupled P 1 = some (f', true) ∧ f'.Bounded P ∧ DecoupledStep P f f' := by
  have hn0 : 0 < n := by omega
  refine C125_lid ⟨1, 1, n, n⟩ (by dsimp; omega) (by dsimp; omega) one_pos one_pos ?_ ⟨k, by dsimp; omega, 0, by dsimp; omega, ?_⟩ ?_
    (fun i _ j _ => (cavity_predicates hn0 (by omega) i j).1)
    (fun i _ j _ => (cavity_predicates hn0 (by omega) i j).2.1) hr hm ht
  · exact (Nat.mul_le_mul (Nat.succ_le_succ hn) (Nat.succ_le_succ hn)).trans (by norm_num)
  · exact ((cavity_predicates hn0 (by omega) k 0).2.2 k hk).2 ⟨rfl, rfl⟩
  · unfold cavityPin
    rw [decide_eq_false_iff_not]
    rintro ⟨h, -⟩
    norm_num at h

/-- **C125**: the program as it is: the lid moves, the other walls and the corners below it stand still, the pressure is given in the
middle of the bottom, the first step is made, and the 800 steps of the loop are made as well unless an auxiliary velocity
becomes exactly divergence free. -/
theorem C125_cavity :
    ∃ P f f', cavityProgram = some P ∧ P.Ok ∧ (P.x.length = 961 ∧ P.elements.length = 900) ∧
      (P.rho = 1 ∧ P.mu = 1 / 100 ∧ P.dt = 0.005) ∧
      (∀ i ≤ 30, ∀ j ≤ 30, coord P.x (31 * i + j) 0 = (i : ℝ) / 30 ∧ coord P.x (31 * i + j) 1 = (j : ℝ) / 30) ∧
      (∀ i ≤ 30, ∀ j ≤ 30, ∀ d < 2, lastValue P.ufixed (31 * i + j) d =
        if j = 30 then some (if d = 0 then 1 else 0) else if i = 0 ∨ j = 0 ∨ i = 30 then some 0 else none) ∧
      (∀ i ≤ 30, ∀ j ≤ 30, (31 * i + j, 0) ∈ P.pfixed.map Prod.fst ↔ i = 15 ∧ j = 0) ∧
      (f.Starts P ∧ runDecoupled P 1 = some (f', true) ∧ f'.Bounded P ∧ DecoupledStep P f f') ∧
      ∃ flow : ℕ → Flow,
        (DecoupledChain P flow 800 ∧ runDecoupled P 800 = some (flow 800, true)) ∨
        ∃ k, 0 < k ∧ k < 800 ∧ DecoupledChain P flow k ∧ DecoupledStalls P (flow k) ∧ runDecoupled P 800 = none := by
  have hpred := fun i j => cavity_predicates (n := 30) (by norm_num) (by norm_num) i j
  obtain ⟨P, e, hP, hC, hl⟩ := C125_problem ⟨1, 1, 30, 30⟩ (by norm_num) (by norm_num) one_pos one_pos (by norm_num)
    cavityWalls cavityLid (pinned := cavityPin) ⟨15, by norm_num, 0, by norm_num, ((hpred 15 0).2.2 15 rfl).2 ⟨rfl, rfl⟩⟩
    (rho := 1) (mu := 1 / 100) (dt := 0.005) one_pos (by norm_num)
  obtain ⟨P', f, f', e', -, hs, h1, h2⟩ := cavity_square (n := 30) (k := 15) rfl (by norm_num) (by norm_num) (rho := 1)
    (mu := 1 / 100) (dt := 0.005) one_pos (by norm_num) (by norm_num)
  obtain rfl : P = P' := Option.some.inj (e.symm.trans e')
  have hlen : P.x.length = 961 := hC.nodes
  have hcoord : ∀ i ≤ 30, ∀ j ≤ 30, coord P.x (31 * i + j) 0 = 1 * ((i : ℝ) / (30 : ℕ)) ∧
      coord P.x (31 * i + j) 1 = 1 * ((j : ℝ) / (30 : ℕ)) := hC.coords
  refine ⟨P, f, f', e, hP, ⟨hlen, hC.cells⟩, hl, ?_, ?_, ?_, ⟨hs, h1, h2⟩, ?_⟩
  · intro i hi j hj
    have := hcoord i hi j hj
    simpa only [one_mul, Nat.cast_ofNat] using this
  · intro i hi j hj d hd
    obtain ⟨c0, c1⟩ := hcoord i hi j hj
    rw [hC.velocities, if_pos ⟨by rw [hlen]; omega, hd⟩, c0, c1, if_congr (hpred i j).2.1 rfl rfl,
      if_congr (hpred i j).1 rfl rfl]
  · intro i hi j hj
    obtain ⟨c0, c1⟩ := hcoord i hi j hj
    rw [hC.pressures, c0, c1, (hpred i j).2.2 15 rfl, hlen]
    exact ⟨fun h => h.2.2, fun h => ⟨by omega, rfl, h⟩⟩
  · obtain ⟨flow, h | ⟨k, hk, hc, hst, hr⟩⟩ := C125_run hP 800
    · exact ⟨flow, Or.inl h⟩
    · refine ⟨flow, Or.inr ⟨k, Nat.pos_of_ne_zero ?_, hk, hc, hst, hr⟩⟩
      rintro rfl
      have := (C125_first_step hP hc.start).1 hst 0
      rw [h1] at this
      cases this

/-! ### Concrete cases -/

/-- A cavity of two by two elements meets the hypotheses. -/
theorem small_cavity : ∃ P, decoupledProgram ⟨1, 1, 2, 2⟩ cavityWalls cavityLid cavityPin 1 1 1 = some P ∧ P.Ok :=
  (cavity_square (k := 1) rfl le_rfl (by norm_num) one_pos one_pos one_pos).imp fun _ h =>
    let ⟨_, _, h1, h2, _⟩ := h
    ⟨h1, h2⟩

example : ∃ P f f', decoupledProgram ⟨1, 1, 4, 4⟩ cavityWalls cavityLid cavityPin 1 (1 / 2) 3 = some P ∧ P.Ok ∧ f.Starts P ∧
    runDecoupled P 1 = some (f', true) ∧ f'.Bounded P ∧ DecoupledStep P f f' :=
  cavity_square (k := 2) rfl (by norm_num) (by norm_num) one_pos (by norm_num) (by norm_num)

/-- `C125_run`, `C125_first_step` and `C125_unique` apply to the small cavity, for any number of steps. -/
example (steps : ℕ) : ∃ P, P.Ok ∧ ∃ flow : ℕ → Flow,
    (DecoupledChain P flow steps ∧ runDecoupled P steps = some (flow steps, true)) ∨
    ∃ k < steps, DecoupledChain P flow k ∧ DecoupledStalls P (flow k) ∧ runDecoupled P steps = none := by
  obtain ⟨P, -, h⟩ := small_cavity
  exact ⟨P, h, C125_run h steps⟩

/-- `C125_rest`: the same cavity with a lid that stands still. -/
example : ∃ P, decoupledProgram ⟨1, 1, 2, 2⟩ cavityWalls (fun _ => false) cavityPin 1 1 1 = some P ∧ P.Ok ∧
    runDecoupled P 5 = none := by
  obtain ⟨P, e, h, hC, -⟩ := C125_problem ⟨1, 1, 2, 2⟩ (by norm_num) (by norm_num) one_pos one_pos (by norm_num)
    cavityWalls (fun _ => false) (pinned := cavityPin)
    ⟨1, by norm_num, 0, by norm_num, ((cavity_predicates (n := 2) (by norm_num) (by norm_num) 1 0).2.2 1 rfl).2 ⟨rfl, rfl⟩⟩
    (rho := 1) (mu := 1) (dt := 1) one_pos one_pos
  refine ⟨P, e, h, C125_rest h (fun n d a ha => ?_) 4⟩
  rw [hC.velocities] at ha
  split_ifs at ha <;> simp_all

end Pansfem
