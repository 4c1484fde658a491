/-
C131: the time dependent advection-diffusion program.
-/
import Verif.Props.C130_Advection

namespace Pansfem

open Matrix

section
variable {x : List (Vec ℝ)} {elements : List (List ℕ)} {bc : List ((ℕ × ℕ) × ℝ)} {k dt theta : ℝ}
  {vel : (Fin 2 → ℝ) → Fin 2 → ℝ}

theorem triCentre_eq {a b c : ℕ} {X : Matrix (Fin 3) (Fin 2) ℝ} (h : gather x [a, b, c] 3 2 = some X) :
    triCentre X = triCentroid x a b c := by
  funext j
  fin_cases j <;> simp [triCentre, triCentroid, Fin.sum_univ_succ, triangle_gather h] <;> ring

/-- The items of the program. -/
theorem advectionItems_spec (hT : Triangles x elements) (hw : ∀ e ∈ elements, elementWind x vel e ≠ 0) (hk : 0 ≤ k)
    {u₀ : List (Vec ℝ)} (hu : ∀ m < x.length, (nodal u₀ m 0).isSome) :
    ∃ items, advectionItems vel k x elements = some items ∧ (∀ it ∈ items, it.Sound (freeTable x.length 1) u₀) ∧
      (∀ it ∈ items, it.Fe = none) ∧
      (∀ v u : ℕ → ℕ → ℝ, energy (items.map TimeItem.mass) v u =
        driftMass x vel k elements (fun m => v m 0) (fun m => u m 0)) ∧
      ∀ v u : ℕ → ℕ → ℝ, energy (items.map TimeItem.stiff) v u =
        drift x vel k elements (fun m => v m 0) (fun m => u m 0) := by
  have key : ∀ e ∈ elements, ∃ it, (do
      let (Me, _) ← elemM 1 (scalarCore fun X => transportMass (vel (triCentre X)) k X) e [0] x
      let (Ke, nte) ← elemM 1 (scalarCore fun X => transportCore (vel (triCentre X)) k X) e [0] x
      return ⟨Me, Ke, none, nte, e⟩ : Option (TimeItem ℝ)) = some it ∧ it.Sound (freeTable x.length 1) u₀ ∧
      it.Fe = none ∧ (∀ v u : ℕ → ℕ → ℝ, callEnergy it.mass v u =
        transportMassForm x (elementWind x vel e) k (fun m => v m 0) (fun m => u m 0) e) ∧
      ∀ v u : ℕ → ℕ → ℝ, callEnergy it.stiff v u =
        transportForm x (elementWind x vel e) k (fun m => v m 0) (fun m => u m 0) e := by
    intro e he
    have hwe := hw e he
    obtain ⟨h1, a, b, c, rfl, hp⟩ := hT e he
    obtain ⟨X, hX⟩ := triangle_coords h1 (n := 3) rfl
    have hc : vel (triCentre X) = elementWind x vel [a, b, c] := by rw [triCentre_eq hX]; rfl
    obtain ⟨A, hA, hA2⟩ := transportCore_spec hX hp hwe hk
    obtain ⟨B, hB, hB2⟩ := transportMass_spec hX hp hwe hk
    have e1 := (elemM_eq_some (k := 1) (dl := [0]) (e := [a, b, c])
      (core := scalarCore fun X => transportMass (vel (triCentre X)) k X)).2
      ⟨rfl, X, _, hX, by rw [scalarCore, hc, hB]; rfl, rfl, rfl⟩
    have e2 := (elemM_eq_some (k := 1) (dl := [0]) (e := [a, b, c])
      (core := scalarCore fun X => transportCore (vel (triCentre X)) k X)).2
      ⟨rfl, X, _, hX, by rw [scalarCore, hc, hA]; rfl, rfl, rfl⟩
    have hs : ScalarItem x [a, b, c] X B A ⟨flatM (k := 1) (B.submatrix Prod.fst Prod.fst),
      flatM (k := 1) (A.submatrix Prod.fst Prod.fst), none, interTable 1 3 [0], [a, b, c]⟩ := ⟨hX, rfl, rfl, rfl, rfl⟩
    refine ⟨_, by rw [e1, e2]; rfl, hs.sound hu (by simp), rfl, fun v u => ?_, fun v u => ?_⟩
    · rw [hs.mass_call, scalar_energy B rfl, hB2]
    · rw [hs.stiff_call, scalar_energy A rfl, hA2]
  haveI : Nonempty (TimeItem ℝ) := ⟨⟨⟨0, 0, []⟩, ⟨0, 0, []⟩, none, [], []⟩⟩
  choose! C hC using key
  refine ⟨elements.map C, mapM_some fun e he => (hC e he).1, fun c hc => ?_, fun c hc => ?_, fun v u => ?_, fun v u => ?_⟩
  · obtain ⟨e, he, rfl⟩ := List.mem_map.1 hc
    exact (hC e he).2.1
  · obtain ⟨e, he, rfl⟩ := List.mem_map.1 hc
    exact (hC e he).2.2.1
  · rw [energy_eq, List.map_map, List.map_map]
    exact congrArg List.sum (List.map_congr_left fun e he => (hC e he).2.2.2.1 v u)
  · rw [energy_eq, List.map_map, List.map_map]
    exact congrArg List.sum (List.map_congr_left fun e he => (hC e he).2.2.2.2 v u)

theorem residual_matrices {α : Type} {l : List α} {f : α → AsmCall ℝ} (h : ∀ a ∈ l, ∀ i, (f a).rhs i = 0)
    (u : ℕ → ℕ → ℝ) (n d : ℕ) : residual (l.map f) u n d = energy (l.map f) (unitField n d) u := by
  rw [residual_eq, List.sum_eq_zero, sub_zero]
  intro r hr
  obtain ⟨c, hc, rfl⟩ := List.mem_map.1 hr
  obtain ⟨a, ha, rfl⟩ := List.mem_map.1 hc
  exact callLoad_zero (h a ha) _

/-- **C131**: the equations.  On a mesh of triangles of positive area with no velocity zero at a centroid the matrices
of all elements are defined, and the residual of a time step at a node is the weak form of
`(v - u)/dt + w·∇T - k ΔT` with `T = theta v + (1 - theta) u`. -/
theorem C131_equations (hT : Triangles x elements) (hw : ∀ e ∈ elements, elementWind x vel e ≠ 0) (hk : 0 ≤ k)
    {u₀ : List (Vec ℝ)} (hu : ∀ m < x.length, (nodal u₀ m 0).isSome) :
    ∃ items, advectionItems vel k x elements = some items ∧ (∀ it ∈ items, it.Sound (freeTable x.length 1) u₀) ∧
      ∀ (dt theta : ℝ) (u v : ℕ → ℕ → ℝ) (n : ℕ), timeResidual items dt theta u v n 0 =
        driftResidual x vel k dt theta elements (fun m => u m 0) (fun m => v m 0) n := by
  obtain ⟨items, h1, h2, h3, h4, h5⟩ := advectionItems_spec (k := k) hT hw hk hu
  refine ⟨items, h1, h2, fun dt theta u v n => ?_⟩
  have hl : loadAt (items.map TimeItem.source) n 0 = 0 := by
    unfold loadAt
    refine List.sum_eq_zero fun r hr => ?_
    obtain ⟨c, hc, rfl⟩ := List.mem_map.1 hr
    obtain ⟨it, hit, rfl⟩ := List.mem_map.1 hc
    refine List.sum_eq_zero fun r hr => ?_
    obtain ⟨p, -, rfl⟩ := List.mem_map.1 hr
    simp [TimeItem.source, h3 it hit, AsmCall.rhs, Vec.at?, Vec.size]
  rw [timeResidual, hl, sub_zero, residual_matrices fun _ _ _ => rfl, residual_matrices fun _ _ _ => rfl, h4, h5,
    unitField_hat]
  rfl

/-- **C131**: the matrices of a mesh of triangles of positive area are defined exactly if no element has the velocity
zero at its centroid. -/
theorem C131_defined (hT : Triangles x elements) (hk : 0 ≤ k) :
    (advectionItems vel k x elements).isSome ↔ ∀ e ∈ elements, elementWind x vel e ≠ 0 := by
  constructor
  · intro h e he h0
    obtain ⟨items, hi⟩ := Option.isSome_iff_exists.1 h
    obtain ⟨it, -, h1⟩ := mapM_mem_of hi e he
    simp only [Option.bind_eq_bind, Option.pure_def, Option.bind_eq_some_iff, Prod.exists, Option.some.injEq] at h1
    obtain ⟨Me, n1, -, Ke, n2, h2, -⟩ := h1
    obtain ⟨-, X, A', hX, hA, -, -⟩ := elemM_eq_some.1 h2
    obtain ⟨A, hA', -⟩ := Option.map_eq_some_iff.1 hA
    obtain ⟨-, a, b, c, rfl, -⟩ := hT e he
    have : vel (triCentre X) = 0 := by rw [triCentre_eq hX]; exact h0
    simp [this, transport_still] at hA'
  · intro hw
    obtain ⟨items, hi, -⟩ := advectionItems_spec (k := k) hT hw hk (u₀ := zeroField x.length 1)
      fun m hm => by rw [nodal_zeroField hm (by norm_num)]; rfl
    rw [hi]
    rfl

/-- **C131**: if the velocity vanishes at the centroid of an element the program divides zero by zero in its first
step. -/
theorem C131_still (s : LinSolver) (hT : Triangles x elements) (hk : 0 ≤ k) {e : List ℕ} (he : e ∈ elements)
    (h0 : elementWind x vel e = 0) (u₀ : List (Vec ℝ)) (steps : ℕ) :
    advectionDynamic s vel k dt theta x elements bc u₀ (steps + 1) = none := by
  have hn : advectionItems vel k x elements = none := by
    rw [← Option.not_isSome_iff_eq_none, C131_defined hT hk]
    exact fun h => h e he h0
  unfold advectionDynamic timeAnalysis
  cases hs : setDirichlet u₀ (freeTable x.length 1) bc with
  | none => rfl
  | some r => simp [thetaSteps, thetaStep, hn]

/-- **C131**: a run.  There are fields `U 0, ..., U steps`: the first is the initial field with the given values, the
last is the result, the given values stay, and the solver reported convergence in all steps exactly if in every step
the norm of the weak forms of the free nodes is below `1e-10` times that of the held values alone. -/
theorem C131_run (s : LinSolver) (hs : s.Certifies) (hT : Triangles x elements)
    (hw : ∀ e ∈ elements, elementWind x vel e ≠ 0) (hk : 0 ≤ k) (hdt : dt ≠ 0) {u₀ T : List (Vec ℝ)}
    (hu : ∀ m < x.length, (nodal u₀ m 0).isSome) {steps : ℕ} {conv : Bool}
    (h : advectionDynamic s vel k dt theta x elements bc u₀ steps = some (T, conv)) :
    ∃ U : ℕ → List (Vec ℝ), (∀ m, nodal (U 0) m 0 = (lastValue bc m 0).or (nodal u₀ m 0)) ∧ U steps = T ∧
      (∀ i ≤ steps, ∀ m v, lastValue bc m 0 = some v → nodal (U i) m 0 = some v) ∧
      (conv = true ↔ ∀ i < steps, dofNorm (freeDofs (freeTable x.length 1) bc)
          (fun n _ => driftResidual x vel k dt theta elements (fun m => valOf (U i) m 0) (fun m => valOf (U (i + 1)) m 0) n)
        < 1 / 10 ^ 10 * dofNorm (freeDofs (freeTable x.length 1) bc)
          (fun n _ => driftResidual x vel k dt theta elements (fun m => valOf (U i) m 0)
            (fun m => held (freeTable x.length 1) bc (valOf (U i)) m 0) n)) := by
  obtain ⟨items, h1, h2, h3⟩ := C131_equations (k := k) hT hw hk hu
  obtain ⟨U, a1, a2, a3, -, a5⟩ := C112_run s hs true dt theta hdt _ u₀ T (freeTable x.length 1) bc steps conv
    (fun u its _ hits it hit => by
      obtain rfl := Option.some.inj (h1.symm.trans hits)
      exact h2 it hit) h
  refine ⟨U, fun m => a1 m 0, a2, fun i hi m v hv => ?_, ?_⟩
  · rw [a3 i hi m 0 fun hf => (free_table.1 hf).2.2 (key_of_lastValue hv), hv]
    rfl
  · rw [a5]
    have e : ∀ u v : ℕ → ℕ → ℝ, dofNorm (freeDofs (freeTable x.length 1) bc) (timeResidual items dt theta u v) =
        dofNorm (freeDofs (freeTable x.length 1) bc)
          (fun n _ => driftResidual x vel k dt theta elements (fun m => u m 0) (fun m => v m 0) n) := by
      intro u v
      unfold dofNorm
      refine congrArg Real.sqrt (congrArg List.sum (List.map_congr_left fun p hp => ?_))
      obtain ⟨n, d⟩ := p
      have hd := (free_table.1 (of_decide_eq_true (List.mem_filter.1 hp).2)).2.1
      have hd : d = 0 := by omega
      subst hd
      simp only [h3]
    refine forall_congr' fun i => forall_congr' fun hi => ?_
    constructor
    · intro g
      have := g items h1
      rw [StepMet, e, e] at this
      exact this
    · intro g its hits
      obtain rfl := Option.some.inj (h1.symm.trans hits)
      rw [StepMet, e, e]
      exact g

theorem thetaSteps_answers {w₀ u₀ : List (Vec ℝ)} {t₁ : List (List ℤ)} (s : LinSolver) (hs : s.Answers) (joint : Bool)
    (hdt : dt ≠ 0) {N : ℕ} (hset : setDirichlet u₀ (freeTable N 1) bc = some (w₀, t₁))
    (hu₀ : ∀ m < N, (nodal u₀ m 0).isSome) {items : List (TimeItem ℝ)}
    (hsound : ∀ it ∈ items, it.Sound (freeTable N 1) u₀) : ∀ (steps : ℕ) (u : List (Vec ℝ)), SameDofs u₀ u →
      ∃ u' conv, thetaSteps s joint dt theta (fun _ => some items) (renumbering t₁).1 (renumbering t₁).2 steps u =
        some (u', conv) := by
  intro steps
  induction steps with
  | zero => exact fun u _ => ⟨u, true, rfl⟩
  | succ i ih =>
    intro u hu
    have hl := (C21_setDirichlet u₀ w₀ _ t₁ bc hset).1
    obtain ⟨calls, c1, c2, -⟩ := thetaCalls_spec (theta := theta) joint hdt fun it hit => (hsound it hit).congr hl hu
    have h0 : setDirichlet u t₁ [] = some (u, t₁) := rfl
    obtain ⟨v, c, h1⟩ := solveStep_answers hs (renumbering_numbered t₁) (fun c hc => fits_renumbered h0 (c2 c hc))
      fun a d ha => by
        have h2 := ((isFree_marked hset a d).1 ((numOf_renumbered h0 a d).1 ha)).1
        obtain ⟨h3, h4⟩ := freeTable_lt (show (dofNum (freeTable N 1) a d).isSome by rw [dofNum_of_numOf h2]; rfl)
        have hd : d = 0 := by omega
        subst hd
        rw [← hu]
        exact hu₀ a h3
    obtain ⟨u', c', h2⟩ := ih v fun a d => by rw [hu, solveStep_same h1]
    exact ⟨u', c && c', by simp only [thetaSteps, thetaStep, c1, h1, h2, Option.bind_eq_bind, Option.bind_some,
      Option.pure_def]⟩

/-- **C131**: with a solver that never divides by zero the program returns. -/
theorem C131_answers (s : LinSolver) (hs : s.Answers) (hT : Triangles x elements)
    (hw : ∀ e ∈ elements, elementWind x vel e ≠ 0) (hk : 0 ≤ k) (hdt : dt ≠ 0) {u₀ : List (Vec ℝ)}
    (hu : ∀ m < x.length, (nodal u₀ m 0).isSome) (hbc : ∀ r ∈ bc, r.1.1 < x.length ∧ r.1.2 < 1) (steps : ℕ) :
    ∃ T conv, advectionDynamic s vel k dt theta x elements bc u₀ steps = some (T, conv) := by
  obtain ⟨items, h1, h2, -⟩ := C131_equations (k := k) hT hw hk hu
  obtain ⟨⟨u, t₁⟩, h3⟩ := Option.isSome_iff_exists.1 ((C21_defined u₀ (freeTable x.length 1) bc).2
    fun r hr => ⟨by
      have h0 : r.1.2 = 0 := by have := (hbc r hr).2; omega
      rw [h0]
      exact hu _ (hbc r hr).1, by simp [dofNum, freeTable, (hbc r hr).1, (hbc r hr).2]⟩)
  obtain ⟨T, conv, h4⟩ := thetaSteps_answers (theta := theta) s hs true hdt h3 hu h2 steps u (setDirichlet_same h3)
  exact ⟨T, conv, by simp only [advectionDynamic, timeAnalysis, h1, h3, Option.bind_eq_bind, Option.bind_some, h4]⟩

theorem form_constant (w : Fin 2 → ℝ) (v : ℕ → ℝ) (r : ℝ) (e : List ℕ) :
    transportForm x w k v (fun _ => r) e = 0 := by
  have := transport_constant (x := x) (w := w) (k := k) (elements := [e]) v r
  simpa [transport] using this

/-- **C131**: constants are at rest: a step from a constant field is solved by this field. -/
theorem C131_constant (r : ℝ) (n : ℕ) :
    driftResidual x vel k dt theta elements (fun _ => r) (fun _ => r) n = 0 := by
  have h1 : driftMass x vel k elements (hat n) (fun _ => (r - r) / dt) = 0 := by
    refine List.sum_eq_zero fun y hy => ?_
    obtain ⟨e, -, rfl⟩ := List.mem_map.1 hy
    unfold transportMassForm
    split
    · simp [triMean]
    · rfl
  have h2 : drift x vel k elements (hat n) (fun _ => theta * r + (1 - theta) * r) = 0 := by
    refine List.sum_eq_zero fun y hy => ?_
    obtain ⟨e, -, rfl⟩ := List.mem_map.1 hy
    exact form_constant _ _ _ _
  rw [driftResidual, h1, h2, add_zero]

/-! ### The rotation program -/

/-- The initial field: a bump of height one and radius 1/4 around (1/2, 3/4). -/
theorem bump_at {u₀ : List (Vec ℝ)} (h : bump x = some u₀) {m : ℕ} (hm : m < x.length) :
    nodal u₀ m 0 = some (let r := √((coord x m 0 - 1 / 2) ^ 2 + (coord x m 1 - 3 / 4) ^ 2)
      if r ≤ 1 / 4 then 1 / 2 * (Real.cos (4 * Real.pi * r) + 1) else 0) := by
  obtain ⟨h1, h2⟩ := mapM_entries h
  have hm' : m < u₀.length := by omega
  obtain ⟨p, hp, h3⟩ := h2 m u₀[m] (List.getElem?_eq_getElem hm')
  simp only [Option.bind_eq_bind, Option.bind_eq_some_iff, Option.pure_def, Option.some.injEq] at h3
  obtain ⟨px, hx, py, hy, h3⟩ := h3
  have ex : coord x m 0 = px := by simp [coord, nodal, hp, hx]
  have ey : coord x m 1 = py := by simp [coord, nodal, hp, hy]
  rw [nodal, List.getElem?_eq_getElem hm', ← h3, ex, ey]
  simp [Vec.at?, Vec.size]

/-- **C131**: the initial field lies between zero and one. -/
theorem bump_range {u₀ : List (Vec ℝ)} (h : bump x = some u₀) {m : ℕ} (hm : m < x.length) :
    0 ≤ valOf u₀ m 0 ∧ valOf u₀ m 0 ≤ 1 := by
  have e : valOf u₀ m 0 = (let r := √((coord x m 0 - 1 / 2) ^ 2 + (coord x m 1 - 3 / 4) ^ 2)
      if r ≤ 1 / 4 then 1 / 2 * (Real.cos (4 * Real.pi * r) + 1) else 0) := by rw [valOf, bump_at h hm]; rfl
  rw [e]
  dsimp only
  split
  · have h1 := Real.neg_one_le_cos (4 * Real.pi * √((coord x m 0 - 1 / 2) ^ 2 + (coord x m 1 - 3 / 4) ^ 2))
    have h2 := Real.cos_le_one (4 * Real.pi * √((coord x m 0 - 1 / 2) ^ 2 + (coord x m 1 - 3 / 4) ^ 2))
    constructor <;> linarith
  · norm_num

/-- The velocity of the rotation vanishes only at its centre. -/
theorem spin_ne {g : Fin 2 → ℝ} : spin g ≠ 0 ↔ ¬ (g 0 = 1 / 2 ∧ g 1 = 1 / 2) := by
  rw [not_iff_not]
  constructor
  · intro h
    have h0 := congrFun h 0
    have h1 := congrFun h 1
    simp [spin] at h0 h1
    constructor <;> linarith
  · rintro ⟨h0, h1⟩
    funext i
    fin_cases i <;> simp [spin, h0, h1]

/-- **C131**: sample_advectiondiffusion_dynamic.cpp as it is, on any mesh of triangles none of which has its centroid
at (1/2, 1/2), and for any given values: the fields of its hundred steps. -/
theorem C131_rotation (hT : Triangles x elements)
    (hc : ∀ a b c, [a, b, c] ∈ elements → ¬ (triCentroid x a b c 0 = 1 / 2 ∧ triCentroid x a b c 1 = 1 / 2))
    {T : List (Vec ℝ)} {conv : Bool} (h : advectionRotation x elements bc = some (T, conv)) :
    ∃ U : ℕ → List (Vec ℝ), (∀ m < x.length, nodal (U 0) m 0 = (lastValue bc m 0).or
        (some (let r := √((coord x m 0 - 1 / 2) ^ 2 + (coord x m 1 - 3 / 4) ^ 2)
          if r ≤ 1 / 4 then 1 / 2 * (Real.cos (4 * Real.pi * r) + 1) else 0))) ∧ U 100 = T ∧
      (∀ i ≤ 100, ∀ m v, lastValue bc m 0 = some v → nodal (U i) m 0 = some v) ∧
      (conv = true ↔ ∀ i < 100, dofNorm (freeDofs (freeTable x.length 1) bc)
          (fun n _ => driftResidual x spin 0 (Real.pi / 50) (1 / 2) elements (fun m => valOf (U i) m 0)
            (fun m => valOf (U (i + 1)) m 0) n)
        < 1 / 10 ^ 10 * dofNorm (freeDofs (freeTable x.length 1) bc)
          (fun n _ => driftResidual x spin 0 (Real.pi / 50) (1 / 2) elements (fun m => valOf (U i) m 0)
            (fun m => held (freeTable x.length 1) bc (valOf (U i)) m 0) n)) := by
  simp only [advectionRotation, Option.bind_eq_bind, Option.bind_eq_some_iff] at h
  obtain ⟨u₀, hb, h⟩ := h
  obtain ⟨U, h1, h2, h3, h4⟩ := C131_run useBiCGSTAB
    (fun _ A M b x conv hA h => C13_bicgstab A M hA b 100000 _ x conv (by norm_num) h) hT
    (fun e he => by
      obtain ⟨-, a, b, c, rfl, -⟩ := hT e he
      exact spin_ne.2 (hc a b c he)) le_rfl (by positivity) (fun m hm => by rw [bump_at hb hm]; rfl) h
  exact ⟨U, fun m hm => by rw [h1, bump_at hb hm], h2, h3, h4⟩

end

/-! ### Examples -/

theorem windNodes_spin : ∀ e ∈ [[0, 1, 2], [1, 3, 2]], elementWind windNodes spin e ≠ 0 := by
  intro e he
  simp at he
  rcases he with rfl | rfl <;> refine spin_ne.2 ?_ <;>
    norm_num [triCentroid, coord, nodal, windNodes, Vec.at?, Vec.size]

/-- `C131_equations`, `C131_defined`: two triangles of a square. -/
example : (advectionItems spin 0 windNodes [[0, 1, 2], [1, 3, 2]]).isSome :=
  (C131_defined windNodes_triangles le_rfl).2 windNodes_spin

/-- `C131_still`: a triangle around the centre of the rotation. -/
example (s : LinSolver) (u₀ : List (Vec ℝ)) : advectionDynamic s spin 0 (Real.pi / 50) (1 / 2)
    [⟨[0, 0]⟩, ⟨[1, 0]⟩, ⟨[1 / 2, 3 / 2]⟩] [[0, 1, 2]] [] u₀ 100 = none := by
  refine C131_still s (e := [0, 1, 2]) ?_ le_rfl (by simp) ?_ u₀ 99
  · intro e he
    simp at he
    subst he
    refine ⟨fun m hm => ?_, 0, 1, 2, rfl, ?_⟩
    · simp at hm
      rcases hm with rfl | rfl | rfl <;> simp [nodal, Vec.at?, Vec.size]
    · norm_num [triArea, coord, nodal, Vec.at?, Vec.size]
  · have : ¬ elementWind [⟨[0, 0]⟩, ⟨[1, 0]⟩, ⟨[1 / 2, 3 / 2]⟩] spin [0, 1, 2] ≠ 0 := by
      rw [elementWind, spin_ne, not_not]
      norm_num [triCentroid, coord, nodal, Vec.at?, Vec.size]
    exact not_not.1 this

/-- `C131_run`, `C131_answers`: hundred steps with a solver that answers. -/
example : ∃ T conv, advectionDynamic idealSolver spin 0 (Real.pi / 50) (1 / 2) windNodes [[0, 1, 2], [1, 3, 2]] windGiven
    (zeroField 4 1) 100 = some (T, conv) ∧ nodal T 2 0 = some 1 := by
  have hu : ∀ m < windNodes.length, (nodal (zeroField 4 1 : List (Vec ℝ)) m 0).isSome := fun m hm => by
    rw [nodal_zeroField (by simpa [windNodes] using hm) (by norm_num)]; rfl
  have hdt : Real.pi / 50 ≠ 0 := by positivity
  obtain ⟨T, conv, h⟩ := C131_answers (bc := windGiven) (theta := 1 / 2) idealSolver idealSolver_answers windNodes_triangles
    windNodes_spin le_rfl hdt hu (by simp [windGiven, windNodes]) 100
  obtain ⟨U, -, h2, h3, -⟩ := C131_run idealSolver idealSolver_certifies windNodes_triangles windNodes_spin le_rfl hdt hu h
  refine ⟨T, conv, h, ?_⟩
  rw [← h2]
  exact h3 100 le_rfl 2 1 (by simp [lastValue, windGiven])

end Pansfem
