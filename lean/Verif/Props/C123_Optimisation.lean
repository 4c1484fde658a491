/-
C123: the programs that optimise densities with MMA, CONLIN and OC, from the mesh to the last pass.
-/
import Verif.Lemmas.Optimisers
import Verif.Lemmas.Neighbours

noncomputable section

open Finset

namespace Pansfem

/-! ### The problem -/

/-- **C123**: the table of neighbours.  For every positive radius the weight of the centre `k` around the centre `i` is
that of a cone, `max 0 (1 - d/R)` at the distance `d`, and the filters accept the table. -/
theorem C123_neighbours {R : ℝ} (hR : 0 < R) (cg : List (Fin 2 → ℝ)) :
    ∃ nb w, neighbourTable R cg = some (nb, w) ∧ WeightsOk cg.length nb w ∧
      ∀ i (hi : i < cg.length) k (hk : k < cg.length),
        weightOf nb w i k = max 0 (1 - Real.sqrt ((cg[i] 0 - cg[k] 0) ^ 2 + (cg[i] 1 - cg[k] 1) ^ 2) / R) := by
  obtain ⟨nb, w, h1, -, h2, h3⟩ := neighbourTable_ok (cg := cg) hR
  refine ⟨nb, w, h1, h2, fun i hi k hk => ?_⟩
  rw [h3 i hi k hk, planeDistance, Fin.sum_univ_two]

/-- **C123**: the problem of the programs.  On every mesh of at most 50000 nodes whose left side is held and which is
loaded at a node that is not, everything before the loop succeeds: the problem is the one of `C122_problem`, the weight
of one element around another is that of a cone over the distance of their centres, and the loop can analyse all designs. -/
theorem C123_problem (m : SquareMesh ℝ) (hx : 0 < m.nx) (hy : 0 < m.ny) (h1 : 0 < m.x) (h2 : 0 < m.y)
    (hN : (m.nx + 1) * (m.ny + 1) ≤ 50000) {held loaded : ℝ × ℝ → Bool} (hh : ∀ y, held (0, y) = true)
    (hl : ∃ i ≤ m.nx, ∃ j ≤ m.ny, loaded (m.x * (i / m.nx), m.y * (j / m.ny)) = true ∧
      held (m.x * (i / m.nx), m.y * (j / m.ny)) = false)
    {v R V t p E0 E1 limit scale0 scale1 : ℝ} (hv : v ≠ 0) (hR : 0 < R) (hV : -1 < V ∧ 2 * V < 1) (ht : 0 < t)
    (hp : 0 ≤ p) (hE : 0 < E0 ∧ E0 ≤ E1) (hw : 0 < limit) (hs : 0 < scale0 ∧ 0 < scale1) :
    ∃ P, densityProgram m held loaded v R V t p E0 E1 limit scale0 scale1 = some P ∧ P.Ok ∧
      P.elements.length = m.nx * m.ny ∧ densityProblem m held loaded v = some (P.x, P.elements, P.ufixed, P.qfixed) ∧
      (P.V = V ∧ P.t = t ∧ P.p = p ∧ P.E0 = E0 ∧ P.E1 = E1 ∧ P.weightlimit = limit ∧ P.scale0 = scale0 ∧
        P.scale1 = scale1) ∧
      ∀ i < m.nx, ∀ j < m.ny, ∀ i' < m.nx, ∀ j' < m.ny,
        weightOf P.neighbors P.w (m.ny * i + j) (m.ny * i' + j') =
          max 0 (1 - Real.sqrt ((m.x * ((i - i' : ℝ) / m.nx)) ^ 2 + (m.y * ((j - j' : ℝ) / m.ny)) ^ 2) / R) := by
  obtain ⟨us, qs, e', -⟩ := densityProblem_eq m hx hy held loaded v
  obtain ⟨x, elements, ufixed, qfixed, e, lx, le, hQ, hc, z1, -, k1, k2, k3, hr⟩ :=
    C122_problem m hx hy h1 h2 held loaded v
  have hcg := squareCentres m hx hy
  have hxe : x = asVectors (squareNodes4 m) ∧ elements = squareCells4 m := by
    have := Option.some.inj (e.symm.trans e')
    exact ⟨congrArg (·.1) this, congrArg (·.2.1) this⟩
  rw [← hxe.1, ← hxe.2] at hcg
  set cg : List (Fin 2 → ℝ) :=
    grid m.nx m.ny fun i j => ![m.x * ((i + 1 / 2 : ℝ) / m.nx), m.y * ((j + 1 / 2 : ℝ) / m.ny)] with hcgdef
  have hcl : cg.length = elements.length := by rw [hcgdef, length_grid, le]
  obtain ⟨nb, w, t1, t2, t3⟩ := C123_neighbours hR cg
  refine ⟨⟨x, elements, ufixed, qfixed, nb, w, V, t, p, E0, E1, limit, scale0, scale1⟩, ?_, ?_, le, e,
    ⟨rfl, rfl, rfl, rfl, rfl, rfl, rfl, rfl⟩, ?_⟩
  · unfold densityProgram
    simp only [e, hcg, t1, Option.bind_eq_bind, Option.bind_some, Option.pure_def]
  · obtain ⟨i, hi, j, hj, l1, l2⟩ := hl
    have hn : (m.ny + 1) * i + j < x.length := by
      rw [lx]
      calc (m.ny + 1) * i + j < (m.ny + 1) * i + (m.ny + 1) := by omega
        _ = (m.ny + 1) * (i + 1) := by ring
        _ ≤ (m.ny + 1) * (m.nx + 1) := Nat.mul_le_mul_left _ (by omega)
        _ = _ := by ring
    have hij := hc i hi j hj
    refine ⟨hQ, hr hh, fun r hr => ?_, z1, k3, ⟨_, hn, 1, by norm_num, ?_, ?_⟩, by simp only; omega,
      by simp only; rw [le]; positivity, by simp only; rw [← hcl]; exact t2, hV, ht, hp, hE, hw, hs⟩
    · obtain ⟨c1, c2, -⟩ := (k1 r.1.1 r.1.2).1 (List.mem_map_of_mem hr)
      exact ⟨c1, c2⟩
    · intro hf
      have := ((k1 _ _).1 hf).2.2
      rw [hij.1, hij.2, l2] at this
      exact absurd this (by decide)
    · show nodalLoad qfixed _ 1 ≠ 0
      rw [k2, if_pos ⟨hn, rfl, by rw [hij.1, hij.2]; exact l1⟩]
      exact hv
  · intro i hi j hj i' hi' j' hj'
    have a1 := getElem?_grid (fun i j => (![m.x * ((i + 1 / 2 : ℝ) / m.nx), m.y * ((j + 1 / 2 : ℝ) / m.ny)] :
      Fin 2 → ℝ)) hi hj
    have a2 := getElem?_grid (fun i j => (![m.x * ((i + 1 / 2 : ℝ) / m.nx), m.y * ((j + 1 / 2 : ℝ) / m.ny)] :
      Fin 2 → ℝ)) hi' hj'
    rw [← hcgdef] at a1 a2
    obtain ⟨b1, c1⟩ := List.getElem?_eq_some_iff.1 a1
    obtain ⟨b2, c2⟩ := List.getElem?_eq_some_iff.1 a2
    refine (t3 _ b1 _ b2).trans ?_
    rw [c1, c2]
    simp only [Matrix.cons_val_zero, Matrix.cons_val_one]
    congr 4
    congr 1 <;> congr 1 <;> ring

/-! ### Evaluations -/

/-- **C123**: every design with variables between 0 and 1 can be evaluated, and the evaluation is sound: the solver
converges, the supports do not move, the filtered densities are between 0 and 1, the weight is theirs, the objective is
their strain energy, the sensitivities are the filtered derivatives of both, with their signs. -/
theorem C123_evaluation {P : DensityProgram} (h : P.Ok) {beta : ℝ} (hb : 0 < beta) {s : List ℝ}
    (hs : IsDesign P.elements.length s) : ∃ e, evaluate P beta s = some e ∧ e.Sound P beta s :=
  evaluate_sound h hb hs

/-- **C123**: the callback of OC is defined for every list of the right length, and is the weight of the filtered
list. -/
theorem C123_callback {P : DensityProgram} (h : P.Ok) {beta : ℝ} (hb : 0 < beta) {s : List ℝ}
    (hs : s.length = P.elements.length) : ∃ rho, heavisideVariables P.elements.length beta P.neighbors P.w s = some rho ∧
      weightCallback P beta s = some (P.scale1 * (rho.sum / P.elements.length / P.weightlimit - 1)) := by
  have e := heaviside_eq h.weights.toTableOk (fun i hi => (h.weights.pos i hi).ne') hb
    fun k : Fin P.elements.length => s[(k : ℕ)]'(by have := k.2; omega)
  have hl : (List.ofFn fun k : Fin P.elements.length => s[(k : ℕ)]'(by have := k.2; omega)) = s := by
    refine List.ext_getElem (by simp [hs]) fun i h1 h2 => ?_
    simp
  rw [hl] at e
  refine ⟨_, e, ?_⟩
  unfold weightCallback
  rw [e]
  exact weightValue_eq h.nonempty h.limit (by simp)

/-! ### Runs -/

/-- **C123 (MMA)**: every run of the program with MMA is sound, with variables in `[0.01, 1]` that change by less than
`0.198` in a pass, and its designs are those that MMA makes of value and sensitivities of the compliance and, as the only
constraint, of the weight. -/
theorem C123_mma {P : DensityProgram} (h : P.Ok) (fuel : ℕ) :
    SoundRun P 1.0e-6 (fun a => 0.01 ≤ a ∧ a ≤ 1) (fun a b => |b - a| < 0.198) 500 (runMMA P fuel) ∧
    UpdatedBy (fun o q => asListRun (mmaUpdate o fuel (designVector P.elements.length q.s) q.value.f
        (designVector P.elements.length q.value.dfds) (fun _ => q.value.g)
        fun _ : Fin 1 => designVector P.elements.length q.value.dgds))
      ((MMA.mk' 1 (fun _ => 0) (fun _ => 10000) (fun _ => 0) (fun _ => 0.01) fun _ => 1).setParameters
        1.0e-5 0.1 0.2 0.5 0.7 1.2 1.0e-6)
      (runMMA P fuel) := by
  have hk := mma_keeps P.elements.length fuel (lo := 0.01) (move := 0.2) (eps := 1.0e-6) (by norm_num) (by norm_num)
    (by norm_num)
  have := densityLoop_run h hk (by norm_num) 500 (by norm_num)
    ((MMA.mk' 1 (fun _ => 0) (fun _ => 10000) (fun _ => 0) (fun _ => 0.01) fun _ => 1).setParameters
      1.0e-5 0.1 0.2 0.5 0.7 1.2 1.0e-6) ⟨⟨fun _ => rfl, fun _ => rfl, rfl, by norm_num [MMA.setParameters],
        fun _ => le_rfl, rfl, rfl⟩, by simp, fun a ha => by rw [List.eq_of_mem_replicate ha]; norm_num⟩ rfl
  rw [show (fun a b : ℝ => |b - a| < 0.198) = fun a b => |b - a| < 0.2 * (1 - 0.01) by norm_num]
  refine ⟨this, (densityLoop_updates P (mmaOptimiser P.elements.length fuel) 500 0 0.5
    (List.replicate P.elements.length 0.5)
    ((MMA.mk' 1 (fun _ => 0) (fun _ => 10000) (fun _ => 0) (fun _ => 0.01) fun _ => 1).setParameters
      1.0e-5 0.1 0.2 0.5 0.7 1.2 1.0e-6)).1.congr fun st q hq => ?_⟩
  obtain ⟨l1, -, l2⟩ := this.design q hq
  simp only [mmaOptimiser, sized_vector l1, sized_vector l2.dflength, sized_vector l2.dglength]
  cases mmaUpdate st fuel (designVector P.elements.length q.s) q.value.f
    (designVector P.elements.length q.value.dfds) (fun _ => q.value.g)
    fun _ => designVector P.elements.length q.value.dgds <;> rfl

/-- **C123 (CONLIN)**: every run of the program with CONLIN is sound, with variables in `[0.01, 1]` that change by less
than `0.198` in a pass, and its designs are those that CONLIN makes of compliance and weight. -/
theorem C123_conlin {P : DensityProgram} (h : P.Ok) (fuel : ℕ) :
    SoundRun P 1.0e-6 (fun a => 0.01 ≤ a ∧ a ≤ 1) (fun a b => |b - a| < 0.198) 500 (runCONLIN P fuel) ∧
    UpdatedBy (fun o q => asListRun (conlinUpdate o fuel (designVector P.elements.length q.s) q.value.f
        (designVector P.elements.length q.value.dfds) (fun _ => q.value.g)
        fun _ : Fin 1 => designVector P.elements.length q.value.dgds))
      ((CONLIN.mk' 1 (fun _ => 0) (fun _ => 10000) (fun _ => 0) (fun _ => 0.01) fun _ => 1).setParameters 0.2 1.0e-6)
      (runCONLIN P fuel) := by
  have hk := conlin_keeps P.elements.length fuel (lo := 0.01) (move := 0.2) (eps := 1.0e-6) (by norm_num) (by norm_num)
    (by norm_num)
  have := densityLoop_run h hk (by norm_num) 500 (by norm_num)
    ((CONLIN.mk' 1 (fun _ => 0) (fun _ => 10000) (fun _ => 0) (fun _ => 0.01) fun _ => 1).setParameters 0.2 1.0e-6)
      ⟨⟨fun _ => rfl, fun _ => rfl, fun _ => le_rfl, rfl, rfl⟩, by simp,
        fun a ha => by rw [List.eq_of_mem_replicate ha]; norm_num⟩ rfl
  rw [show (fun a b : ℝ => |b - a| < 0.198) = fun a b => |b - a| < 0.2 * (1 - 0.01) by norm_num]
  refine ⟨this, (densityLoop_updates P (conlinOptimiser P.elements.length fuel) 500 0 0.5
    (List.replicate P.elements.length 0.5)
    ((CONLIN.mk' 1 (fun _ => 0) (fun _ => 10000) (fun _ => 0) (fun _ => 0.01) fun _ => 1).setParameters 0.2 1.0e-6)).1.congr fun st q hq => ?_⟩
  obtain ⟨l1, -, l2⟩ := this.design q hq
  simp only [conlinOptimiser, sized_vector l1, sized_vector l2.dflength, sized_vector l2.dglength]
  cases conlinUpdate st fuel (designVector P.elements.length q.s) q.value.f
    (designVector P.elements.length q.value.dfds) (fun _ => q.value.g)
    fun _ => designVector P.elements.length q.value.dgds <;> rfl

/-- **C123 (OC)**: every run of the program with OC is sound, with variables in `(0, 1]` that change by at most 15 per
cent in a pass, and its designs are those that OC makes of compliance and weight. -/
theorem C123_oc {P : DensityProgram} (h : P.Ok) (fuel : ℕ) :
    SoundRun P 1.0e-5 (fun a => 0 < a ∧ a ≤ 1) (fun a b => 0.85 * a ≤ b ∧ b ≤ 1.15 * a) 500 (runOC P fuel) ∧
    UpdatedBy (fun o q => ocUpdate o fuel q.s q.value.f q.value.dfds q.value.g q.value.dgds
        fun _ y => (weightCallback P q.beta y).getD 0)
      (OC.mk' P.elements.length 0.5 0 1.0e4 1.0e-3 0.15 (List.replicate P.elements.length 0.01)
        (List.replicate P.elements.length 1)) (runOC P fuel) := by
  have hk := oc_keeps P.elements.length fuel (move := 0.15) (eps := 1.0e-5) (by norm_num) (by norm_num)
  have := densityLoop_run h hk (by norm_num) 500 (by norm_num)
    (OC.mk' P.elements.length 0.5 0 1.0e4 1.0e-3 0.15 (List.replicate P.elements.length 0.01)
      (List.replicate P.elements.length 1)) ⟨⟨rfl, by norm_num [OC.mk'], rfl, by norm_num [OC.mk'],
        by norm_num [OC.mk'], rfl, rfl⟩, by simp, fun a ha => by rw [List.eq_of_mem_replicate ha]; norm_num⟩ rfl
  rw [show (fun a b : ℝ => 0.85 * a ≤ b ∧ b ≤ 1.15 * a) = fun a b => (1 - 0.15) * a ≤ b ∧ b ≤ (1 + 0.15) * a by norm_num]
  exact ⟨this, (densityLoop_updates P (ocOptimiser fuel) 500 0 0.5
    (List.replicate P.elements.length 0.5)
    (OC.mk' P.elements.length 0.5 0 1.0e4 1.0e-3 0.15 (List.replicate P.elements.length 0.01)
      (List.replicate P.elements.length 1))).1⟩

/-- **C123**: the programs as they are.  With either meaning of `abs` their problem is built and the runs of all three
are sound. -/
theorem C123_program (held loaded : ℝ × ℝ → Bool)
    (hp : held = leftSide ∧ loaded = rightPoint ∨ held = leftSideInt ∧ loaded = rightPointInt) :
    ∃ P, sampleDensity held loaded = some P ∧ P.Ok ∧ P.elements.length = 2400 ∧ ∀ fuel,
      SoundRun P 1.0e-6 (fun a => 0.01 ≤ a ∧ a ≤ 1) (fun a b => |b - a| < 0.198) 500 (runMMA P fuel) ∧
      SoundRun P 1.0e-6 (fun a => 0.01 ≤ a ∧ a ≤ 1) (fun a b => |b - a| < 0.198) 500 (runCONLIN P fuel) ∧
      SoundRun P 1.0e-5 (fun a => 0 < a ∧ a ≤ 1) (fun a b => 0.85 * a ≤ b ∧ b ≤ 1.15 * a) 500 (runOC P fuel) := by
  have t60 := truncate_natCast 60
  have hz : truncate (0 : ℝ) = 0 := by simpa using truncate_natCast 0
  norm_num at t60
  obtain ⟨P, e, hP, l, -⟩ := C123_problem programMesh (by norm_num [programMesh]) (by norm_num [programMesh])
    (by norm_num [programMesh]) (by norm_num [programMesh]) (by norm_num [programMesh]) (held := held) (loaded := loaded)
    (by rcases hp with ⟨rfl, -⟩ | ⟨rfl, -⟩; exacts [leftSide_left, leftSideInt_left])
    ⟨60, by norm_num [programMesh], 20, by norm_num [programMesh], by
      norm_num [programMesh]
      rcases hp with ⟨rfl, rfl⟩ | ⟨rfl, rfl⟩
      · norm_num [leftSide, rightPoint]
      · norm_num [leftSideInt, rightPointInt, t60, hz]⟩
    (v := -1) (R := 1.5) (V := 0.3) (t := 1) (p := 3) (E0 := 0.0001) (E1 := 210000) (limit := 0.5) (scale0 := 1.0e5)
    (scale1 := 1) (by norm_num) (by norm_num) (by norm_num) (by norm_num) (by norm_num) (by norm_num) (by norm_num)
    (by norm_num)
  exact ⟨P, e, hP, l, fun fuel => ⟨(C123_mma hP fuel).1, (C123_conlin hP fuel).1, (C123_oc hP fuel).1⟩⟩

/-! ### Cases -/

/-- Two elements, held at the left, loaded at the upper right corner: the problem is built, the element beside another
has the weight `1/3` in its filter, and a design with unequal variables is evaluated. -/
example : ∃ P e, densityProgram ⟨2, 1, 2, 1⟩ (fun r => decide (r.1 = 0)) (fun r => decide (r.1 = 2 ∧ r.2 = 1)) 3 1.5 0.3 1
      3 1 2 0.5 10 1 = some P ∧ P.Ok ∧ weightOf P.neighbors P.w 0 1 = 1 / 3 ∧ evaluate P 4 [1, 0.25] = some e ∧
      e.Sound P 4 [1, 0.25] ∧ SoundRun P 1.0e-6 (fun a => 0.01 ≤ a ∧ a ≤ 1) (fun a b => |b - a| < 0.198) 500 (runMMA P 7) := by
  obtain ⟨P, e, hP, l, -, -, hw⟩ := C123_problem ⟨2, 1, 2, 1⟩ (by norm_num) (by norm_num) (by norm_num) (by norm_num)
    (by norm_num) (held := fun r => decide (r.1 = 0)) (loaded := fun r => decide (r.1 = 2 ∧ r.2 = 1)) (by simp)
    ⟨2, by norm_num, 1, by norm_num, by norm_num⟩ (v := 3) (R := 1.5) (V := 0.3) (t := 1) (p := 3) (E0 := 1) (E1 := 2)
    (limit := 0.5) (scale0 := 10) (scale1 := 1) (by norm_num) (by norm_num) (by norm_num) (by norm_num) (by norm_num)
    (by norm_num) (by norm_num) (by norm_num)
  obtain ⟨v, h1, h2⟩ := C123_evaluation hP (beta := 4) (by norm_num) (s := [1, 0.25]) ⟨by rw [l]; rfl, by
    intro a ha
    simp only [List.mem_cons, List.not_mem_nil, or_false] at ha
    rcases ha with rfl | rfl <;> norm_num⟩
  have w01 := hw 0 (by norm_num) 0 (by norm_num) 1 (by norm_num) 0 (by norm_num)
  norm_num at w01
  exact ⟨P, v, e, hP, w01, h1, h2, (C123_mma hP 7).1⟩

end Pansfem
