/-
C138: the program that optimises unit cells, from the mesh to the last pass.
-/
import Verif.Lemmas.ProgramLatticeRun
import Verif.Props.C121_LatticeRange

noncomputable section

open Matrix

namespace Pansfem

variable {p q : ℕ}

/-- **C138**: the evaluation of a design whose tensors are positive definite succeeds: the solver converges, the supports
do not move, the forces balance the loads up to `1e-10` of their norm; the objective is the work of the stresses on the
strains and positive; weight and sensitivities are those of the design. -/
theorem C138_evaluation {P : LatticeProgram p q} (h : P.Ok) {a b t : List ℝ}
    (hd : LatticeDesign P.T P.elements.length a b t) : ∃ e, evaluateLattice P a b t = some e ∧ e.Sound P a b t :=
  evaluateLattice_sound h hd

/-- **C138**: every run, whatever the tables: at most 600 passes, the first design is `1/2` everywhere, all designs stay in
the box and move by less than a hundredth of it, weight, objective and sensitivities are those of the design and the
displacements; an operation is undefined only in a design with a tensor that is not positive definite; and the designs are
those that MMA makes of objective, weight and sensitivities, the three variables of an element next to each other. -/
theorem C138_run {P : LatticeProgram p q} (h : P.Ok) (fuel : ℕ) :
    LatticeRun P 600 (runLattice P fuel) ∧
    LatticeUpdatedBy (LatticePass.vector P.elements.length)
      (fun o l => mmaUpdate o fuel (l.vector P.elements.length) l.value.f
        (tripleVector P.elements.length l.value.df) (fun _ => l.value.g)
        fun _ : Fin 1 => tripleVector P.elements.length l.value.dg)
      ((MMA.mk' 1 (fun _ => 0) (fun _ => 10000) (fun _ => 0) (fun _ => 0.001) fun _ => 0.999).setParameters
        1.0e-5 0.1 0.01 0.5 0.7 1.2 1.0e-6)
      (runLattice P fuel) := by
  refine ⟨runLattice_run h fuel, ?_⟩
  have := (latticeLoop_updates h fuel 600 _ _ _ _ (latticeOptimiser_box (3 * P.elements.length))
    (start_box P.elements.length)).1
  have e : (MMA.mk' (n := 3 * P.elements.length) 1 (fun _ => 0) (fun _ => 10000) (fun _ => 0) (fun _ => 0.001)
      fun _ => 0.999).setParameters 1.0e-5 0.1 0.01 0.5 0.7 1.2 1.0e-6 = latticeOptimiser (3 * P.elements.length) := by
    rw [latticeOptimiser, show (1.0e-3 : ℝ) = 0.001 by norm_num]
  rw [e]
  exact this

/-- **C138**: if all tensors between the sizes and rotations that the optimiser may choose are positive definite, no
operation is undefined, every evaluation is sound, and the run ends after the first pass whose objective has settled, not
before the second pass, after 600 passes, or in an inner loop of MMA that does not return. -/
theorem C138_sound {P : LatticeProgram p q} (h : P.Ok) (hs : P.Solid) (fuel : ℕ) :
    SoundLatticeRun P 1.0e-6 600 (runLattice P fuel) := runLattice_sound h hs fuel

/-- **C138**: tensors of unit cells that are positive definite suffice if there are two sizes in either direction, at the
ends of the range or outside of it. -/
theorem C138_solid {P : LatticeProgram 2 2} (hc : ∀ i j, PosTensor (P.T.CH i j)) (ha : P.T.as 0 ≤ 0.001 ∧ 0.999 ≤ P.T.as 1)
    (hb : P.T.bs 0 ≤ 0.001 ∧ 0.999 ≤ P.T.bs 1) : P.Solid := by
  intro a b t D h1 h2 _ hD
  obtain ⟨D', e, hp⟩ := C121_two_partial P.T (by linarith [ha.1, ha.2]) (by linarith [hb.1, hb.2]) hc t (a := a) (b := b)
    ⟨by linarith [ha.1, h1.1], by linarith [ha.2, h1.2]⟩ ⟨by linarith [hb.1, h2.1], by linarith [hb.2, h2.2]⟩
  obtain rfl := Option.some.inj (hD.symm.trans e)
  exact hp

/-- **C138**: so do tensors that are all the same, for any sizes. -/
theorem C138_constant {P : LatticeProgram p q} (h : P.Ok) (hp : 0 < p) (hq : 0 < q) {C : Matrix (Fin 3) (Fin 3) ℝ}
    (hC : PosTensor C) (hc : ∀ i j, P.T.CH i j = C) : P.Solid := by
  intro a b t D _ _ _ hD
  obtain ⟨D', C', e1, -, -, -, e4, e5⟩ := C119_tensor h.sizes.1 h.sizes.2 a b t
  obtain rfl := Option.some.inj (hD.symm.trans e1)
  refine (e5 fun i j => by rw [hc]; exact hC.1).2 ?_
  rw [e4 C hp hq hc]
  exact hC

/-- **C138**: the program gets a problem that it can analyse, whatever the tensors of the unit cells are: 2400 elements
and 7401 nodes, the left side held, the middle of the right side loaded, with either meaning of `abs`. -/
theorem C138_program (held loaded : ℝ × ℝ → Bool)
    (hp : held = leftSide ∧ loaded = middleRight ∨ held = leftSideInt ∧ loaded = middleRightInt)
    (T : CellTables p q) (ha : Function.Injective T.as) (hb : Function.Injective T.bs) {w : ℝ} (hw : 0 < w) :
    ∃ P, latticeProgram programMesh held loaded (-1) T w = some P ∧ P.Ok ∧ P.x.length = 7401 ∧
      P.elements.length = 2400 ∧ P.T = T ∧ P.weightlimit = w ∧
      (∀ n d, (n, d) ∈ P.ufixed.map Prod.fst ↔ n < 7401 ∧ d < 2 ∧ held (coord P.x n 0, coord P.x n 1) = true) ∧
      ∀ n d, nodalLoad P.qfixed n d =
        if n < 7401 ∧ d = 1 ∧ loaded (coord P.x n 0, coord P.x n 1) = true then -1 else 0 := by
  have hx : 0 < programMesh.nx := by norm_num [programMesh]
  have hy : 0 < programMesh.ny := by norm_num [programMesh]
  have h1 : 0 < programMesh.x := by norm_num [programMesh]
  have h2 : 0 < programMesh.y := by norm_num [programMesh]
  obtain ⟨x, elements, ufixed, qfixed, e, lx, le, hQ, z1, -, k1, k2, k3, hm⟩ :=
    C120_problem programMesh hx hy h1 h2 held loaded (-1)
  have lx : x.length = 7401 := lx
  have le : elements.length = 2400 := le
  have hnode : coord x 2480 0 = 60 ∧ coord x 2480 1 = 20 := by
    obtain ⟨us, qs, e', -⟩ := latticeProblem_eq programMesh hx hy held loaded (-1)
    rw [e] at e'
    simp only [Option.some.injEq, Prod.mk.injEq] at e'
    rw [e'.1]
    have := coord_asVectors (squareNodes2_corner programMesh (i := 60) (j := 20) (by norm_num [programMesh])
      (by norm_num [programMesh]))
    norm_num [programMesh, squareNode] at this
    exact this
  have hfree : held (60, 20) = false ∧ loaded (60, 20) = true := by
    have t60 := truncate_natCast 60
    norm_num at t60
    have t0 : truncate 0 = 0 := by simp [truncate]
    rcases hp with ⟨rfl, rfl⟩ | ⟨rfl, rfl⟩
    · constructor <;> norm_num [leftSide, middleRight]
    · constructor <;> norm_num [leftSideInt, middleRightInt, t60, t0]
  refine ⟨⟨x, elements, ufixed, qfixed, T, w⟩, ?_, ⟨hQ, hm ?_, ?_, z1, k3, ?_, ?_, ?_, ⟨ha, hb⟩, hw⟩, lx, le, rfl, rfl, ?_,
    ?_⟩
  · unfold latticeProgram
    rw [e]
    rfl
  · rcases hp with ⟨rfl, -⟩ | ⟨rfl, -⟩
    exacts [leftSide_left, leftSideInt_left]
  · intro r hr
    obtain ⟨c1, c2, -⟩ := (k1 r.1.1 r.1.2).1 (List.mem_map_of_mem hr)
    exact ⟨c1, c2⟩
  · refine ⟨2480, by dsimp only; omega, 1, by norm_num, fun hf => ?_, ?_⟩
    · have := ((k1 2480 1).1 hf).2.2
      rw [hnode.1, hnode.2, hfree.1] at this
      exact absurd this (by decide)
    · dsimp only
      rw [k2, if_pos ⟨by omega, rfl, by rw [hnode.1, hnode.2]; exact hfree.2⟩]
      norm_num
  · dsimp only; omega
  · dsimp only; omega
  · simpa only [lx] using k1
  · simpa only [lx] using k2

/-! ### Examples -/

theorem one_tensor : PosTensor (1 : Matrix (Fin 3) (Fin 3) ℝ) := by
  refine ⟨by simp, fun v hv => ?_⟩
  rw [one_mulVec]
  exact lt_of_le_of_ne (dotProduct_self_nonneg' v) fun h0 => hv (dotProduct_self_eq_zero.1 h0.symm)

/-- The program with its sizes, and with two sizes and tensors that grow with them. -/
example (fuel : ℕ) : ∃ P, latticeProgram programMesh leftSide middleRight (-1)
      (⟨programSizes, programSizes, fun _ _ => 1⟩ : CellTables 6 6) 0.5 = some P ∧
    SoundLatticeRun P 1.0e-6 600 (runLattice P fuel) := by
  obtain ⟨P, e, h, -, -, hT, -⟩ := C138_program leftSide middleRight (Or.inl ⟨rfl, rfl⟩)
    (⟨programSizes, programSizes, fun _ _ => 1⟩ : CellTables 6 6) programSizes_injective programSizes_injective
    (w := 0.5) (by norm_num)
  exact ⟨P, e, C138_sound h (C138_constant h (by norm_num) (by norm_num) one_tensor fun i j => by rw [hT]) fuel⟩

example (fuel : ℕ) : ∃ P l, latticeProgram programMesh leftSideInt middleRightInt (-1) squareTables 0.5 = some P ∧
    SoundLatticeRun P 1.0e-6 600 (runLattice P fuel) ∧ (runLattice P fuel).1.head? = some l ∧ l.value.g = 0.5 := by
  obtain ⟨P, e, h, -, hl, hT, hw, -⟩ := C138_program leftSideInt middleRightInt (Or.inr ⟨rfl, rfl⟩) squareTables
    squareTables_as.1 squareTables_as.2 (w := 0.5) (by norm_num)
  have hs : P.Solid := C138_solid (fun i j => by
    rw [hT]
    refine ⟨by simp [squareTables], fun v hv => ?_⟩
    simp only [squareTables, smul_mulVec, dotProduct_smul, smul_eq_mul]
    exact mul_pos (by positivity) (one_tensor.2 v hv)) (by rw [hT]; norm_num [squareTables])
    (by rw [hT]; norm_num [squareTables])
  have hr := C138_sound h hs fuel
  obtain ⟨l, hh⟩ := Option.isSome_iff_exists.1 (List.isSome_head?.2 hr.nonempty)
  refine ⟨P, l, e, hr, hh, ?_⟩
  obtain ⟨c1, c2, -⟩ := hr.run.start l hh
  rw [(hr.sound l (List.mem_of_head? hh)).exact.weight, c1, c2, hw]
  have : ∀ i : Fin P.elements.length, (List.replicate P.elements.length (0.5 : ℝ))[(i : ℕ)]?.getD 0 = 0.5 := by
    intro i
    simp
  simp only [this, Finset.sum_const, Finset.card_univ, Fintype.card_fin]
  rw [hl]
  norm_num

end Pansfem
