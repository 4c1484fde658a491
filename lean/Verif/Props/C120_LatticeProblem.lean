/-
C120: the problem and the analyses of the program that optimises unit cells on a square mesh.
-/
import Verif.Lemmas.LoadedAnalysis
import Verif.Lemmas.SquareProblem
import Verif.Props.C119_Lattice

noncomputable section

open Matrix

namespace Pansfem

variable {p q : ℕ}

/-- The problem of the program, with every list in closed form. -/
theorem latticeProblem_eq (m : SquareMesh ℝ) (hx : 0 < m.nx) (hy : 0 < m.ny) (held loaded : ℝ × ℝ → Bool) (v : ℝ) :
    ∃ us qs, latticeProblem m held loaded v =
        some (asVectors (squareNodes2 m), squareCells2 m, fixedDofs us, setLoads v (fixedDofs qs)) ∧
      Selects (squareNodes2 m) [0, 1] held us ∧ Selects (squareNodes2 m) [1] loaded qs := by
  obtain ⟨n1, us, h1, h2, h3⟩ := C54_square2 m hx hy [0, 1] (by simp) (by decide) held
  obtain ⟨n2, qs, h4, h5, h6⟩ := C54_square2 m hx hy [1] (by simp) (by decide) loaded
  rw [squareNodes2_eq m hx hy] at h1 h4
  cases h1; cases h4
  refine ⟨us, qs, ?_, h3, h6⟩
  unfold latticeProblem
  rw [squareNodes2_eq m hx hy, squareElements2_eq, h2, h5]
  rfl

/-- **C120**: mesh, supports and loads.  The program gets a mesh of rectangles with eight nodes; exactly the dofs of the
nodes chosen by the first predicate are fixed, at zero; exactly the chosen nodes carry the load, in the second direction.
If the predicate of the supports takes the left side the supports hold the mesh. -/
theorem C120_problem (m : SquareMesh ℝ) (hx : 0 < m.nx) (hy : 0 < m.ny) (h1 : 0 < m.x) (h2 : 0 < m.y)
    (held loaded : ℝ × ℝ → Bool) (v : ℝ) :
    ∃ x elements ufixed qfixed, latticeProblem m held loaded v = some (x, elements, ufixed, qfixed) ∧
      x.length = (2 * m.nx + 1) * (2 * m.ny + 1) - m.nx * m.ny ∧ elements.length = m.nx * m.ny ∧ Quads8 x elements ∧
      (∀ r ∈ ufixed, r.2 = 0) ∧ (∀ r ∈ qfixed, r.2 = v) ∧
      (∀ n d, (n, d) ∈ ufixed.map Prod.fst ↔ n < x.length ∧ d < 2 ∧ held (coord x n 0, coord x n 1) = true) ∧
      (∀ n d, nodalLoad qfixed n d =
        if n < x.length ∧ d = 1 ∧ loaded (coord x n 0, coord x n 1) = true then v else 0) ∧
      (∀ r ∈ qfixed, r.1.1 < x.length ∧ r.1.2 < 2) ∧
      ((∀ y, held (0, y) = true) → HeldMesh x elements ufixed) := by
  obtain ⟨us, qs, e, s1, s2⟩ := latticeProblem_eq m hx hy held loaded v
  obtain ⟨z1, z2, keys, k2, k3⟩ := chosen_supports s1 s2 v
  refine ⟨_, _, _, _, e, ?_, ?_, square2_quads m h1 h2, z1, z2, keys, k2, k3, ?_⟩
  · rw [show (asVectors (squareNodes2 m)).length = (squareNodes2 m).length by simp [asVectors], squareNodes2_length]
    have : (2 * m.nx + 1) * (2 * m.ny + 1) = (m.nx + 1) * (m.ny + 1) + (m.nx + 1) * m.ny + m.nx * (m.ny + 1) +
      m.nx * m.ny := by ring
    omega
  · simp [squareCells2, length_grid]
  · intro hh
    refine square2_held m hx hy h1 h2 fun j hj d hd => ?_
    have hc := squareNodes2_corner m (i := 0) (j := j) (by omega) hj
    rw [fixedDofs_mem (by decide) s1]
    refine ⟨⟨_, hc, by simpa using hh _⟩, ?_⟩
    simp only [List.mem_cons, List.not_mem_nil, or_false]; omega

/-- **C120**: every analysis of the program succeeds: for positive definite tensors, supports on the left side and a
loaded node that is not fixed the solver reports convergence; the fixed dofs do not move and the forces at the others
balance the loads up to `1e-10` of their norm. -/
theorem C120_analysis (m : SquareMesh ℝ) (hx : 0 < m.nx) (hy : 0 < m.ny) (h1 : 0 < m.x) (h2 : 0 < m.y)
    (held loaded : ℝ × ℝ → Bool) (v : ℝ) (hv : v ≠ 0) (hh : ∀ y, held (0, y) = true)
    {x : List (Vec ℝ)} {elements : List (List ℕ)} {ufixed qfixed : List ((ℕ × ℕ) × ℝ)}
    (hp : latticeProblem m held loaded v = some (x, elements, ufixed, qfixed))
    (hl : ∃ n < x.length, held (coord x n 0, coord x n 1) = false ∧ loaded (coord x n 0, coord x n 1) = true)
    (hN : x.length ≤ 50000)
    (T : CellTables p q) (ha : Function.Injective T.as) (hb : Function.Injective T.bs) {a b t : List ℝ}
    (hd : LatticeDesign T elements.length a b t) :
    ∃ u its, latticeAnalysis x elements T ufixed qfixed a b t = some (u, true) ∧
      latticeItems SF.square8 IC.gauss9Square x elements T a b t = some its ∧
      (∀ n < x.length, held (coord x n 0, coord x n 1) = true → ∀ d < 2, nodal u n d = some 0) ∧
      dofNorm (freeDofs (freeTable x.length 2) ufixed)
          (residual (its.map ElemData.call ++ [.nodal qfixed]) (valOf u)) <
        1 / 10 ^ 10 * dofNorm (freeDofs (freeTable x.length 2) ufixed) (nodalLoad qfixed) := by
  obtain ⟨x', e', u', q', e, lx, -, hQ, z1, -, k1, k2, k3, hm⟩ := C120_problem m hx hy h1 h2 held loaded v
  rw [hp] at e
  simp only [Option.some.injEq, Prod.mk.injEq] at e
  obtain ⟨rfl, rfl, rfl, rfl⟩ := e
  have hpos := ((design_iff ha hb).1 hd).2
  have hi := latticeItems_eq (x := x) hQ ha hb hd.la hd.lb hd.lt
  have hfit : ∀ it ∈ stiffItems x elements (tensorAt T a b t),
      it.call.Fits (freeTable x.length 2) (zeroField x.length 2) := by
    intro it hit
    obtain ⟨e, he, D, rfl⟩ := stiffItems_mem hit
    obtain ⟨c1, c2, c3⟩ := quads8_positive hQ he
    exact stiffItem_fits c1 c2 c3 D (shaped_zeroField x.length 2)
  obtain ⟨u, hu⟩ := loaded_succeeds (s := useScalingCG) (N := x.length) (k := 2) (bc := ufixed) (loads := qfixed)
    (items := stiffItems x elements (tensorAt T a b t)) useScalingCG_finds hfit
    (fun r hr => by
      obtain ⟨c1, c2, -⟩ := (k1 r.1.1 r.1.2).1 (List.mem_map_of_mem hr)
      exact ⟨c1, c2⟩) z1 k3
    (by
      intro c hc
      obtain ⟨it, hit, rfl⟩ := List.mem_map.1 hc
      obtain ⟨i, rfl⟩ := List.mem_ofFn.1 hit
      obtain ⟨c1, c2, c3⟩ := quads8_positive hQ (List.getElem_mem i.2)
      exact elem_sym (k := 2) (dl := [0, 1]) rfl (stiffItem_call c1 c2 c3 _).2.2
        (fun X A hA => C32_planeStiffness (hpos i i.2).1 hA))
    (by
      intro it hit w
      obtain ⟨i, rfl⟩ := List.mem_ofFn.1 hit
      obtain ⟨c1, c2, c3⟩ := quads8_positive hQ (List.getElem_mem i.2)
      exact le_of_le_of_eq (stiffForm_nonneg c3 (hpos i i.2) w) (stiffItem_energy c2 _ w w).symm)
    (fun w hw h0 => stiffItems_definite hQ (hm hh) hpos hw h0)
    (by
      obtain ⟨n, hn, f1, f2⟩ := hl
      refine ⟨n, hn, 1, by norm_num, fun hf => ?_, ?_⟩
      · rw [((k1 n 1).1 hf).2.2] at f1
        exact absurd f1 (by decide)
      · rw [k2, if_pos ⟨hn, rfl, f2⟩]
        exact hv)
    (by omega)
  have hcalls : ∀ c ∈ (stiffItems x elements (tensorAt T a b t)).map ElemData.call ++ [.nodal qfixed],
      c.Fits (freeTable x.length 2) (zeroField x.length 2) := by
    intro c hc
    rcases List.mem_append.1 hc with hc | hc
    · obtain ⟨it, hit, rfl⟩ := List.mem_map.1 hc
      exact hfit it hit
    · rw [List.mem_singleton] at hc
      subst hc
      exact loads_fit k3
  obtain ⟨r1, -, r3⟩ := C108_result _ useScalingCG_certifies _ _ _ _ _ _ hcalls hu
  refine ⟨u, _, ?_, hi, ?_, ?_⟩
  · unfold latticeAnalysis
    rw [hi]
    exact hu
  · intro n hn hf d hd'
    have hmem := (k1 n d).2 ⟨hn, hd', hf⟩
    have : ∃ w, lastValue ufixed n d = some w ∧ w = 0 := by
      obtain ⟨r, hr, he⟩ := List.mem_map.1 hmem
      have hs : (ufixed.reverse.find? fun p => decide (p.1 = (n, d))).isSome := by
        rw [List.find?_isSome]
        exact ⟨r, List.mem_reverse.2 hr, by simpa using he⟩
      obtain ⟨r', hr'⟩ := Option.isSome_iff_exists.1 hs
      exact ⟨r'.2, by rw [lastValue, hr']; rfl, z1 _ (List.mem_reverse.1 (List.mem_of_find?_eq_some hr'))⟩
    obtain ⟨w, hw, rfl⟩ := this
    exact r1 n d 0 hw
  · have hg : residual ((stiffItems x elements (tensorAt T a b t)).map ElemData.call ++ [.nodal qfixed])
        (given (zeroField x.length 2) (freeTable x.length 2) ufixed) = fun n d => -nodalLoad qfixed n d := by
      funext n d
      rw [residual_append, residual_items_zero _ (given_zero z1), residual_nodal, zero_add]
    have := r3.1 rfl
    rw [hg] at this
    simpa [dofNorm] using this

theorem leftSide_left (y : ℝ) : leftSide (0, y) = true := by simp [leftSide]

theorem leftSideInt_left (y : ℝ) : leftSideInt (0, y) = true := by simp [leftSideInt, truncate]

theorem truncate_natCast (k : ℕ) : truncate (k : ℝ) = k := by simp [truncate]

/-- **C120**: the program.  Its mesh has 7401 nodes and 2400 elements, and with either meaning of `abs` every analysis
of positive definite tensors succeeds. -/
theorem C120_program (held loaded : ℝ × ℝ → Bool)
    (hp : held = leftSide ∧ loaded = middleRight ∨ held = leftSideInt ∧ loaded = middleRightInt) :
    ∃ x elements ufixed qfixed, latticeProblem programMesh held loaded (-1) = some (x, elements, ufixed, qfixed) ∧
      x.length = 7401 ∧ elements.length = 2400 ∧
      ∀ (p q : ℕ) (T : CellTables p q), Function.Injective T.as → Function.Injective T.bs → ∀ a b t,
        LatticeDesign T 2400 a b t → ∃ u, latticeAnalysis x elements T ufixed qfixed a b t = some (u, true) := by
  have hx : 0 < programMesh.nx := by norm_num [programMesh]
  have hy : 0 < programMesh.ny := by norm_num [programMesh]
  have h1 : 0 < programMesh.x := by norm_num [programMesh]
  have h2 : 0 < programMesh.y := by norm_num [programMesh]
  obtain ⟨x, elements, ufixed, qfixed, e, lx, le, -⟩ := C120_problem programMesh hx hy h1 h2 held loaded (-1)
  have lx : x.length = 7401 := lx
  have le : elements.length = 2400 := le
  refine ⟨x, elements, ufixed, qfixed, e, lx, le, fun p q T ha hb a b t hd => ?_⟩
  have hnode : coord x 2480 0 = 60 ∧ coord x 2480 1 = 20 := by
    obtain ⟨us, qs, e', -⟩ := latticeProblem_eq programMesh hx hy held loaded (-1)
    rw [e] at e'
    simp only [Option.some.injEq, Prod.mk.injEq] at e'
    rw [e'.1]
    have := coord_asVectors (squareNodes2_corner programMesh (i := 60) (j := 20) (by norm_num [programMesh])
      (by norm_num [programMesh]))
    norm_num [programMesh, squareNode] at this
    exact this
  obtain ⟨u, -, hu, -⟩ := C120_analysis programMesh hx hy h1 h2 held loaded (-1) (by norm_num)
    (by rcases hp with ⟨rfl, -⟩ | ⟨rfl, -⟩; exacts [leftSide_left, leftSideInt_left]) e
    ⟨2480, by omega, by
      rw [hnode.1, hnode.2]
      have t60 := truncate_natCast 60
      norm_num at t60
      have t0 : truncate 0 = 0 := by simp [truncate]
      rcases hp with ⟨rfl, rfl⟩ | ⟨rfl, rfl⟩
      · constructor <;> norm_num [leftSide, middleRight]
      · constructor <;> norm_num [leftSideInt, middleRightInt, t60, t0]⟩ (by omega) T ha hb (by rw [le]; exact hd)
  exact ⟨u, hu⟩

/-- Designs as `C120_program` asks for: the starting point of the program, with the tables of a square cell. -/
theorem replicate_design (N : ℕ) {a b : ℝ} (t : ℝ) (ha : 0 ≤ a) (hb : 0 ≤ b) :
    LatticeDesign squareTables N (List.replicate N a) (List.replicate N b) (List.replicate N t) := by
  refine ⟨by simp, by simp, by simp, fun i hi D hD => ?_⟩
  simp only [List.getElem?_replicate, hi, if_true, Option.getD_some] at hD
  exact (square_design a b t ha hb).pos 0 one_pos D (by simpa using hD)

example : ∃ x elements ufixed qfixed u, latticeProblem programMesh leftSide middleRight (-1) =
      some (x, elements, ufixed, qfixed) ∧
    latticeAnalysis x elements squareTables ufixed qfixed (List.replicate 2400 0.5) (List.replicate 2400 0.5)
      (List.replicate 2400 0.5) = some (u, true) := by
  obtain ⟨x, elements, ufixed, qfixed, e, -, -, h⟩ := C120_program leftSide middleRight (Or.inl ⟨rfl, rfl⟩)
  obtain ⟨u, hu⟩ := h 2 2 squareTables squareTables_as.1 squareTables_as.2 _ _ _
    (replicate_design 2400 (a := 0.5) (b := 0.5) 0.5 (by norm_num) (by norm_num))
  exact ⟨x, elements, ufixed, qfixed, u, e, hu⟩

/-- A mesh of two elements, held at the left and loaded at its right corners. -/
example : ∃ x elements ufixed qfixed u its, latticeProblem ⟨2, 1, 2, 1⟩ (fun r => decide (r.1 = 0))
      (fun r => decide (r.1 = 2 ∧ r.2 ≠ 0.5)) 3 = some (x, elements, ufixed, qfixed) ∧
    latticeAnalysis x elements squareTables ufixed qfixed [1, 2] [3, 4] [0.1, 0.2] = some (u, true) ∧
    latticeItems SF.square8 IC.gauss9Square x elements squareTables [1, 2] [3, 4] [0.1, 0.2] = some its ∧
    nodal u 0 1 = some 0 ∧ nodalLoad qfixed 4 1 = 3 := by
  have hm := C120_problem ⟨2, 1, 2, 1⟩ (by norm_num) (by norm_num) (by norm_num) (by norm_num)
    (fun r => decide (r.1 = 0)) (fun r => decide (r.1 = 2 ∧ r.2 ≠ 0.5)) 3
  obtain ⟨x, elements, ufixed, qfixed, e, lx, le, -, -, -, -, k2, -, -⟩ := hm
  have lx : x.length = 13 := lx
  have le : elements.length = 2 := le
  obtain ⟨us, qs, e', -⟩ := latticeProblem_eq ⟨2, 1, 2, 1⟩ (by norm_num) (by norm_num)
    (fun r => decide (r.1 = 0)) (fun r => decide (r.1 = 2 ∧ r.2 ≠ 0.5)) 3
  rw [e] at e'
  simp only [Option.some.injEq, Prod.mk.injEq] at e'
  have n4 : coord x 4 0 = 2 ∧ coord x 4 1 = 0 := by
    rw [e'.1]
    have := coord_asVectors (squareNodes2_corner ⟨2, 1, 2, 1⟩ (i := 2) (j := 0) (by norm_num) (by norm_num))
    norm_num [squareNode] at this
    exact this
  have n0 : coord x 0 0 = 0 ∧ coord x 0 1 = 0 := by
    rw [e'.1]
    have := coord_asVectors (squareNodes2_corner ⟨2, 1, 2, 1⟩ (i := 0) (j := 0) (by norm_num) (by norm_num))
    norm_num [squareNode] at this
    exact this
  obtain ⟨h1, h2⟩ := squareTables_as
  obtain ⟨u, its, hu, hi, h0, -⟩ := C120_analysis ⟨2, 1, 2, 1⟩ (by norm_num) (by norm_num) (by norm_num) (by norm_num)
    _ _ 3 (by norm_num) (by simp) e ⟨4, by omega, by rw [n4.1, n4.2]; constructor <;> norm_num⟩ (by omega) squareTables h1 h2
    (a := [1, 2]) (b := [3, 4]) (t := [0.1, 0.2]) (by
      rw [le]
      refine ⟨rfl, rfl, rfl, fun i hi D hD => ?_⟩
      match i, hi with
      | 0, _ => exact (square_design 1 3 0.1 (by norm_num) (by norm_num)).pos 0 one_pos D hD
      | 1, _ => exact (square_design 2 4 0.2 (by norm_num) (by norm_num)).pos 0 one_pos D hD)
  refine ⟨x, elements, ufixed, qfixed, u, its, e, hu, hi, h0 0 (by omega) (by rw [n0.1, n0.2]; simp) 1 (by norm_num), ?_⟩
  rw [k2, if_pos ⟨by omega, rfl, by rw [n4.1, n4.2]; norm_num⟩]

end Pansfem
