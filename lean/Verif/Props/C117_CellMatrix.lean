/-
C117 The matrix of the cell problem and the weak springs.
-/
import Verif.Lemmas.CellForm
import Verif.Props.C115_Vibration
import Verif.Lemmas.Quads

namespace Pansfem

open Matrix

variable {n : ℕ} {sf : SF ℝ 2 n} {ic : IC ℝ 2} {x : List (Vec ℝ)} {elements : List (List ℕ)} {pairs : List (ℕ × ℕ)}
  {E V t alpha : ℝ} {D : Matrix (Fin 3) (Fin 3) ℝ}

theorem planeStrainD_of_input (h : CellInput sf ic x elements pairs E V t) : ∃ D, planeStrainD E V = some D := by
  have a1 : 0 < 1 - 2 * V := by linarith [h.poisson.2]
  have a2 : 0 < 1 + V := by linarith [h.poisson.1]
  exact ⟨_, planeStrainD_eq_some.2 ⟨by positivity, rfl⟩⟩

theorem CellSystem.spsd {r : List (List ℤ) × ℕ} {m : CSR ℝ} {F : Fin 3 → List ℝ} {M : Matrix (Fin r.2) (Fin r.2) ℝ}
    (hs : CellSystem sf ic x elements pairs D t alpha r m F M) (h : CellInput sf ic x elements pairs E V t)
    (hD : planeStrainD E V = some D) (ha : 0 ≤ alpha) : SPSD M :=
  ⟨hs.symm, fun v => by
    rw [hs.form]
    exact add_nonneg (cellForm_nonneg h hD _) (springWork_nonneg ha _ _)⟩

theorem CellSystem.kernel {r : List (List ℤ) × ℕ} {m : CSR ℝ} {F : Fin 3 → List ℝ} {M : Matrix (Fin r.2) (Fin r.2) ℝ}
    (hs : CellSystem sf ic x elements pairs D t alpha r m F M) (h : CellInput sf ic x elements pairs E V t)
    (hD : planeStrainD E V = some D) (ha : 0 < alpha) (y : Fin r.2 → ℝ) : M.mulVec y = 0 ↔
      (∀ e ∈ elements, ∀ g, cellStrain sf ic x (fieldOf r.1 y) e g = 0) ∧
      ∀ e ∈ elements, ∀ m ∈ e, fieldOf r.1 y m 0 + fieldOf r.1 y m 1 = 0 := by
  constructor
  · intro hy
    have h0 := hs.form y y
    rw [hy, dotProduct_zero] at h0
    have h1 := cellForm_nonneg h hD (cellStrain sf ic x (fieldOf r.1 y))
    have h2 := springWork_nonneg ha.le elements (fieldOf r.1 y)
    exact ⟨cellForm_zero h hD (by linarith), springWork_zero ha (by linarith)⟩
  · rintro ⟨h1, h2⟩
    have : ∀ z, z ⬝ᵥ M.mulVec y = 0 := by
      intro z
      rw [hs.form, springWork_kernel h2, add_zero]
      unfold cellForm
      refine sum_zero' _ _ fun e he => Finset.sum_eq_zero fun g _ => ?_
      rw [h1 e he g, Matrix.mulVec_zero, dotProduct_zero, mul_zero]
    funext i
    simpa using this (Pi.single i 1)

/-- **C117**, what the program assembles, for every cell: it returns a table, a matrix and three right-hand sides.  The
matrix is symmetric, the energy of two vectors is the energy of the strains of their fields plus the work of the springs,
the fields of the vectors are exactly the periodic fields, and the right-hand sides are the loads of the macroscopic
strains. -/
theorem C117_system_partial (h : CellInput sf ic x elements pairs E V t) (hD : planeStrainD E V = some D) (alpha : ℝ) :
    ∃ (r : List (List ℤ) × ℕ) (m : CSR ℝ) (F : Fin 3 → List ℝ) (M : Matrix (Fin r.2) (Fin r.2) ℝ),
      cellSystem sf ic x elements pairs E V t alpha = some (r, m, F) ∧ IsCSR r.2 m M ∧ (∀ i j, M i j = M j i) ∧
      (∀ y z : Fin r.2 → ℝ, y ⬝ᵥ M.mulVec z =
        cellForm sf ic x elements D t (cellStrain sf ic x (fieldOf r.1 y)) (cellStrain sf ic x (fieldOf r.1 z)) +
        springWork alpha elements (fieldOf r.1 y) (fieldOf r.1 z)) ∧
      (∀ k, ∀ y : Fin r.2 → ℝ, y ⬝ᵥ (fun i => (F k)[(i : ℕ)]?.getD 0) =
        cellForm sf ic x elements D t (cellStrain sf ic x (fieldOf r.1 y)) fun _ _ => Pi.single k 1) ∧
      (∀ y : Fin r.2 → ℝ, Periodic pairs (fieldOf r.1 y)) ∧
      ∀ v, Periodic pairs v → ∃ y : Fin r.2 → ℝ, ∀ m < x.length, ∀ j < 2, fieldOf r.1 y m j = v m j := by
  obtain ⟨r, m, F, M, h1, h2⟩ := cellSystem_spec h hD alpha
  exact ⟨r, m, F, M, h1, h2.csr, h2.symm, h2.form, h2.load, h2.table.periodic,
    fun v hv => h2.table.lift hv h.master h.pairs_lt⟩

/-- **C117**, what the springs do: with `alpha > 0` the matrix is non-negative, and its kernel are the vectors whose
field has no strain and satisfies `ux + uy = 0` at the nodes of the elements. -/
theorem C117_kernel_partial (h : CellInput sf ic x elements pairs E V t) (ha : 0 < alpha) {r : List (List ℤ) × ℕ}
    {m : CSR ℝ} {F : Fin 3 → List ℝ} (hr : cellSystem sf ic x elements pairs E V t alpha = some (r, m, F))
    {M : Matrix (Fin r.2) (Fin r.2) ℝ} (hM : IsCSR r.2 m M) :
    (∀ y, 0 ≤ y ⬝ᵥ M.mulVec y) ∧ ∀ y, M.mulVec y = 0 ↔
      (∀ e ∈ elements, ∀ g, cellStrain sf ic x (fieldOf r.1 y) e g = 0) ∧
      ∀ e ∈ elements, ∀ m ∈ e, fieldOf r.1 y m 0 + fieldOf r.1 y m 1 = 0 := by
  obtain ⟨D, hD⟩ := planeStrainD_of_input h
  obtain ⟨r', m', F', M', h1, h2⟩ := cellSystem_spec h hD alpha
  rw [hr] at h1
  obtain ⟨rfl, rfl, rfl⟩ : r = r' ∧ m = m' ∧ F = F' := by simpa using h1
  obtain rfl := isCSR_unique hM h2.csr
  exact ⟨(h2.spsd h hD ha.le).2, h2.kernel h hD ha⟩

/-- **C117**, solvability: the three systems have solutions, and all solutions of one system have the same strains. -/
theorem C117_solvable_partial (h : CellInput sf ic x elements pairs E V t) (ha : 0 < alpha) {r : List (List ℤ) × ℕ}
    {m : CSR ℝ} {F : Fin 3 → List ℝ} (hr : cellSystem sf ic x elements pairs E V t alpha = some (r, m, F))
    {M : Matrix (Fin r.2) (Fin r.2) ℝ} (hM : IsCSR r.2 m M) (k : Fin 3) :
    (∃ z, M.mulVec z = fun i : Fin r.2 => (F k)[(i : ℕ)]?.getD 0) ∧
    ∀ y z, M.mulVec y = M.mulVec z → ∀ e ∈ elements, ∀ g,
      cellStrain sf ic x (fieldOf r.1 y) e g = cellStrain sf ic x (fieldOf r.1 z) e g := by
  obtain ⟨D, hD⟩ := planeStrainD_of_input h
  obtain ⟨r', m', F', M', h1, h2⟩ := cellSystem_spec h hD alpha
  rw [hr] at h1
  obtain ⟨rfl, rfl, rfl⟩ : r = r' ∧ m = m' ∧ F = F' := by simpa using h1
  obtain rfl := isCSR_unique hM h2.csr
  constructor
  · refine symm_solvable h2.symm fun w hw => ?_
    have h3 := ((h2.kernel h hD ha w).1 hw).1
    rw [h2.load]
    unfold cellForm
    refine sum_zero' _ _ fun e he => Finset.sum_eq_zero fun g _ => ?_
    rw [h3 e he g, zero_dotProduct, mul_zero]
  · intro y z hyz e he g
    have h3 : M.mulVec (y + (-1 : ℝ) • z) = 0 := by
      rw [Matrix.mulVec_add, Matrix.mulVec_smul, hyz, neg_one_smul, add_neg_cancel]
    have h4 := ((h2.kernel h hD ha _).1 h3).1 e he g
    rw [fieldOf_add, fieldOf_smul, cellStrain_add, cellStrain_smul] at h4
    have h4 : cellStrain sf ic x (fieldOf r.1 y) e g + (-1 : ℝ) • cellStrain sf ic x (fieldOf r.1 z) e g = 0 := h4
    rwa [neg_one_smul, ← sub_eq_add_neg, sub_eq_zero] at h4

/-- **C117** fails for every cell: the translation `(1, -1)` is in the kernel of the matrix, whatever the stiffness of the
springs, so that the matrix is singular and no solution of the cell problem is the only one. -/
theorem C117_singular (h : CellInput sf ic x elements pairs E V t) (hc : Complete sf) (hx : x ≠ [])
    {r : List (List ℤ) × ℕ} {m : CSR ℝ} {F : Fin 3 → List ℝ}
    (hr : cellSystem sf ic x elements pairs E V t alpha = some (r, m, F)) {M : Matrix (Fin r.2) (Fin r.2) ℝ}
    (hM : IsCSR r.2 m M) :
    ∃ y : Fin r.2 → ℝ, y ≠ 0 ∧ M.mulVec y = 0 ∧ (∀ m < x.length, fieldOf r.1 y m 0 = 1 ∧ fieldOf r.1 y m 1 = -1) ∧
      M.det = 0 ∧ ∀ z b, M.mulVec z = b → z + y ≠ z ∧ M.mulVec (z + y) = b := by
  obtain ⟨D, hD⟩ := planeStrainD_of_input h
  obtain ⟨r', m', F', M', h1, h2⟩ := cellSystem_spec h hD alpha
  rw [hr] at h1
  obtain ⟨rfl, rfl, rfl⟩ : r = r' ∧ m = m' ∧ F = F' := by simpa using h1
  obtain rfl := isCSR_unique hM h2.csr
  obtain ⟨y, hy⟩ := h2.table.lift (v := fun _ j => if j = 0 then (![1, -1] : Fin 2 → ℝ) 0 else (![1, -1] : Fin 2 → ℝ) 1)
    (fun p _ j _ => rfl) h.master h.pairs_lt
  have hfield : ∀ m < x.length, fieldOf r.1 y m 0 = 1 ∧ fieldOf r.1 y m 1 = -1 := fun m hm =>
    ⟨by rw [hy m hm 0 (by norm_num)]; simp, by rw [hy m hm 1 (by norm_num)]; simp⟩
  have hy0 : y ≠ 0 := by
    intro e
    have h0 : 0 < x.length := List.length_pos_iff.2 hx
    have := (hfield 0 h0).1
    rw [e] at this
    unfold fieldOf at this
    split_ifs at this <;> simp at this
  have hker : M.mulVec y = 0 := by
    have : ∀ z, z ⬝ᵥ M.mulVec y = 0 := by
      intro z
      rw [h2.form, springWork_kernel (v := fieldOf r.1 y), add_zero]
      · unfold cellForm
        refine sum_zero' _ _ fun e he => Finset.sum_eq_zero fun g _ => ?_
        rw [cellStrain_congr (h.coords e he).2 (fun m hm j hj => hy m (cell_node_lt h he hm) j hj) g,
          cellStrain_translation hc, Matrix.mulVec_zero, dotProduct_zero, mul_zero]
      · intro e he m hm
        obtain ⟨a, b⟩ := hfield m (cell_node_lt h he hm)
        rw [a, b]; norm_num
    funext i
    simpa using this (Pi.single i 1)
  refine ⟨y, hy0, hker, hfield, Matrix.exists_mulVec_eq_zero_iff.1 ⟨y, hy0, hker⟩, fun z b hz => ⟨?_, ?_⟩⟩
  · intro e
    exact hy0 (by simpa using e)
  · rw [Matrix.mulVec_add, hker, hz, add_zero]

/-! ### A cell -/

/-- The corners of the unit square. -/
def stripNodes : List (Vec ℝ) := [⟨[0, 0]⟩, ⟨[1, 0]⟩, ⟨[1, 1]⟩, ⟨[0, 1]⟩]

theorem strip_rows : nodeRows 4 stripNodes [0, 1, 2, 3] = !![0, 0; 1, 0; 1, 1; 0, 1] := by
  ext i j
  fin_cases i <;> fin_cases j <;> rfl

theorem strip_det (r : Fin 2 → ℝ) :
    (SF.square4.dNdr r * nodeRows 4 stripNodes [0, 1, 2, 3]).det = 1 / 4 := by
  rw [strip_rows, det_fin_two]
  simp [SF.square4, Matrix.mul_apply, Fin.sum_univ_four]
  ring

theorem strip_measure (g : Fin IC.gauss4Square.N) :
    measure2 SF.square4 IC.gauss4Square (nodeRows 4 stripNodes [0, 1, 2, 3]) g = 1 / 4 := by
  rw [measure2, strip_det, gauss4_weights, gauss4_weights]
  norm_num

/-- The unit square with its left and right sides tied: a strip that is free at the bottom and at the top. -/
theorem strip_input : CellInput SF.square4 IC.gauss4Square stripNodes [[0, 1, 2, 3]] [(0, 1), (3, 2)] 1 (1 / 4) 1 := by
  refine ⟨by norm_num, ?_, ?_, by norm_num, by norm_num, by norm_num, by decide, by decide, by decide⟩
  · intro e he
    rw [List.mem_singleton] at he
    subst he
    refine ⟨?_, rfl⟩
    intro m hm
    simp only [List.mem_cons, List.not_mem_nil, or_false] at hm
    rcases hm with rfl | rfl | rfl | rfl <;> exact ⟨rfl, rfl⟩
  · intro e he g
    rw [List.mem_singleton] at he
    subst he
    rw [strip_measure]; norm_num

/-- The unit square with all corners tied. -/
theorem tied_input : CellInput SF.square4 IC.gauss4Square stripNodes [[0, 1, 2, 3]] [(0, 1), (0, 2), (0, 3)] 1 (1 / 4) 1 := by
  refine ⟨strip_input.size, strip_input.coords, strip_input.positive, by norm_num, by norm_num, by norm_num, by decide,
    by decide, by decide⟩

/-- **C117** fails: it is not true that the weak springs make the matrix of the cell positive definite. -/
theorem C117_false : ¬ ∀ (n : ℕ) (sf : SF ℝ 2 n) (ic : IC ℝ 2) (x : List (Vec ℝ)) (elements : List (List ℕ))
    (pairs : List (ℕ × ℕ)) (E V t alpha : ℝ), Complete sf → CellInput sf ic x elements pairs E V t → 0 < alpha →
    ∀ (r : List (List ℤ) × ℕ) (m : CSR ℝ) (F : Fin 3 → List ℝ) (M : Matrix (Fin r.2) (Fin r.2) ℝ),
      cellSystem sf ic x elements pairs E V t alpha = some (r, m, F) → IsCSR r.2 m M → SPD M := by
  intro hall
  obtain ⟨D, hD⟩ := planeStrainD_of_input strip_input
  obtain ⟨r, m, F, M, h1, h2⟩ := cellSystem_spec strip_input hD (1 / 10 ^ 9)
  have h3 := hall 4 _ _ _ _ _ _ _ _ _ complete_square4 strip_input (by norm_num) r m F M h1 h2.csr
  obtain ⟨y, h4, h5, -⟩ := C117_singular strip_input complete_square4 (by simp [stripNodes]) h1 h2.csr
  have := h3.2 y h4
  rw [h5, dotProduct_zero] at this
  exact lt_irrefl _ this

/-- The hypotheses of the theorems hold for the strip; the three systems are solvable, and their solutions are not
unique. -/
example : ∃ (r : List (List ℤ) × ℕ) (m : CSR ℝ) (F : Fin 3 → List ℝ) (M : Matrix (Fin r.2) (Fin r.2) ℝ),
    cellSystem SF.square4 IC.gauss4Square stripNodes [[0, 1, 2, 3]] [(0, 1), (3, 2)] 1 (1 / 4) 1 (1 / 10 ^ 9) =
      some (r, m, F) ∧ IsCSR r.2 m M ∧ ∀ k, ∃ z z', z ≠ z' ∧
        M.mulVec z = (fun i : Fin r.2 => (F k)[(i : ℕ)]?.getD 0) ∧ M.mulVec z' = M.mulVec z := by
  obtain ⟨D, hD⟩ := planeStrainD_of_input strip_input
  obtain ⟨r, m, F, M, h1, h2, -⟩ := C117_system_partial strip_input hD (1 / 10 ^ 9)
  refine ⟨r, m, F, M, h1, h2, fun k => ?_⟩
  obtain ⟨z, hz⟩ := (C117_solvable_partial strip_input (by norm_num) h1 h2 k).1
  obtain ⟨y, -, -, -, -, hy⟩ := C117_singular strip_input complete_square4 (by simp [stripNodes]) h1 h2
  exact ⟨z, z + y, fun e => (hy z _ hz).1 e.symm, hz, by rw [(hy z _ hz).2, hz]⟩

end Pansfem
