/-
C121: are the tensors interpolated from positive definite cell tensors positive definite?
-/
import Verif.Model.ProgramSquare
import Verif.Props.C119_Lattice

noncomputable section

open Matrix

namespace Pansfem

variable {p q : ℕ}

theorem lagrangeW_sum {m : ℕ} {xs : Fin m → ℝ} (hx : Function.Injective xs) (hm : 0 < m) (y : ℝ) :
    ∑ i, lagrangeW xs y i = 1 := by
  obtain ⟨N, h1, -, h3, -⟩ := C41_interpolation hx y
  rw [lagrange_eq hx] at h1
  cases h1
  exact h3 hm

theorem combine_energy (T : CellTables p q) (N : Fin p → ℝ) (M : Fin q → ℝ) (v : Fin 3 → ℝ) :
    v ⬝ᵥ (T.combine N M *ᵥ v) = ∑ i, ∑ j, N i * M j * (v ⬝ᵥ (T.CH i j *ᵥ v)) := by
  simp only [CellTables.combine, sum_mulVec, smul_mulVec, dotProduct_sum, dotProduct_smul, smul_eq_mul]

theorem tensorOf_middle (T : CellTables p q) (a b : ℝ) :
    tensorOf T a b 0.5 = T.combine (lagrangeW T.as a) (lagrangeW T.bs b) := by
  have h0 : latticeR (latticeAngle 0.5) = 1 := by
    have : latticeAngle 0.5 = 0 := by unfold latticeAngle; norm_num
    rw [this]
    ext i j
    fin_cases i <;> fin_cases j <;> simp [latticeR]
  rw [tensorOf, h0, transpose_one, Matrix.one_mul, Matrix.mul_one]

/-- Enough to look at the interpolated energies. -/
theorem tensor_pos {T : CellTables p q} (ha : Function.Injective T.as) (hb : Function.Injective T.bs)
    (hs : ∀ i j, (T.CH i j)ᵀ = T.CH i j) (a b t : ℝ)
    (h : ∀ v ≠ 0, 0 < ∑ i, ∑ j, lagrangeW T.as a i * lagrangeW T.bs b j * (v ⬝ᵥ (T.CH i j *ᵥ v))) :
    ∃ D, latticeTensor T a b t = some D ∧ PosTensor D := by
  obtain ⟨D, C, e1, e2, -, -, -, e3⟩ := C119_tensor ha hb a b t
  refine ⟨D, e1, (e3 hs).2 ?_⟩
  rw [latticeTensor_eq ha hb] at e2
  cases e2
  refine ⟨tensorOf_symm hs a b 0.5, fun v hv => ?_⟩
  rw [tensorOf_middle, combine_energy]
  exact h v hv

/-- **C121**, as far as it holds: where no weight is negative the tensor is positive definite if those of the cells are. -/
theorem C121_weights_partial (T : CellTables p q) (ha : Function.Injective T.as) (hb : Function.Injective T.bs)
    (hp : 0 < p) (hq : 0 < q) (hc : ∀ i j, PosTensor (T.CH i j)) {a b : ℝ} (t : ℝ) {N : Fin p → ℝ} {M : Fin q → ℝ}
    (hN : lagrange T.as a = some N) (hM : lagrange T.bs b = some M) (h1 : ∀ i, 0 ≤ N i) (h2 : ∀ j, 0 ≤ M j) :
    ∃ D, latticeTensor T a b t = some D ∧ PosTensor D := by
  rw [lagrange_eq ha] at hN
  rw [lagrange_eq hb] at hM
  cases hN; cases hM
  refine tensor_pos ha hb (fun i j => (hc i j).1) a b t fun v hv => ?_
  have some_pos : ∀ {m : ℕ} {w : Fin m → ℝ}, (∀ i, 0 ≤ w i) → ∑ i, w i = 1 → ∃ i, 0 < w i := by
    intro m w h0 hsum
    by_contra hn
    push Not at hn
    have : ∑ i, w i ≤ 0 := Finset.sum_nonpos fun i _ => hn i
    linarith
  obtain ⟨i, hi⟩ := some_pos h1 (lagrangeW_sum ha hp a)
  obtain ⟨j, hj⟩ := some_pos h2 (lagrangeW_sum hb hq b)
  have hnn : ∀ i j, 0 ≤ lagrangeW T.as a i * lagrangeW T.bs b j * (v ⬝ᵥ (T.CH i j *ᵥ v)) := fun i j =>
    mul_nonneg (mul_nonneg (h1 i) (h2 j)) ((hc i j).2 v hv).le
  refine Finset.sum_pos' (fun i _ => Finset.sum_nonneg fun j _ => hnn i j) ⟨i, Finset.mem_univ i, ?_⟩
  exact Finset.sum_pos' (fun j _ => hnn i j) ⟨j, Finset.mem_univ j, mul_pos (mul_pos hi hj) ((hc i j).2 v hv)⟩

/-- **C121**, as far as it holds: with two sizes in each direction every design between them has a positive definite
tensor. -/
theorem C121_two_partial (T : CellTables 2 2) (ha : T.as 0 < T.as 1) (hb : T.bs 0 < T.bs 1)
    (hc : ∀ i j, PosTensor (T.CH i j)) {a b : ℝ} (t : ℝ) (h1 : T.as 0 ≤ a ∧ a ≤ T.as 1)
    (h2 : T.bs 0 ≤ b ∧ b ≤ T.bs 1) : ∃ D, latticeTensor T a b t = some D ∧ PosTensor D := by
  have inj : ∀ {xs : Fin 2 → ℝ}, xs 0 < xs 1 → Function.Injective xs := by
    intro xs h i j hij
    fin_cases i <;> fin_cases j <;> first | rfl | (simp at hij; linarith)
  have nn : ∀ {xs : Fin 2 → ℝ} {y : ℝ}, xs 0 < xs 1 → xs 0 ≤ y ∧ y ≤ xs 1 → ∀ i, 0 ≤ lagrangeW xs y i := by
    intro xs y h hy i
    match i with
    | 0 =>
      simp only [lagrangeW, Fin.prod_univ_two]
      norm_num
      exact div_nonneg_of_nonpos (by linarith) (by linarith)
    | 1 =>
      simp only [lagrangeW, Fin.prod_univ_two]
      norm_num
      exact div_nonneg (by linarith) (by linarith)
  exact C121_weights_partial T (inj ha) (inj hb) two_pos two_pos hc t (lagrange_eq (inj ha) a) (lagrange_eq (inj hb) b)
    (nn ha h1) (nn hb h2)

/-- **C121**, as far as it holds: cell tensors that differ little.  If all of them lie between `α` and `β` times one
positive definite tensor, and `(β - α)*(Λ - 1) < 2*α` where `Λ` is the sum of the absolute values of the weights, the
tensor is positive definite. -/
theorem C121_spread_partial (T : CellTables p q) (ha : Function.Injective T.as) (hb : Function.Injective T.bs)
    (hp : 0 < p) (hq : 0 < q) (hs : ∀ i j, (T.CH i j)ᵀ = T.CH i j) {D0 : Matrix (Fin 3) (Fin 3) ℝ} (hD : PosTensor D0)
    {α β : ℝ} (hαβ : α ≤ β)
    (hc : ∀ i j v, α * (v ⬝ᵥ (D0 *ᵥ v)) ≤ v ⬝ᵥ (T.CH i j *ᵥ v) ∧ v ⬝ᵥ (T.CH i j *ᵥ v) ≤ β * (v ⬝ᵥ (D0 *ᵥ v)))
    {a b : ℝ} (t : ℝ) {N : Fin p → ℝ} {M : Fin q → ℝ}
    (hN : lagrange T.as a = some N) (hM : lagrange T.bs b = some M)
    (h : (β - α) * ((∑ i, |N i|) * (∑ j, |M j|) - 1) < 2 * α) :
    ∃ D, latticeTensor T a b t = some D ∧ PosTensor D := by
  rw [lagrange_eq ha] at hN
  rw [lagrange_eq hb] at hM
  cases hN; cases hM
  refine tensor_pos ha hb hs a b t fun v hv => ?_
  have hd := hD.2 v hv
  have hc := fun i j => hc i j v
  generalize v ⬝ᵥ (D0 *ᵥ v) = d at hd hc
  have hle : ∀ i j, lagrangeW T.as a i * lagrangeW T.bs b j * (α * d) - (β - α) * d *
      ((|lagrangeW T.as a i| * |lagrangeW T.bs b j| - lagrangeW T.as a i * lagrangeW T.bs b j) / 2) ≤
      lagrangeW T.as a i * lagrangeW T.bs b j * (v ⬝ᵥ (T.CH i j *ᵥ v)) := by
    intro i j
    obtain ⟨c1, c2⟩ := hc i j
    rw [← abs_mul]
    generalize lagrangeW T.as a i * lagrangeW T.bs b j = w
    generalize v ⬝ᵥ (T.CH i j *ᵥ v) = c at c1 c2
    rcases le_total 0 w with h0 | h0
    · rw [abs_of_nonneg h0]
      nlinarith
    · rw [abs_of_nonpos h0]
      nlinarith
  have hsum := Finset.sum_le_sum fun i (_ : i ∈ Finset.univ) => Finset.sum_le_sum fun j (_ : j ∈ Finset.univ) => hle i j
  refine lt_of_lt_of_le ?_ hsum
  have e : ∑ i, ∑ j, (lagrangeW T.as a i * lagrangeW T.bs b j * (α * d) - (β - α) * d *
      ((|lagrangeW T.as a i| * |lagrangeW T.bs b j| - lagrangeW T.as a i * lagrangeW T.bs b j) / 2)) =
      α * d - (β - α) * d * (((∑ i, |lagrangeW T.as a i|) * (∑ j, |lagrangeW T.bs b j|) - 1) / 2) := by
    simp only [Finset.sum_sub_distrib, ← Finset.mul_sum, ← Finset.sum_mul, div_eq_mul_inv]
    rw [lagrangeW_sum ha hp, lagrangeW_sum hb hq]
    ring
  rw [e]
  nlinarith

/-! ### The sizes of the program -/

theorem programSizes_injective : Function.Injective programSizes := by
  intro i j h
  fin_cases i <;> fin_cases j <;> first | rfl | (exfalso; revert h; norm_num [programSizes])

/-- One tensor a thousand times as stiff as the others. -/
def stiffTables : CellTables 6 6 where
  as := programSizes
  bs := programSizes
  CH := fun i _ => if i = 0 then (1000 : ℝ) • 1 else 1

theorem stiffTables_pos (i j : Fin 6) : PosTensor (stiffTables.CH i j) := by
  have hself : ∀ v : Fin 3 → ℝ, v ≠ 0 → 0 < v ⬝ᵥ v := fun v hv =>
    lt_of_le_of_ne (dotProduct_self_nonneg' v) fun h => hv (dotProduct_self_eq_zero.1 h.symm)
  unfold stiffTables
  by_cases h : i = 0
  · refine ⟨by simp [h], fun v hv => ?_⟩
    simp only [h, if_true, smul_mulVec, one_mulVec, dotProduct_smul, smul_eq_mul]
    linarith [hself v hv]
  · refine ⟨by simp [h], fun v hv => ?_⟩
    simp only [h, if_false, one_mulVec]
    exact hself v hv

/-- **C121** is false: with the sizes of the program there are positive definite cell tensors and a design within the
bounds of the program whose tensor has negative energy for every strain. -/
theorem C121_false : ∃ T : CellTables 6 6, T.as = programSizes ∧ T.bs = programSizes ∧ (∀ i j, PosTensor (T.CH i j)) ∧
    ∃ a b t D, (0.001 ≤ a ∧ a ≤ 0.999) ∧ (0.001 ≤ b ∧ b ≤ 0.999) ∧ (0.001 ≤ t ∧ t ≤ 0.999) ∧
      latticeTensor T a b t = some D ∧ (∀ v ≠ 0, v ⬝ᵥ (D *ᵥ v) < 0) := by
  have hi : Function.Injective stiffTables.as := programSizes_injective
  refine ⟨stiffTables, rfl, rfl, stiffTables_pos, 0.3, 0.5, 0.5, _, by norm_num, by norm_num, by norm_num,
    latticeTensor_eq hi hi _ _ _, fun v hv => ?_⟩
  have hvv : 0 < v ⬝ᵥ v := lt_of_le_of_ne (dotProduct_self_nonneg' v) fun h => hv (dotProduct_self_eq_zero.1 h.symm)
  rw [tensorOf_middle, combine_energy]
  have e : ∀ i j, v ⬝ᵥ (stiffTables.CH i j *ᵥ v) = (1 + if i = 0 then 999 else 0) * (v ⬝ᵥ v) := by
    intro i j
    unfold stiffTables
    by_cases h : i = 0
    · simp only [h, if_true, smul_mulVec, one_mulVec, dotProduct_smul, smul_eq_mul]
      norm_num
    · simp [h]
  simp only [e]
  have e2 : ∑ i, ∑ j, lagrangeW stiffTables.as 0.3 i * lagrangeW stiffTables.bs 0.5 j *
      ((1 + if i = 0 then 999 else 0) * (v ⬝ᵥ v)) = (1 + 999 * lagrangeW stiffTables.as 0.3 0) * (v ⬝ᵥ v) := by
    have : ∀ i, ∑ j, lagrangeW stiffTables.as 0.3 i * lagrangeW stiffTables.bs 0.5 j *
        ((1 + if i = 0 then (999 : ℝ) else 0) * (v ⬝ᵥ v)) =
        (lagrangeW stiffTables.as 0.3 i + if i = 0 then 999 * lagrangeW stiffTables.as 0.3 0 else 0) * (v ⬝ᵥ v) := by
      intro i
      rw [← Finset.sum_mul, ← Finset.mul_sum, lagrangeW_sum (xs := stiffTables.bs) hi (by norm_num)]
      by_cases h : i = 0
      · simp only [h, if_true]; ring
      · simp [h]
    simp only [this]
    rw [← Finset.sum_mul, Finset.sum_add_distrib, lagrangeW_sum hi (by norm_num)]
    simp
  rw [e2]
  refine mul_neg_of_neg_of_pos ?_ hvv
  have v1 : programSizes 1 = 0.2 := rfl
  have v2 : programSizes 2 = 0.4 := rfl
  have v3 : programSizes 3 = 0.6 := rfl
  have v4 : programSizes 4 = 0.8 := rfl
  have v5 : programSizes 5 = 0.999 := rfl
  have v0 : programSizes 0 = 0.001 := rfl
  simp only [lagrangeW, stiffTables]
  rw [Fin.prod_univ_six, if_neg (by decide), if_pos (by decide), if_pos (by decide), if_pos (by decide),
    if_pos (by decide), if_pos (by decide), v0, v1, v2, v3, v4, v5]
  norm_num

/-! ### Examples -/

/-- The cell tables of the examples of `C119`, between the sizes. -/
example : ∃ D, latticeTensor squareTables 0.3 0.9 0.2 = some D ∧ PosTensor D := by
  have hc : ∀ i j, PosTensor (squareTables.CH i j) := by
    intro i j
    obtain ⟨D, C, e1, e2, -, e3, -, -⟩ := C119_tensor squareTables_as.1 squareTables_as.2 (squareTables.as i)
      (squareTables.bs j) 0.5
    have := (square_design (squareTables.as i) (squareTables.bs j) 0.5 (by fin_cases i <;> norm_num [squareTables])
      (by fin_cases j <;> norm_num [squareTables])).pos 0 one_pos C e2
    rwa [e3 i j rfl rfl] at this
  exact C121_two_partial squareTables (by norm_num [squareTables]) (by norm_num [squareTables]) hc 0.2
    (by norm_num [squareTables]) (by norm_num [squareTables])

/-- At a size of the program one weight is one and the others vanish. -/
example : ∃ D, latticeTensor stiffTables 0.4 0.8 0.7 = some D ∧ PosTensor D := by
  have hi : Function.Injective stiffTables.as := programSizes_injective
  obtain ⟨N, h1, h2, -⟩ := C41_interpolation hi 0.4
  obtain ⟨M, h3, h4, -⟩ := C41_interpolation hi 0.8
  refine C121_weights_partial stiffTables hi hi (by norm_num) (by norm_num) stiffTables_pos 0.7 h1 h3 ?_ ?_
  · intro i
    rw [h2 2 rfl i]
    split_ifs <;> norm_num
  · intro i
    rw [h4 4 rfl i]
    split_ifs <;> norm_num

/-- Outside the sizes: the weights at 2 are -1 and 2, their absolute values sum to 3 in each direction, and tensors
between 1 and 1.2 are close enough to each other. -/
example : ∃ D, latticeTensor (⟨![0, 1], ![0, 1], fun i j => (1 + 0.1 * (i : ℝ) + 0.1 * (j : ℝ)) • 1⟩ : CellTables 2 2)
    2 2 0.2 = some D ∧ PosTensor D := by
  have hi : Function.Injective (![0, 1] : Fin 2 → ℝ) := by
    intro i j h; fin_cases i <;> fin_cases j <;> simp_all
  have hD : PosTensor (1 : Matrix (Fin 3) (Fin 3) ℝ) := by
    have := stiffTables_pos 1 0
    simpa [stiffTables] using this
  refine C121_spread_partial _ hi hi two_pos two_pos (fun i j => by simp) hD (α := 1) (β := 1.2) (by norm_num) ?_ 0.2
    (lagrange_eq hi 2) (lagrange_eq hi 2) ?_
  · intro i j v
    have := dotProduct_self_nonneg' v
    simp only [smul_mulVec, one_mulVec, dotProduct_smul, smul_eq_mul]
    fin_cases i <;> fin_cases j <;> simp only <;> constructor <;> norm_num <;> nlinarith
  · simp only [lagrangeW, Fin.sum_univ_two, Fin.prod_univ_two]
    norm_num

end Pansfem
