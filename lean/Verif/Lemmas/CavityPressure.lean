/-
The driven cavity on a grid: a pressure that does no work on velocities that vanish at the walls is constant at the corners of the
cells.
-/
import Verif.Lemmas.CavityKernel

noncomputable section

open Matrix

namespace Pansfem

/-- Values on a grid that meet the equations of the velocities in the middle of the edges inside are constant. -/
theorem grid_constant {nx ny : ℕ} (hx : 3 ≤ nx) (hy : 3 ≤ ny) {q : ℕ → ℕ → ℝ}
    (h1 : ∀ i < nx, ∀ j, j + 1 < ny → (q (i + 1) j - q i j) + 4 * (q (i + 1) (j + 1) - q i (j + 1)) + (q (i + 1) (j + 2) - q i (j + 2)) = 0)
    (h2 : ∀ i < nx, ∀ j, j + 1 < ny → q i (j + 2) + q (i + 1) (j + 2) = q i j + q (i + 1) j)
    (h3 : ∀ j < ny, ∀ i, i + 1 < nx → (q i (j + 1) - q i j) + 4 * (q (i + 1) (j + 1) - q (i + 1) j) + (q (i + 2) (j + 1) - q (i + 2) j) = 0)
    (h4 : ∀ j < ny, ∀ i, i + 1 < nx → q (i + 2) j + q (i + 2) (j + 1) = q i j + q i (j + 1)) :
    ∀ i ≤ nx, ∀ j ≤ ny, q i j = q 0 0 := by
  have p1 : ∀ i ≤ nx, ∀ j, j + 1 < ny → q i (j + 2) = q i j := by
    intro i
    induction i with
    | zero =>
      intro _ j hj
      have a := h3 j (by omega) 0 (by omega)
      have b := h3 (j + 1) (by omega) 0 (by omega)
      have c := h2 0 (by omega) j hj
      have d := h2 1 (by omega) j hj
      simp only [zero_add, add_assoc, Nat.reduceAdd] at a b c d
      linarith
    | succ i ih =>
      intro hi j hj
      have a := ih (by omega) j hj
      have c := h2 i (by omega) j hj
      linarith
  have p2 : ∀ j ≤ ny, ∀ i, i + 1 < nx → q (i + 2) j = q i j := by
    intro j
    induction j with
    | zero =>
      intro _ i hi
      have a := h1 i (by omega) 0 (by omega)
      have b := h1 (i + 1) (by omega) 0 (by omega)
      have c := h4 0 (by omega) i hi
      have d := h4 1 (by omega) i hi
      simp only [zero_add, add_assoc, Nat.reduceAdd] at a b c d
      linarith
    | succ j ih =>
      intro hj i hi
      have a := ih (by omega) i hi
      have c := h4 j (by omega) i hi
      linarith
  have d0 : ∀ i < nx, q (i + 1) 0 = q i 0 := by
    intro i hi
    have a := h1 i hi 0 (by omega)
    have b := h1 i hi 1 (by omega)
    have c1 := p1 i hi.le 0 (by omega)
    have c2 := p1 (i + 1) hi 0 (by omega)
    have c3 := p1 i hi.le 1 (by omega)
    have c4 := p1 (i + 1) hi 1 (by omega)
    simp only [zero_add, Nat.reduceAdd] at a b c1 c2 c3 c4
    linarith
  have e0 : ∀ i ≤ nx, q i 1 = q i 0 := by
    intro i
    induction i with
    | zero =>
      intro _
      have a := h3 0 (by omega) 0 (by omega)
      have b := h3 0 (by omega) 1 (by omega)
      have c1 := p2 0 (by omega) 0 (by omega)
      have c2 := p2 1 (by omega) 0 (by omega)
      have c3 := p2 0 (by omega) 1 (by omega)
      have c4 := p2 1 (by omega) 1 (by omega)
      simp only [zero_add, Nat.reduceAdd] at a b c1 c2 c3 c4
      linarith
    | succ i ih =>
      intro hi
      have a := h1 i (by omega) 0 (by omega)
      have c1 := p1 i (by omega) 0 (by omega)
      have c2 := p1 (i + 1) hi 0 (by omega)
      have d := d0 i (by omega)
      have e := ih (by omega)
      simp only [zero_add] at a c1 c2
      linarith
  have row : ∀ i ≤ nx, ∀ j ≤ ny, q i j = q i 0 := by
    intro i hi j
    induction j using Nat.strong_induction_on with
    | _ j ih =>
      intro hj
      match j, ih, hj with
      | 0, _, _ => rfl
      | 1, _, _ => exact e0 i hi
      | j + 2, ih, hj => exact (p1 i hi j (by omega)).trans (ih j (by omega) (by omega))
  have base : ∀ i ≤ nx, q i 0 = q 0 0 := by
    intro i
    induction i with
    | zero => exact fun _ => rfl
    | succ i ih => exact fun hi => (d0 i (by omega)).trans (ih (by omega))
  exact fun i hi j hj => (row i hi j hj).trans (base i hi)

theorem grid_pick {m n i j : ℕ} (hi : i < m) (hj : j < n) (F : ℕ → ℕ → ℝ) :
    ∑ i' ∈ Finset.range m, ∑ j' ∈ Finset.range n, (if i' = i ∧ j' = j then F i' j' else 0) = F i j := by
  rw [Finset.sum_eq_single i, Finset.sum_eq_single j]
  · simp
  · intro j' _ hne
    rw [if_neg fun h => hne h.2]
  · intro h
    exact absurd (Finset.mem_range.2 hj) h
  · intro i' _ hne
    exact Finset.sum_eq_zero fun j' _ => if_neg fun h => hne h.1
  · intro h
    exact absurd (Finset.mem_range.2 hi) h

section
variable {nx ny i j i' j' : ℕ}

/-- The field that is one in the middle of a horizontal edge, on a cell. -/
theorem cellVel_level (hi' : i' < nx) (hj' : j' < ny) (hj : j < ny) (d a : ℕ) :
    cellVel nx ny i' j' (unitField (levelNo nx ny i (j + 1)) d) a =
      if a = d then ![0, 0, 0, 0, if i' = i ∧ j' = j + 1 then 1 else 0, 0, if i' = i ∧ j' = j then 1 else 0, 0] else 0 := by
  funext l
  by_cases ha : a = d
  · subst ha
    have e1 := corner_level (i' := i) (j' := j + 1) hi'.le hj'.le
    have e2 := corner_level (i' := i) (j' := j + 1) (show i' + 1 ≤ nx from hi') hj'.le
    have e3 := corner_level (i' := i) (j' := j + 1) (show i' + 1 ≤ nx from hi') (show j' + 1 ≤ ny from hj')
    have e4 := corner_level (i' := i) (j' := j + 1) hi'.le (show j' + 1 ≤ ny from hj')
    have e5 := upright_level (i' := i) (j' := j + 1) hi'.le hj'
    have e6 := upright_level (i' := i) (j' := j + 1) (show i' + 1 ≤ nx from hi') hj'
    have e7 := level_inj (nx := nx) (i := i') (i' := i) hj'.le (show j + 1 ≤ ny from hj)
    have e8 := level_inj (nx := nx) (i := i') (i' := i) (show j' + 1 ≤ ny from hj') (show j + 1 ≤ ny from hj)
    fin_cases l <;> simp [cellVel, unitField, e1, e2, e3, e4, e5, e6, e7, e8]
  · rw [if_neg ha]
    fin_cases l <;> simp [cellVel, unitField, ha]

/-- The field that is one in the middle of a vertical edge, on a cell. -/
theorem cellVel_upright (hi' : i' < nx) (hj' : j' < ny) (hi : i < nx) (hj : j < ny) (d a : ℕ) :
    cellVel nx ny i' j' (unitField (uprightNo nx ny (i + 1) j) d) a =
      if a = d then ![0, 0, 0, 0, 0, if i' = i ∧ j' = j then 1 else 0, 0, if i' = i + 1 ∧ j' = j then 1 else 0] else 0 := by
  funext l
  by_cases ha : a = d
  · subst ha
    have e1 := corner_upright (i' := i + 1) (j' := j) hi'.le hj'.le
    have e2 := corner_upright (i' := i + 1) (j' := j) (show i' + 1 ≤ nx from hi') hj'.le
    have e3 := corner_upright (i' := i + 1) (j' := j) (show i' + 1 ≤ nx from hi') (show j' + 1 ≤ ny from hj')
    have e4 := corner_upright (i' := i + 1) (j' := j) hi'.le (show j' + 1 ≤ ny from hj')
    have e7 := upright_inj (nx := nx) (i := i') (i' := i + 1) hj' hj
    have e8 := upright_inj (nx := nx) (i := i' + 1) (i' := i + 1) hj' hj
    have e5 := (upright_level (i' := i') (j' := j') (show i + 1 ≤ nx from hi) hj).symm
    have e6 := (upright_level (i' := i') (j' := j' + 1) (show i + 1 ≤ nx from hi) hj).symm
    fin_cases l <;> simp [cellVel, unitField, e1, e2, e3, e4, e5, e6, e7, e8]
  · rw [if_neg ha]
    fin_cases l <;> simp [cellVel, unitField, ha]

end

theorem flux_level (q : Fin 4 → ℝ) (s t : ℝ) :
    fluxU q ![0, 0, 0, 0, s, 0, t, 0] = -(4 * (q 1 - q 0) + 2 * (q 2 - q 3)) / 9 * s - (4 * (q 2 - q 3) + 2 * (q 1 - q 0)) / 9 * t ∧
    fluxV q ![0, 0, 0, 0, s, 0, t, 0] = (q 0 + q 1 + q 2 + q 3) / 3 * (t - s) := by
  constructor
  · simp [fluxU, serendipity, bilinear4]
    ring
  · simp [fluxV, serendipity, bilinear4]
    ring

theorem flux_upright (q : Fin 4 → ℝ) (s t : ℝ) :
    fluxV q ![0, 0, 0, 0, 0, s, 0, t] = -(4 * (q 2 - q 1) + 2 * (q 3 - q 0)) / 9 * s - (4 * (q 3 - q 0) + 2 * (q 2 - q 1)) / 9 * t ∧
    fluxU q ![0, 0, 0, 0, 0, s, 0, t] = (q 0 + q 1 + q 2 + q 3) / 3 * (s - t) := by
  constructor
  · simp [fluxV, serendipity, bilinear4]
    ring
  · simp [fluxU, serendipity, bilinear4]
    ring

theorem flux_zero (q : Fin 4 → ℝ) : fluxU q 0 = 0 ∧ fluxV q 0 = 0 := by
  constructor
  · simp [fluxU, serendipity]
  · simp [fluxV, serendipity]

/-- A sum over the cells with two terms. -/
theorem grid_two {nx ny i j i₂ j₂ : ℕ} (hi : i < nx) (hj : j < ny) (hi₂ : i₂ < nx) (hj₂ : j₂ < ny) (A B : ℕ → ℕ → ℝ) (c : ℝ) :
    ∑ i' ∈ Finset.range nx, ∑ j' ∈ Finset.range ny, (A i' j' * (if i' = i ∧ j' = j then 1 else 0) +
      B i' j' * (if i' = i₂ ∧ j' = j₂ then 1 else 0)) / c = (A i j + B i₂ j₂) / c := by
  simp only [div_eq_mul_inv, ← Finset.sum_mul, Finset.sum_add_distrib, mul_ite, mul_one, mul_zero]
  rw [grid_pick hi hj, grid_pick hi₂ hj₂]

namespace Cavity8
variable {nx ny : ℕ} {value : ℝ} {x : List (Vec ℝ)} {elements : List (List ℕ × List ℕ)} {bc : List ((ℕ × ℕ) × ℝ)}

/-- A pressure that does no work is constant at the corners of the cells. -/
theorem press_constant (h : Cavity8 nx ny value x elements bc) (hx : 3 ≤ nx) (hy : 3 ≤ ny) {q : ℕ → ℕ → ℝ}
    (hq : ∀ w, Vanishing bc w → (steadyMesh x elements).expand q w = 0) :
    ∀ i ≤ nx, ∀ j ≤ ny, q (cornerNo ny i j) 2 = q (cornerNo ny 0 0) 2 := by
  have x0 : (0 : ℝ) < nx := by exact_mod_cast (by omega : 0 < nx)
  have y0 : (0 : ℝ) < ny := by exact_mod_cast (by omega : 0 < ny)
  have free_l : ∀ i < nx, ∀ j, j + 1 < ny → ∀ d, Vanishing bc (unitField (levelNo nx ny i (j + 1)) d) := fun i hi j hj d => by
    refine unitField_vanishing ?_
    rw [h.given_level (by omega) (by omega) hi (show j + 1 ≤ ny by omega), if_neg (by omega), if_neg (by omega)]
  have free_u : ∀ j < ny, ∀ i, i + 1 < nx → ∀ d, Vanishing bc (unitField (uprightNo nx ny (i + 1) j) d) := fun j hj i hi d => by
    refine unitField_vanishing ?_
    rw [h.given_upright (by omega) (by omega) (show i + 1 ≤ nx by omega) hj, if_neg (by omega)]
  refine grid_constant (q := fun i j => q (cornerNo ny i j) 2) hx hy (fun i hi j hj => ?_) (fun i hi j hj => ?_)
    (fun j hj i hi => ?_) fun j hj i hi => ?_
  · have e := hq _ (free_l i hi j hj 0)
    rw [h.expand] at e
    have := grid_two hi hj hi (show j < ny by omega)
      (fun i' j' => -(4 * (cellPres ny i' j' q 1 - cellPres ny i' j' q 0) + 2 * (cellPres ny i' j' q 2 - cellPres ny i' j' q 3)) / 9)
      (fun i' j' => -(4 * (cellPres ny i' j' q 2 - cellPres ny i' j' q 3) + 2 * (cellPres ny i' j' q 1 - cellPres ny i' j' q 0)) / 9)
      (2 * ny)
    rw [Finset.sum_congr rfl fun i' hi' => Finset.sum_congr rfl fun j' hj' => by
      rw [cellVel_level (Finset.mem_range.1 hi') (Finset.mem_range.1 hj') (by omega), if_pos rfl,
        cellVel_level (Finset.mem_range.1 hi') (Finset.mem_range.1 hj') (by omega), if_neg one_ne_zero,
        (flux_level _ _ _).1, (flux_zero _).2, zero_div, add_zero, sub_eq_add_neg, ← neg_mul, ← neg_div], this] at e
    rw [div_eq_zero_iff, or_iff_left (by positivity)] at e
    simp only [cellPres, cons_val_zero, cons_val_one, cons_val, add_assoc, Nat.reduceAdd] at e
    linarith
  · have e := hq _ (free_l i hi j hj 1)
    rw [h.expand] at e
    have := grid_two hi hj hi (show j < ny by omega)
      (fun i' j' => -((cellPres ny i' j' q 0 + cellPres ny i' j' q 1 + cellPres ny i' j' q 2 + cellPres ny i' j' q 3) / 3))
      (fun i' j' => (cellPres ny i' j' q 0 + cellPres ny i' j' q 1 + cellPres ny i' j' q 2 + cellPres ny i' j' q 3) / 3)
      (2 * nx)
    rw [Finset.sum_congr rfl fun i' hi' => Finset.sum_congr rfl fun j' hj' => by
      rw [cellVel_level (Finset.mem_range.1 hi') (Finset.mem_range.1 hj') (by omega), if_neg zero_ne_one,
        cellVel_level (Finset.mem_range.1 hi') (Finset.mem_range.1 hj') (by omega), if_pos rfl,
        (flux_level _ _ _).2, (flux_zero _).1, zero_div, zero_add, mul_sub, sub_eq_neg_add, ← neg_mul], this] at e
    rw [div_eq_zero_iff, or_iff_left (by positivity)] at e
    simp only [cellPres, cons_val_zero, cons_val_one, cons_val, add_assoc, Nat.reduceAdd] at e
    linarith
  · have e := hq _ (free_u j hj i hi 1)
    rw [h.expand] at e
    have := grid_two (show i < nx by omega) hj hi hj
      (fun i' j' => -(4 * (cellPres ny i' j' q 2 - cellPres ny i' j' q 1) + 2 * (cellPres ny i' j' q 3 - cellPres ny i' j' q 0)) / 9)
      (fun i' j' => -(4 * (cellPres ny i' j' q 3 - cellPres ny i' j' q 0) + 2 * (cellPres ny i' j' q 2 - cellPres ny i' j' q 1)) / 9)
      (2 * nx)
    rw [Finset.sum_congr rfl fun i' hi' => Finset.sum_congr rfl fun j' hj' => by
      rw [cellVel_upright (Finset.mem_range.1 hi') (Finset.mem_range.1 hj') (by omega) hj, if_neg zero_ne_one,
        cellVel_upright (Finset.mem_range.1 hi') (Finset.mem_range.1 hj') (by omega) hj, if_pos rfl,
        (flux_upright _ _ _).1, (flux_zero _).1, zero_div, zero_add, sub_eq_add_neg, ← neg_mul, ← neg_div], this] at e
    rw [div_eq_zero_iff, or_iff_left (by positivity)] at e
    simp only [cellPres, cons_val_zero, cons_val_one, cons_val, add_assoc, Nat.reduceAdd] at e
    linarith
  · have e := hq _ (free_u j hj i hi 0)
    rw [h.expand] at e
    have := grid_two (show i < nx by omega) hj hi hj
      (fun i' j' => (cellPres ny i' j' q 0 + cellPres ny i' j' q 1 + cellPres ny i' j' q 2 + cellPres ny i' j' q 3) / 3)
      (fun i' j' => -((cellPres ny i' j' q 0 + cellPres ny i' j' q 1 + cellPres ny i' j' q 2 + cellPres ny i' j' q 3) / 3))
      (2 * ny)
    rw [Finset.sum_congr rfl fun i' hi' => Finset.sum_congr rfl fun j' hj' => by
      rw [cellVel_upright (Finset.mem_range.1 hi') (Finset.mem_range.1 hj') (by omega) hj, if_pos rfl,
        cellVel_upright (Finset.mem_range.1 hi') (Finset.mem_range.1 hj') (by omega) hj, if_neg one_ne_zero,
        (flux_upright _ _ _).2, (flux_zero _).2, zero_div, add_zero, mul_sub, sub_eq_add_neg, ← neg_mul], this] at e
    rw [div_eq_zero_iff, or_iff_left (by positivity)] at e
    simp only [cellPres, cons_val_zero, cons_val_one, cons_val, add_assoc, Nat.reduceAdd] at e
    linarith

end Cavity8

end Pansfem
