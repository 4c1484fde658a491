/-
The neighbours of the elements and their weights; the centres of the elements of a square mesh.
-/
import Verif.Spec.ProgramOptimize
import Verif.Lemmas.SquareHeld4
import Verif.Props.C40_General
import Mathlib.Algebra.BigOperators.Fin

noncomputable section

namespace Pansfem

/-! ### Neighbours -/

section
variable {R : ℝ} {cg : List (Fin 2 → ℝ)}

theorem planeDistance_self (c : Fin 2 → ℝ) : planeDistance c c = 0 := by simp [planeDistance]

theorem planeDistance_nonneg (a b : Fin 2 → ℝ) : 0 ≤ planeDistance a b := Real.sqrt_nonneg _

theorem planeDistance_comm (a b : Fin 2 → ℝ) : planeDistance a b = planeDistance b a := by
  unfold planeDistance
  congr 1
  exact Finset.sum_congr rfl fun d _ => by ring

/-- The weight of a centre at the distance `d`. -/
theorem hat_eq (hR : 0 < R) (d : ℝ) : (if d ≤ R then (R - d) / R else 0) = max 0 (1 - d / R) := by
  split_ifs with h
  · rw [max_eq_right, sub_div, div_self hR.ne']
    rw [sub_nonneg, div_le_one hR]
    exact h
  · rw [max_eq_left]
    push Not at h
    rw [sub_nonpos, one_le_div hR]
    exact h.le

theorem zip_fst_snd (l : List (ℕ × ℝ)) : (l.map Prod.fst).zip (l.map Prod.snd) = l := by
  induction l with
  | nil => rfl
  | cons a l ih => simp [ih]

theorem table_rowPairs {i : ℕ} (hi : i < cg.length) :
    rowPairs (cg.map fun c => (neighbourRow R cg c).map Prod.fst) (cg.map fun c => (neighbourRow R cg c).map Prod.snd) i =
      neighbourRow R cg cg[i] := by
  unfold rowPairs
  simp only [List.getElem?_map, List.getElem?_eq_getElem hi, Option.map_some, Option.getD_some]
  exact zip_fst_snd _

theorem mem_neighbourRow {c : Fin 2 → ℝ} {q : ℕ × ℝ} :
    q ∈ neighbourRow R cg c ↔ ∃ h : q.1 < cg.length, planeDistance c cg[q.1] ≤ R ∧
      q.2 = (R - planeDistance c cg[q.1]) / R := by
  unfold neighbourRow
  rw [List.mem_filterMap]
  constructor
  · rintro ⟨⟨a, k⟩, hk, he⟩
    obtain ⟨h1, h2⟩ := List.mk_mem_zipIdx_iff_getElem?.1 hk |> List.getElem?_eq_some_iff.1
    dsimp only at he
    split_ifs at he with hd
    obtain rfl := Option.some.inj he
    subst h2
    exact ⟨h1, hd, rfl⟩
  · rintro ⟨h1, h2, h3⟩
    refine ⟨(cg[q.1], q.1), List.mk_mem_zipIdx_iff_getElem?.2 (List.getElem?_eq_getElem h1), ?_⟩
    rw [if_pos h2, ← h3]

/-- The entry of `k` in the row of a centre. -/
theorem neighbourRow_weight (hR : 0 < R) (c : Fin 2 → ℝ) (k : ℕ) (hk : k < cg.length) :
    ((neighbourRow R cg c).map fun p => if p.1 = k then p.2 else 0).sum = max 0 (1 - planeDistance c cg[k] / R) := by
  unfold neighbourRow
  have key : ∀ (l : List (Fin 2 → ℝ)) (j : ℕ), ((((l.zipIdx j).filterMap fun q =>
      if planeDistance c q.1 ≤ R then some (q.2, (R - planeDistance c q.1) / R) else none)).map
        fun p : ℕ × ℝ => if p.1 = k then p.2 else 0).sum =
      if h : j ≤ k ∧ k < j + l.length then max 0 (1 - planeDistance c (l[k - j]'(by omega)) / R) else 0 := by
    intro l
    induction l with
    | nil => intro j; simp
    | cons a l ih =>
      intro j
      rw [List.zipIdx_cons, List.filterMap_cons]
      have hh := hat_eq hR (planeDistance c a)
      by_cases hd : planeDistance c a ≤ R
      · simp only [if_pos hd] at hh ⊢
        rw [List.map_cons, List.sum_cons, ih (j + 1)]
        by_cases hj : j = k
        · subst hj
          rw [if_pos rfl, dif_neg (by omega), dif_pos ⟨le_rfl, by simp⟩, hh]
          simp
        · rw [if_neg hj, zero_add]
          by_cases hl : j + 1 ≤ k ∧ k < j + 1 + l.length
          · rw [dif_pos hl, dif_pos ⟨by omega, by simp; omega⟩]
            have : k - j = (k - (j + 1)) + 1 := by omega
            simp only [this, List.getElem_cons_succ]
          · rw [dif_neg hl, dif_neg (by simp; omega)]
      · simp only [if_neg hd] at hh ⊢
        rw [ih (j + 1)]
        by_cases hj : j = k
        · subst hj
          rw [dif_neg (by omega), dif_pos ⟨le_rfl, by simp⟩]
          simpa using hh
        · by_cases hl : j + 1 ≤ k ∧ k < j + 1 + l.length
          · rw [dif_pos hl, dif_pos ⟨by omega, by simp; omega⟩]
            have : k - j = (k - (j + 1)) + 1 := by omega
            simp only [this, List.getElem_cons_succ]
          · rw [dif_neg hl, dif_neg (by simp; omega)]
  rw [key cg 0, dif_pos ⟨by omega, by omega⟩]
  simp

/-- The table of a positive radius: the weights are those of a cone with the radius, and the filters accept it. -/
theorem neighbourTable_ok (hR : 0 < R) : ∃ nb w, neighbourTable R cg = some (nb, w) ∧ nb.length = cg.length ∧
    WeightsOk cg.length nb w ∧ ∀ i (hi : i < cg.length) k (hk : k < cg.length),
      weightOf nb w i k = max 0 (1 - planeDistance cg[i] cg[k] / R) := by
  refine ⟨_, _, by rw [neighbourTable, if_neg hR.ne'], by simp, ⟨⟨by simp, by simp, ?_, ?_⟩, ?_, ?_⟩, ?_⟩
  · intro i hi
    simp only [List.getElem?_map, List.getElem?_eq_getElem hi, Option.map_some, Option.getD_some, List.length_map, le_refl]
  · intro i hi k hk
    simp only [List.getElem?_map, List.getElem?_eq_getElem hi, Option.map_some, Option.getD_some] at hk
    obtain ⟨q, hq, rfl⟩ := List.mem_map.1 hk
    exact (mem_neighbourRow.1 hq).1
  · intro row hrow a ha
    obtain ⟨c, -, rfl⟩ := List.mem_map.1 hrow
    obtain ⟨q, hq, rfl⟩ := List.mem_map.1 ha
    obtain ⟨h1, h2, h3⟩ := mem_neighbourRow.1 hq
    rw [h3]
    exact div_nonneg (by linarith) hR.le
  · intro i hi
    unfold weightSum
    rw [table_rowPairs hi]
    refine lt_of_lt_of_le zero_lt_one (List.single_le_sum ?_ _ (List.mem_map.2 ⟨(i, 1), ?_, rfl⟩))
    · intro a ha
      obtain ⟨q, hq, rfl⟩ := List.mem_map.1 ha
      obtain ⟨h1, h2, h3⟩ := mem_neighbourRow.1 hq
      rw [h3]
      exact div_nonneg (by linarith) hR.le
    · rw [mem_neighbourRow]
      refine ⟨hi, ?_, ?_⟩
      · rw [planeDistance_self]; exact hR.le
      · rw [planeDistance_self, sub_zero, div_self hR.ne']
  · intro i hi k hk
    unfold weightOf
    rw [table_rowPairs hi, neighbourRow_weight hR _ k hk]

end

/-! ### Centres -/

theorem squareCentres (m : SquareMesh ℝ) (hx : 0 < m.nx) (hy : 0 < m.ny) :
    elementCentres (asVectors (squareNodes4 m)) (squareCells4 m) =
      some (grid m.nx m.ny fun i j => ![m.x * ((i + 1 / 2 : ℝ) / m.nx), m.y * ((j + 1 / 2 : ℝ) / m.ny)]) := by
  have hp : (asVectors (squareNodes4 m)).mapM planePoint =
      some ((squareNodes4 m).map fun p => (![p.1, p.2] : Fin 2 → ℝ)) := by
    unfold asVectors
    rw [List.mapM_map]
    refine mapM_some fun p _ => ?_
    simp only [Function.comp_apply, planePoint, Vec.size, List.length_cons, List.length_nil]
    rw [if_pos trivial]
    congr 1
    funext d
    match d with
    | 0 => rfl
    | 1 => rfl
  have hx' : (m.nx : ℝ) ≠ 0 := Nat.cast_ne_zero.2 hx.ne'
  have hy' : (m.ny : ℝ) ≠ 0 := Nat.cast_ne_zero.2 hy.ne'
  unfold elementCentres
  rw [hp]
  simp only [Option.bind_eq_bind, Option.bind_some]
  unfold squareCells4
  rw [List.mapM_map, show (grid m.nx m.ny fun i j => (![m.x * ((i + 1 / 2 : ℝ) / m.nx), m.y * ((j + 1 / 2 : ℝ) / m.ny)] :
    Fin 2 → ℝ)) = (grid m.nx m.ny Prod.mk).map fun c : ℕ × ℕ => ![m.x * ((c.1 + 1 / 2 : ℝ) / m.nx),
      m.y * ((c.2 + 1 / 2 : ℝ) / m.ny)] by rw [map_grid]]
  refine mapM_some fun c hc => ?_
  obtain ⟨i, hi, j, hj, rfl⟩ := mem_grid.1 hc
  have at' : ∀ i ≤ m.nx, ∀ j ≤ m.ny, ((squareNodes4 m).map fun p => (![p.1, p.2] : Fin 2 → ℝ))[squareNode m.ny i j]? =
      some ![m.x * ((i : ℝ) / m.nx), m.y * ((j : ℝ) / m.ny)] := by
    intro i hi j hj
    rw [List.getElem?_map, squareNodes4_at m hi hj]
    rfl
  have h0 := at' 0 (by omega) 0 (by omega)
  rw [show squareNode m.ny 0 0 = 0 by simp [squareNode]] at h0
  have hav : elementAverage ℝ (0 : Fin 2 → ℝ) ((squareNodes4 m).map fun p => (![p.1, p.2] : Fin 2 → ℝ))
      (quad (squareNode m.ny) (· + 1) (i, j)) = some (((4 : ℕ) : ℝ)⁻¹ • (0 + ![m.x * ((i : ℝ) / m.nx), m.y * ((j : ℝ) / m.ny)] +
        ![m.x * (((i + 1 : ℕ) : ℝ) / m.nx), m.y * ((j : ℝ) / m.ny)] +
        ![m.x * (((i + 1 : ℕ) : ℝ) / m.nx), m.y * (((j + 1 : ℕ) : ℝ) / m.ny)] +
        ![m.x * ((i : ℝ) / m.nx), m.y * (((j + 1 : ℕ) : ℝ) / m.ny)])) := by
    unfold elementAverage
    have hl : (quad (squareNode m.ny) (· + 1) (i, j)).length = 4 := rfl
    rw [hl]
    simp only [quad, List.foldlM_cons, List.foldlM_nil, Option.pure_def, at' i hi.le j hj.le, at' (i + 1) hi j hj.le,
      at' (i + 1) hi (j + 1) hj, at' i hi.le (j + 1) hj, Option.bind_eq_bind, Option.bind_some, divCount]
    rw [if_neg (by norm_num)]
  simp only [Function.comp_apply, centerOfGravity, h0, Option.bind_eq_bind, Option.bind_some]
  rw [hav]
  congr 1
  funext d
  match d with
  | 0 =>
    simp
    field_simp
    ring
  | 1 =>
    simp
    field_simp
    ring

end Pansfem
