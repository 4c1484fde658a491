/-
C113: a case of a pass of Newton's method for solids, the column of C114 in its first pass.
-/
import Verif.Props.C113_Solid
import Verif.Props.C114_FirstPass

namespace Pansfem

/-- The first pass for the column is a step of Newton's method, up to the tolerance of the solver. -/
example {D : Matrix (Fin 6) (Fin 6) ℝ} (hD : solidC (210000 : ℝ) (3 / 10) = some D) :
    ∃ (u u' : List (Vec ℝ)) (L : ℕ → ℕ → ℝ),
      (∀ n d, HasDerivAt (fun s : ℝ => solidForce columnNodes columnElements [((10, 2), 100)] D
        (fun n d => valOf u n d + s * (valOf u' n d - valOf u n d)) n d) (L n d) 0) ∧
      dofNorm (freeDofs (freeTable 12 3) cubeBottom)
          (fun n d => solidForce columnNodes columnElements [((10, 2), 100)] D (valOf u) n d + L n d) <
        1 / 10 ^ 10 * dofNorm (freeDofs (freeTable 12 3) cubeBottom)
          (solidForce columnNodes columnElements [((10, 2), 100)] D (valOf u)) := by
  have hl : loadNorm [((10, 2), (100 : ℝ))] = 100 := by
    simp only [loadNorm, List.map_cons, List.map_nil, List.sum_cons, List.sum_nil, add_zero]
    exact Real.sqrt_sq (by norm_num)
  obtain ⟨w, t₁, u', calls, h1, h2, -⟩ := C114_first_pass column_bricks (E := 210000) (V := 3 / 10) (bc := cubeBottom)
    (q := [((10, 2), 100)]) (by norm_num) (by norm_num) (by norm_num) column_bottom
    (by simp [columnNodes, cubeNodes]) column_connected column_supported column_used (by simp [columnNodes, cubeNodes])
    (by rw [hl]; norm_num) (by
      rw [hl, outNorm, dofNorm_sq]
      show _ ≤ ((freeDofs (freeTable 12 3) cubeBottom).map fun p : ℕ × ℕ => _).sum
      rw [column_free]
      simp only [loadAt_nodal, List.map_cons, List.map_nil, List.sum_cons, List.sum_nil, add_zero]
      simp [List.range_succ]
      norm_num)
  have hw : ∀ n d, valOf w n d = 0 := by
    intro n d
    show (nodal w n d).getD 0 = 0
    rw [((C21_setDirichlet _ w _ t₁ cubeBottom h1).2.2 n d).2]
    cases hv : lastValue cubeBottom n d with
    | none => exact valOf_zeroField _ _ n d
    | some y =>
      obtain ⟨p, hp, rfl⟩ := Option.map_eq_some_iff.1 hv
      simpa using (column_bottom p (List.mem_of_find?_eq_some hp |> List.mem_reverse.1)).1
  obtain ⟨L, h3, h4⟩ := C113_solid_newton (x := columnNodes) useScalingCG_certifies rfl h1 (setDirichlet_same h1)
    (fun n d _ => hw n d) hD [((10, 2), 100)] (fun p hp => by
      rw [List.mem_singleton.1 hp]
      exact ⟨rfl, rfl⟩) h2
  exact ⟨w, u', L, h3, h4⟩

end Pansfem
