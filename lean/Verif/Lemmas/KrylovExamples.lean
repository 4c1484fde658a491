/-
Every matrix is held by some well formed `CSR`; used to show that hypotheses are satisfiable.
-/
import Verif.Lemmas.KrylovLoops

namespace Pansfem

variable {n : ℕ}

/-- The object storing every entry of `K`. -/
def fullCSR (K : Matrix (Fin n) (Fin n) ℝ) : CSR ℝ :=
  csrOf n (List.ofFn fun i => List.ofFn fun j : Fin n => ((j : ℕ), K i j))

theorem lookup_ofFn (g : Fin n → ℝ) (j : Fin n) :
    (List.ofFn fun j : Fin n => ((j : ℕ), g j)).lookup (j : ℕ) = some (g j) := by
  rw [lookup_eq_some_iff]
  · rw [List.mem_ofFn]; exact ⟨j, rfl⟩
  · rw [List.map_ofFn, List.nodup_ofFn]
    intro a b hab; exact Fin.ext hab

theorem fullCSR_isCSR (K : Matrix (Fin n) (Fin n) ℝ) : IsCSR n (fullCSR K) K := by
  have hs : ∀ row ∈ (List.ofFn fun i => List.ofFn fun j : Fin n => ((j : ℕ), K i j)),
      RowSorted row := by
    intro row hrow
    obtain ⟨i, rfl⟩ := List.mem_ofFn.1 hrow
    unfold RowSorted
    rw [List.pairwise_ofFn]
    intro a b hab; exact hab
  refine ⟨⟨_, rfl, hs⟩, ?_, by simp [fullCSR, csrOf], rfl, ?_⟩
  · intro j hj
    simp only [fullCSR, csrOf, List.mem_map, List.mem_flatten] at hj
    obtain ⟨⟨c, v⟩, ⟨row, hrow, hmem⟩, rfl⟩ := hj
    obtain ⟨i, rfl⟩ := List.mem_ofFn.1 hrow
    obtain ⟨j, hj⟩ := List.mem_ofFn.1 hmem
    have := congrArg Prod.fst hj
    simp only at this
    simp [fullCSR, csrOf, ← this]
  · intro i j
    unfold fullCSR
    rw [csr_get n _ i j (by simp) (hs _ (List.getElem_mem _))]
    congr 1
    simp only [List.getElem_ofFn]
    rw [lookup_ofFn]
    rfl

end Pansfem
