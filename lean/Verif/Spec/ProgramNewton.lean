/-
What the Newton loops of the programs are supposed to compute.
-/
import Verif.Model.ProgramNewton
import Verif.Spec.ProgramDynamic

namespace Pansfem

/-- Norm of a list of nodal loads. -/
noncomputable def loadNorm (q : List ((ℕ × ℕ) × ℝ)) : ℝ := Real.sqrt (q.map fun p => p.2 ^ 2).sum

/-- The values that enter `Assembling` in a pass: those of the dofs that are not free if it is given the current
field, zero if it is given the increment. -/
def passBase (own : Bool) (t : List (List ℤ)) (bc : List ((ℕ × ℕ) × ℝ)) (u : ℕ → ℕ → ℝ) : ℕ → ℕ → ℝ :=
  if own then held t bc u else fun _ _ => 0

/-- Norm of the vector `R` of a pass over the free dofs. -/
noncomputable def passNorm (own : Bool) (t : List (List ℤ)) (bc : List ((ℕ × ℕ) × ℝ)) (calls : List (AsmCall ℝ))
    (u : ℕ → ℕ → ℝ) : ℝ :=
  dofNorm (freeDofs t bc) (residual calls (passBase own t bc u))

/-- Norm of the out-of-balance forces over the free dofs: the sum of all element vectors and loads. -/
noncomputable def outNorm (t : List (List ℤ)) (bc : List ((ℕ × ℕ) × ℝ)) (calls : List (AsmCall ℝ)) : ℝ :=
  dofNorm (freeDofs t bc) (loadAt calls)

end Pansfem
