/-
/repo/sample/solid/sample_linear.cpp.  The mesh, the boundary conditions and the loads come from files and the
material constants are literals there; they are inputs here.
-/
import Verif.Model.ProgramMain

noncomputable section

namespace Pansfem

/-- The calls of sample_linear.cpp:39-45. -/
def solidCalls (x : List (Vec ℝ)) (elements : List (List ℕ)) (q : List ((ℕ × ℕ) × ℝ)) (E V : ℝ) :
    Option (List (AsmCall ℝ)) := do
  let ks ← matrixCalls 3 (fun X => solidStiffness SF.cubic8 IC.gauss8Cubic X E V) [0, 1, 2] x elements
  return ks ++ [.nodal q]

/-- `main` up to the displacements (sample_linear.cpp:30-49). -/
def solidStatic (x : List (Vec ℝ)) (elements : List (List ℕ)) (bc q : List ((ℕ × ℕ) × ℝ)) (E V : ℝ) :
    Option (List (Vec ℝ) × Bool) := do
  staticAnalysis useScalingCG (zeroField x.length 3) (freeTable x.length 3) bc (← solidCalls x elements q E V)

end Pansfem
