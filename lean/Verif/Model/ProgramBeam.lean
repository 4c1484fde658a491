/-
/repo/sample/beam/sample_beam_linear.cpp.  The mesh, the boundary conditions and the loads come from files; the material
constants and the sizes of the section are literals there.  They are inputs here.
-/
import Verif.Model.ProgramMain
import Verif.Model.Shell

noncomputable section

namespace Pansfem

/-- The element routine as sample_beam_linear.cpp:45 calls it, with the directions `v1`, `v2` of
sample_beam_linear.cpp:30-31: the same two vectors at every node. -/
def beamCore (E V a b : ℝ) (X : Matrix (Fin 2) (Fin 3) ℝ) :
    Option (Matrix (Fin 2 × Fin 6) (Fin 2 × Fin 6) ℝ) :=
  beamStiffness SF.line2 IC.gauss1Line IC.gauss4Square X (Matrix.of fun _ => ![0, 1, 0]) (Matrix.of fun _ => ![0, 0, 1])
    E V a b

/-- The calls of sample_beam_linear.cpp:42-48. -/
def beamCalls (x : List (Vec ℝ)) (elements : List (List ℕ)) (q : List ((ℕ × ℕ) × ℝ)) (E V a b : ℝ) :
    Option (List (AsmCall ℝ)) := do
  let ks ← matrixCalls 6 (beamCore E V a b) [0, 1, 2, 3, 4, 5] x elements
  return ks ++ [.nodal q]

/-- `main` up to the displacements and rotations `ur` (sample_beam_linear.cpp:33-52). -/
def beamStatic (x : List (Vec ℝ)) (elements : List (List ℕ)) (bc q : List ((ℕ × ℕ) × ℝ)) (E V a b : ℝ) :
    Option (List (Vec ℝ) × Bool) := do
  staticAnalysis useScalingCG (zeroField x.length 6) (freeTable x.length 6) bc (← beamCalls x elements q E V a b)

end Pansfem
