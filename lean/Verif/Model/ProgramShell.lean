/-
/repo/sample/shell/sample_shell_linear.cpp.  The mesh, the predicates of the supports and of the loads, the value of the
loads, the material constants and the thickness are literals there.  They are inputs here; `shellProgram` is the program
with its literals.
-/
import Verif.Model.ProgramSquare
import Verif.Model.Shell

noncomputable section

namespace Pansfem

/-- The element routine as sample_shell_linear.cpp:54 calls it. -/
def shellCore (E V t : ℝ) (X : Matrix (Fin 4) (Fin 3) ℝ) : Option (Matrix (Fin 4 × Fin 6) (Fin 4 × Fin 6) ℝ) :=
  shellStiffness2 SF.square4 IC.gauss1Square IC.gauss2Line X E V t

/-- The calls of sample_shell_linear.cpp:51-57. -/
def shellCalls (x : List (Vec ℝ)) (elements : List (List ℕ)) (q : List ((ℕ × ℕ) × ℝ)) (E V t : ℝ) :
    Option (List (AsmCall ℝ)) := do
  let ks ← matrixCalls 6 (shellCore E V t) [0, 1, 2, 3, 4, 5] x elements
  return ks ++ [.nodal q]

/-- `main` from the mesh to the displacements and rotations `ur` (sample_shell_linear.cpp:42-61). -/
def shellStatic (x : List (Vec ℝ)) (elements : List (List ℕ)) (bc q : List ((ℕ × ℕ) × ℝ)) (E V t : ℝ) :
    Option (List (Vec ℝ) × Bool) := do
  staticAnalysis useCG (zeroField x.length 6) (freeTable x.length 6) bc (← shellCalls x elements q E V t)

/-- The nodes with a third coordinate (sample_shell_linear.cpp:22-24). -/
def flatNodes (l : List (ℝ × ℝ)) : List (Vec ℝ) := l.map fun r => ⟨[r.1, r.2, 0]⟩

/-- Mesh, supports and loads (sample_shell_linear.cpp:20-40): nodes, elements, `ufixed`, `qfixed`. -/
def shellProblem (m : SquareMesh ℝ) (held loaded : ℝ × ℝ → Bool) (value : ℝ) :
    Option (List (Vec ℝ) × List (List ℕ) × List ((ℕ × ℕ) × ℝ) × List ((ℕ × ℕ) × ℝ)) := do
  let x ← m.nodes
  let elements ← SquareMesh.elements m.nx m.ny
  let ufixed ← m.fixedlist [0, 1, 2, 3, 4, 5] held
  let qfixed ← m.fixedlist [2] loaded
  return (flatNodes x, elements, fixedDofs ufixed, setLoads value (fixedDofs qfixed))

/-- `SquareMesh<double>(15.0, 5.0, 3, 1)` (sample_shell_linear.cpp:20). -/
def shellMesh : SquareMesh ℝ := ⟨15, 5, 3, 1⟩

/-- The predicate of the loads with the `abs` of `double` (sample_shell_linear.cpp:32-37). -/
def rightEnd (r : ℝ × ℝ) : Bool := decide (|r.1 - 15| < 1 / 10 ^ 5)

/-- `main` (sample_shell_linear.cpp:19-61) with the `abs` of `double`. -/
def shellProgram : Option (List (Vec ℝ) × Bool) := do
  let (x, elements, ufixed, qfixed) ← shellProblem shellMesh leftSide rightEnd (-10)
  shellStatic x elements ufixed qfixed 210000 (3 / 10) 1

end Pansfem
