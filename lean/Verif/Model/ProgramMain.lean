/-
Two sample programs in full: /repo/sample/heattransfer/sample_heattransfer_static.cpp and
/repo/sample/planestrain/sample_planestrain.cpp.

The mesh, the boundary conditions, loads and material constants are literals or come from a mesher there; they
are inputs here.
-/
import Verif.Model.Program
import Verif.Model.Elastic

noncomputable section

namespace Pansfem

variable {K : Type} {n d : ℕ}

/-- `std::vector<Vector<double> >(x.size(), Vector<double>(k))` (sample_planestrain.cpp:24). -/
def zeroField (n k : ℕ) : List (Vec ℝ) := List.replicate n ⟨List.replicate k 0⟩

/-- `std::vector<std::vector<int> >(x.size(), std::vector<int>(k, 0))` (sample_planestrain.cpp:26). -/
def freeTable (n k : ℕ) : List (List ℤ) := List.replicate n (List.replicate k 0)

/-- A routine with one dof per node (src/FEM/Equation/HeatTransfer.h:21-27) as one with blocks of one row. -/
def scalarCore (core : Matrix (Fin n) (Fin d) K → Option (Matrix (Fin n) (Fin n) K))
    (X : Matrix (Fin n) (Fin d) K) : Option (Matrix (Fin n × Fin 1) (Fin n × Fin 1) K) :=
  (core X).map fun A => A.submatrix Prod.fst Prod.fst

/-- A routine returning an element vector, as called by the user
(src/FEM/Equation/PlaneStrain.h:421-452, 503-534). -/
def elemV (k : ℕ) (core : Matrix (Fin n) (Fin d) K → Option (Fin n × Fin k → K))
    (element doulist : List ℕ) (x : List (Vec K)) : Option (Vec K × List (List (ℕ × ℕ))) := do
  let nte ← interleaved k element.length doulist
  let X ← gather x element n d
  return (flatV (← core X), nte)

/-- The element loop `Ke`, `Assembling(K, F, u, Ke, …)` (sample_heattransfer_static.cpp:48-53,
sample_planestrain.cpp:37-41). -/
def matrixCalls (k : ℕ) (core : Matrix (Fin n) (Fin d) K → Option (Matrix (Fin n × Fin k) (Fin n × Fin k) K))
    (doulist : List ℕ) (x : List (Vec K)) (elements : List (List ℕ)) : Option (List (AsmCall K)) :=
  elements.mapM fun e => do
    let (Ke, nte) ← elemM k core e doulist x
    return .matrix Ke nte e

/-- The loop `Fe`, `Assembling(F, Fe, …)` (sample_planestrain.cpp:42-47, 52-60). -/
def loadCalls (k : ℕ) (core : Matrix (Fin n) (Fin d) K → Option (Fin n × Fin k → K))
    (doulist : List ℕ) (x : List (Vec K)) (elements : List (List ℕ)) : Option (List (AsmCall K)) :=
  elements.mapM fun e => do
    let (Fe, nte) ← elemV k core e doulist x
    return .load Fe nte e

/-- The calls of sample_heattransfer_static.cpp:48-53. -/
def heatCalls (x : List (Vec ℝ)) (elements : List (List ℕ)) (alpha t : ℝ) : Option (List (AsmCall ℝ)) :=
  matrixCalls 1 (scalarCore fun X => heatTransfer SF.triangle3 IC.gauss1Triangle X alpha t) [0] x elements

/-- `main` (sample_heattransfer_static.cpp:38-57). -/
def heatStatic (x : List (Vec ℝ)) (elements : List (List ℕ)) (bc : List ((ℕ × ℕ) × ℝ)) (alpha t : ℝ) :
    Option (List (Vec ℝ) × Bool) := do
  staticAnalysis useCG (zeroField x.length 1) (freeTable x.length 1) bc (← heatCalls x elements alpha t)

/-- The calls of sample_planestrain.cpp:37-60.  The element vectors of the body force follow the element
matrices; in the program the two calls of an element follow each other. -/
def planeStrainCalls (x : List (Vec ℝ)) (elements edges : List (List ℕ)) (q : List ((ℕ × ℕ) × ℝ))
    (E V t : ℝ) (fb fs : (Fin 2 → ℝ) → Fin 2 → ℝ) : Option (List (AsmCall ℝ)) := do
  let ks ← matrixCalls 2 (fun X => planeStrainStiffness SF.triangle3 IC.gauss1Triangle X E V t) [0, 1] x elements
  let bs ← loadCalls 2 (fun X => planeBodyForce SF.triangle3 IC.gauss1Triangle X fb t) [0, 1] x elements
  let ss ← loadCalls 2 (fun X => planeSurfaceForce SF.line2 IC.gauss1Line X fs t) [0, 1] x edges
  return ks ++ bs ++ [.nodal q] ++ ss

/-- `main` up to the displacements (sample_planestrain.cpp:31-64). -/
def planeStrainStatic (x : List (Vec ℝ)) (elements edges : List (List ℕ)) (bc q : List ((ℕ × ℕ) × ℝ))
    (E V t : ℝ) (fb fs : (Fin 2 → ℝ) → Fin 2 → ℝ) : Option (List (Vec ℝ) × Bool) := do
  staticAnalysis useCG (zeroField x.length 2) (freeTable x.length 2) bc
    (← planeStrainCalls x elements edges q E V t fb fs)

end Pansfem
