/-
The skeleton shared by the element routines of /repo/src/FEM/Equation: gathering of nodal values, the
table from nodes to local degrees of freedom, the loop over integration points.

Simplifications.
* Element matrices are Mathlib matrices here: the operations of the `Matrix` class on them were
  refined to entries in `Verif/Props/C01_Dense.lean` and `C02_Determinant.lean`.  `flatM` and `flatV`
  lay the result out in the storage of the `Matrix` and `Vector` classes.  For the linear routines the
  step is proved (`Verif/Model/ElementStorage.lean`, C137; `ElementStorageScalar`, C140).
* A local degree of freedom `k*i + j` (node `i`, component `j < k`) is the pair `(i, j)`.
* Scalar factors are collected in front of a matrix product (the code multiplies from the right).
* A division by zero, also in `Inverse()`, and a failed `assert` are `none`.
-/
import Verif.Model.Assembly
import Verif.Model.Shape
import Mathlib.LinearAlgebra.Matrix.NonsingularInverse
import Mathlib.Logic.Equiv.Fin.Basic
import Mathlib.Data.Fintype.Prod
import Mathlib.Data.Fintype.Sum
import Mathlib.Data.List.FinRange

noncomputable section

namespace Pansfem

variable {K : Type}

/-- All values of a finite family, if all are defined
(the nested loops that fill a matrix, for example src/FEM/Equation/PlaneStrain.h:32-35). -/
def allSome {n : ℕ} {α : Type} (f : Fin n → Option α) : Option (Fin n → α) :=
  if h : ∀ i, (f i).isSome then some fun i => (f i).get (h i) else none

/-- The loop `X(i, k) = _x[_element[i]](k)` (src/FEM/Equation/PlaneStrain.h:31-35 and its repetitions:
`X`, `U`, `Xu`, `Xp`, `u`, `ubar`).  `none` unless the element has the number of nodes of the shape
functions: with another number the product `dNdr*X` fails its assertion. -/
def gather (x : List (Vec K)) (element : List ℕ) (n d : ℕ) : Option (Matrix (Fin n) (Fin d) K) :=
  if element.length = n then
    allSome fun i : Fin n => allSome fun k : Fin d => do nodal x (← element[(i : ℕ)]?) k
  else none

/-- `_nodetoelement` of the routines with `k` interleaved components
(src/FEM/Equation/PlaneStrain.h:22-29, Solid.h:22-30, HeatTransfer.h:21-27, Beam.h:22-33,
Shell.h:22-32): local number `k*i + j` for component `j` of node `i`. -/
def interleaved (k n : ℕ) (doulist : List ℕ) : Option (List (List (ℕ × ℕ))) :=
  if doulist.length = k then
    some ((List.range n).map fun i => doulist.mapIdx fun j dou => (dou, k * i + j))
  else none

/-- `_nodetoelementu` and `_nodetoelementp` of the routines with blocks for the two velocities and the
pressure (src/FEM/Equation/Stokes.h:22-36, NavierStokes.h:27-42): numbers `i`, `m + i` and
`2*m + i`. -/
def blocked (m n : ℕ) (doulist : List ℕ) :
    Option (List (List (ℕ × ℕ)) × List (List (ℕ × ℕ))) :=
  match doulist with
  | [du, dv, dp] => some ((List.range m).map fun i => [(du, i), (dv, m + i)],
      (List.range n).map fun i => [(dp, 2 * m + i)])
  | _ => none

/-- `_nodetoelement` of the decoupled routines (src/FEM/Equation/NavierStokes.h:540-549): numbers `i`
and `m + i`. -/
def blocked2 (m : ℕ) (doulist : List ℕ) : Option (List (List (ℕ × ℕ))) :=
  match doulist with
  | [du, dv] => some ((List.range m).map fun i => [(du, i), (dv, m + i)])
  | _ => none

/-- The storage of an element matrix (src/LinearAlgebra/Models/Matrix.h:86-88): row `k*i + a`,
column `k*j + b`. -/
def flatM {n k : ℕ} (A : Matrix (Fin n × Fin k) (Fin n × Fin k) K) : Mat K :=
  ⟨n * k, n * k, List.ofFn fun p : Fin ((n * k) * (n * k)) =>
    A (finProdFinEquiv.symm (finProdFinEquiv.symm p).1) (finProdFinEquiv.symm (finProdFinEquiv.symm p).2)⟩

/-- The storage of an element vector (src/LinearAlgebra/Models/Vector.h:78-79). -/
def flatV {n k : ℕ} (f : Fin n × Fin k → K) : Vec K :=
  ⟨List.ofFn fun p : Fin (n * k) => f (finProdFinEquiv.symm p)⟩

/-- A routine returning an element matrix, as called by the user: table of dofs, coordinates, then
the numerical part (src/FEM/Equation/PlaneStrain.h:21-58 and every other routine of that shape). -/
def elemM {n d : ℕ} (k : ℕ) (core : Matrix (Fin n) (Fin d) K →
      Option (Matrix (Fin n × Fin k) (Fin n × Fin k) K))
    (element doulist : List ℕ) (x : List (Vec K)) : Option (Mat K × List (List (ℕ × ℕ))) := do
  let nte ← interleaved k element.length doulist
  let X ← gather x element n d
  return (flatM (← core X), nte)

variable [Field K]

/-- Division; `none` for a zero divisor (for example src/FEM/Equation/PlaneStrain.h:40). -/
def div? [DecidableEq K] (a b : K) : Option K := if b = 0 then none else some (a / b)

variable {d n : ℕ}

/-- `dNdr*X` (src/FEM/Equation/PlaneStrain.h:45). -/
def jac (sf : SF K d n) (X : Matrix (Fin n) (Fin d) K) (r : Fin d → K) : Matrix (Fin d) (Fin d) K :=
  sf.dNdr r * X

/-- `Inverse()` (src/LinearAlgebra/Models/Matrix.h:346-361); it divides by the determinant. -/
def inv? [DecidableEq K] {ι : Type} [Fintype ι] [DecidableEq ι] (A : Matrix ι ι K) :
    Option (Matrix ι ι K) :=
  if A.det = 0 then none else some A⁻¹

/-- `dXdr.Inverse()*dNdr` (src/FEM/Equation/PlaneStrain.h:47). -/
def grad? [DecidableEq K] (sf : SF K d n) (X : Matrix (Fin n) (Fin d) K) (r : Fin d → K) :
    Option (Matrix (Fin d) (Fin n) K) :=
  (inv? (jac sf X r)).map (· * sf.dNdr r)

variable {M : Type} [AddCommMonoid M]

/-- A loop `for g { acc += term g }` starting from zero; it stops at the first failing term
(for example src/FEM/Equation/PlaneStrain.h:42-56). -/
def gauss (N : ℕ) (term : Fin N → Option M) : Option M :=
  (List.finRange N).foldlM (fun acc g => do return acc + (← term g)) 0

variable [Module K M]

/-- The loop over the integration points of a plane region with the gradient of the shape functions
(src/FEM/Equation/PlaneStrain.h:43-57): every term carries the factor `J*Weights[g][0]*Weights[g][1]`. -/
def loop2 [DecidableEq K] (sf : SF K 2 n) (ic : IC K 2) (X : Matrix (Fin n) (Fin 2) K)
    (f : (Fin 2 → K) → Matrix (Fin 2) (Fin n) K → Option M) : Option M :=
  gauss ic.N fun g => do
    let dNdX ← grad? sf X (ic.points g)
    return ((jac sf X (ic.points g)).det * ic.weights g 0 * ic.weights g 1) • (← f (ic.points g) dNdX)

/-- The same loop where the gradient is not computed (src/FEM/Equation/PlaneStrain.h:402-415). -/
def loop2J (sf : SF K 2 n) (ic : IC K 2) (X : Matrix (Fin n) (Fin 2) K) (f : (Fin 2 → K) → M) :
    Option M :=
  gauss ic.N fun g =>
    some (((jac sf X (ic.points g)).det * ic.weights g 0 * ic.weights g 1) • f (ic.points g))

/-- The loop over the integration points of a solid (src/FEM/Equation/Solid.h:46-63). -/
def loop3 [DecidableEq K] (sf : SF K 3 n) (ic : IC K 3) (X : Matrix (Fin n) (Fin 3) K)
    (f : (Fin 3 → K) → Matrix (Fin 3) (Fin n) K → Option M) : Option M :=
  gauss ic.N fun g => do
    let dNdX ← grad? sf X (ic.points g)
    return ((jac sf X (ic.points g)).det * ic.weights g 0 * ic.weights g 1 * ic.weights g 2) •
      (← f (ic.points g) dNdX)

/-- `Area` (src/FEM/Equation/General.h:21-41). -/
def area (sf : SF K 2 n) (ic : IC K 2) (X : Matrix (Fin n) (Fin 2) K) : K :=
  ∑ g, (jac sf X (ic.points g)).det * ic.weights g 0 * ic.weights g 1

/-- `Volume` (src/FEM/Equation/General.h:46-66). -/
def volume (sf : SF K 3 n) (ic : IC K 3) (X : Matrix (Fin n) (Fin 3) K) : K :=
  ∑ g, (jac sf X (ic.points g)).det * ic.weights g 0 * ic.weights g 1 * ic.weights g 2

/-- The line element `dl = sqrt((dXdr*dXdr.Transpose())(0, 0))`
(src/FEM/Equation/PlaneStrain.h:441-442). -/
def lineElement {n d : ℕ} (sf : SF ℝ 1 n) (X : Matrix (Fin n) (Fin d) ℝ)
    (r : Fin 1 → ℝ) : ℝ :=
  Real.sqrt (((sf.dNdr r * X) * (sf.dNdr r * X).transpose) 0 0)

/-- The loop over the integration points of a line (src/FEM/Equation/PlaneStrain.h:437-451). -/
def loop1 {n d : ℕ} {M : Type} [AddCommMonoid M] [Module ℝ M] (sf : SF ℝ 1 n)
    (ic : IC ℝ 1) (X : Matrix (Fin n) (Fin d) ℝ) (f : (Fin 1 → ℝ) → M) : Option M :=
  gauss ic.N fun g => some ((lineElement sf X (ic.points g) * ic.weights g 0) • f (ic.points g))

end Pansfem
