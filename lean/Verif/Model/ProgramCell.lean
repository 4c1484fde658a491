/-
/repo/sample/homogenization/sample_homogenization.cpp.  Mesh, periodic pairs and constants come from files or are literals
there; they are inputs here, and so are the shape functions and the integration rule.  Files and console output are left
out.

The cell analysis of /repo/sample/optimize/sample_optimize_homogenization.cpp:49-107 is the same code without the check.
-/
import Verif.Model.ProgramVibration
import Verif.Model.General

noncomputable section

namespace Pansfem

variable {K : Type} {n k m : ℕ}

/-- The storage of a matrix with one row per local dof (src/LinearAlgebra/Models/Matrix.h:86-88). -/
def flatC (A : Matrix (Fin n × Fin k) (Fin m) K) : Mat K :=
  ⟨n * k, m, List.ofFn fun p : Fin ((n * k) * m) =>
    A (finProdFinEquiv.symm (finProdFinEquiv.symm p).1) (finProdFinEquiv.symm p).2⟩

/-- What one pass of the element loop makes: element matrix, table, nodes, and the matrix `Fes` with one column for each
macroscopic strain (sample_homogenization.cpp:51-66). -/
structure CellItem where
  toElem : ElemData ℝ
  Fes : Mat ℝ

/-- `PlaneStrainStiffness`, `HomogenizePlaneStrainBodyForce` for one element (sample_homogenization.cpp:51-53, 59-60).  Both
make the same table. -/
def cellItem (sf : SF ℝ 2 n) (ic : IC ℝ 2) (x : List (Vec ℝ)) (E V t : ℝ) (e : List ℕ) : Option CellItem := do
  let (Ke, nte) ← elemM 2 (fun X => planeStrainStiffness sf ic X E V t) e [0, 1] x
  let X ← gather x e n 2
  return ⟨⟨Ke, nte, e⟩, flatC (← homogenizeBodyForce sf ic X E V t)⟩

/-- The element loop for one right-hand side (sample_homogenization.cpp:55-57, 61-66): `Assembling(F, chi, Ke, …)`, column
`k` of `Fes`, `Assembling(F, Fe, …)`.  The program fills the matrix and the three right-hand sides in one loop. -/
def cellForce (t : List (List ℤ)) (chi : List (Vec ℝ)) (k : Fin 3) (items : List CellItem) (F : List ℝ) :
    Option (List ℝ) :=
  items.foldlM (fun F it => do
    let F ← asmFu chi it.toElem.Ke t it.toElem.nte it.toElem.element F
    let Fe ← Vec.ofMat (← it.Fes.block 0 (k : ℕ) it.toElem.Ke.row 1)
    asmFe Fe t it.toElem.nte it.toElem.element F) F

/-- `WeakSpring` for one element (sample_homogenization.cpp:70-72). -/
def cellSpring (alpha : ℝ) (e : List ℕ) : Option (ElemData ℝ) := do
  let (Ke, nte) ← weakSpring e [0, 1] alpha
  return ⟨Ke, nte, e⟩

/-- From the periodic pairs to matrix and right-hand sides (sample_homogenization.cpp:37-76). -/
def cellSystem (sf : SF ℝ 2 n) (ic : IC ℝ 2) (x : List (Vec ℝ)) (elements : List (List ℕ)) (pairs : List (ℕ × ℕ))
    (E V t alpha : ℝ) : Option ((List (List ℤ) × ℕ) × CSR ℝ × (Fin 3 → List ℝ)) := do
  let r ← setPeriodic (freeTable x.length 2) pairs
  let items ← elements.mapM (cellItem sf ic x E V t)
  let A ← asmMatrix r.1 (items.map CellItem.toElem) (LIL.new r.2 r.2)
  let F ← allSome fun k : Fin 3 => cellForce r.1 (zeroField x.length 2) k items (List.replicate r.2 0)
  let B ← asmMatrix r.1 (← elements.mapM (cellSpring alpha)) A
  return (r, (← CSR.ofLIL B).1, F)

/-- The matrix `CHI` of one element (src/FEM/Equation/Homogenization.h:70-74). -/
def cellCHI (chi : Fin 3 → List (Vec ℝ)) (e : List ℕ) (n : ℕ) : Option (Matrix (Fin n × Fin 2) (Fin 3) ℝ) := do
  let U ← allSome fun k => gather (chi k) e n 2
  return Matrix.of fun p k => U k p.1 p.2

/-- One pass of the loop of the homogenised values (sample_homogenization.cpp:89-90). -/
def cellValues (sf : SF ℝ 2 n) (ic : IC ℝ 2) (x : List (Vec ℝ)) (chi : Fin 3 → List (Vec ℝ)) (E V t : ℝ) (e : List ℕ) :
    Option (Matrix (Fin 3) (Fin 3) ℝ × Matrix (Fin 3) (Fin 3) ℝ) := do
  let X ← gather x e n 2
  let CHI ← cellCHI chi e n
  return (← homogenizeConstitutive sf ic X CHI E V t, ← homogenizeCheck sf ic X CHI t)

/-- What the program prints and exports: characteristic displacements, whether the solver reported convergence, `I/Volume`,
`CH/Volume` (sample_homogenization.cpp:78-92). -/
structure CellResult where
  chi : Fin 3 → List (Vec ℝ)
  conv : Fin 3 → Bool
  I : Matrix (Fin 3) (Fin 3) ℝ
  CH : Matrix (Fin 3) (Fin 3) ℝ

/-- `main` (sample_homogenization.cpp:37-92). -/
def homogenization (sf : SF ℝ 2 n) (ic : IC ℝ 2) (x : List (Vec ℝ)) (elements : List (List ℕ)) (pairs : List (ℕ × ℕ))
    (E V t alpha Volume : ℝ) : Option CellResult := do
  let (r, Kmod, F) ← cellSystem sf ic x elements pairs E V t alpha
  let result ← allSome fun k : Fin 3 => useScalingCG r.2 Kmod fun i => (F k)[(i : ℕ)]?.getD 0
  let chi ← allSome fun k : Fin 3 => disassembling (zeroField x.length 2) (List.ofFn (result k).1) r.1
  let values ← elements.mapM (cellValues sf ic x chi E V t)
  if Volume = 0 then none
  else return ⟨chi, fun k => (result k).2, Volume⁻¹ • (1 + (values.map Prod.snd).sum), Volume⁻¹ • (values.map Prod.fst).sum⟩

/-- The program of sample_homogenization.cpp: four nodes, `Gauss4Square` (sample_homogenization.cpp:53, 60, 89). -/
def homogenizationQuads := homogenization (SF.square4 : SF ℝ 2 4) IC.gauss4Square

end Pansfem
