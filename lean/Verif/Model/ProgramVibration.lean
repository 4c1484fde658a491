/-
/repo/sample/vibration/sample_vibration.cpp.  Mesh, supports and constants come from files or are literals there; they
are inputs here.  Files and console output are left out.
-/
import Verif.Model.ProgramPost
import Verif.Model.Lanczos

noncomputable section

namespace Pansfem

/-- The element loop with `Assembling(K, Ke, nodetoglobal, nodetoelement, element)` (sample_vibration.cpp:34-42). -/
def asmMatrix (t : List (List ℤ)) (items : List (ElemData ℝ)) (A : LIL ℝ) : Option (LIL ℝ) :=
  items.foldlM (fun A it => asmK it.Ke t it.nte it.element A) A

/-- The stiffness matrices of the loop (sample_vibration.cpp:37). -/
def vibrationStiffness (x : List (Vec ℝ)) (elements : List (List ℕ)) (E V t : ℝ) : Option (List (ElemData ℝ)) :=
  elemItems 2 (fun X => planeStrainStiffness SF.square8 IC.gauss9Square X E V t) [0, 1] x elements

/-- The mass matrices of the loop (sample_vibration.cpp:40). -/
def vibrationMass (x : List (Vec ℝ)) (elements : List (List ℕ)) (rho t : ℝ) : Option (List (ElemData ℝ)) :=
  elemItems 2 (fun X => planeMass SF.square8 IC.gauss9Square X rho t) [0, 1] x elements

/-- From the supports to the matrices (sample_vibration.cpp:26-45): numbered table and number of unknowns, `Kmod`,
`Mmod`.  The program fills both matrices in one loop. -/
def vibrationSystem (x : List (Vec ℝ)) (elements : List (List ℕ)) (bc : List ((ℕ × ℕ) × ℝ)) (E V t rho : ℝ) :
    Option ((List (List ℤ) × ℕ) × CSR ℝ × CSR ℝ) := do
  let t₁ ← setDirichletMarks (freeTable x.length 2) bc
  let r := renumbering t₁
  let A ← asmMatrix r.1 (← vibrationStiffness x elements E V t) (LIL.new r.2 r.2)
  let B ← asmMatrix r.1 (← vibrationMass x elements rho t) (LIL.new r.2 r.2)
  return (r, (← CSR.ofLIL A).1, (← CSR.ofLIL B).1)

/-- `main` (sample_vibration.cpp:26-64): the `m` values and fields.  `fuel` and `itr` are the bounds of the loops of
`BisectionMethod` (which has none) and `InversePowerMethod`. -/
def vibration (x : List (Vec ℝ)) (elements : List (List ℕ)) (bc : List ((ℕ × ℕ) × ℝ)) (E V t rho sigma : ℝ)
    (m fuel itr : ℕ) : Option (List (ℝ × List (Vec ℝ))) := do
  let (r, A, B) ← vibrationSystem x elements bc E V t rho
  let s ← generalProcess (n := r.2) A B m sigma
  (List.range m).mapM fun k => do
    let p ← shiftedPair sigma m k fuel itr s.toLanState
    return (p.1, ← disassembling (zeroField x.length 2) (List.ofFn p.2) r.1)

end Pansfem
