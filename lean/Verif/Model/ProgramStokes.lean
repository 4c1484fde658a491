/-
/repo/sample/stokes/sample_stokes_static.cpp.  The mesh, the predicates of walls and lid, the velocity of the lid, the viscosity
and the body force are literals there.  They are inputs here; `stokesProgram` is the program with its literals.

* The two calls of `SetDirichlet` (45-46) are one call with both lists.
* The file written at the end, with velocities and pressures in separate lists (82-97), is left out.
-/
import Verif.Model.ProgramFlow
import Verif.Model.ProgramSquare

noncomputable section

namespace Pansfem

variable {m n : ℕ} (sfu : SF ℝ 2 m) (sfp : SF ℝ 2 n) (ic : IC ℝ 2)

/-- The body of the element loop (sample_stokes_static.cpp:53-66).  `StokesStiffness` also reads the coordinates of the velocity
nodes (src/FEM/Equation/Stokes.h:38-41), `StokesBodyForce` does not (177-215).  Only the velocity part of `Fe` is assembled. -/
def steadyElem (x : List (Vec ℝ)) (mu : ℝ) (f : (Fin 2 → ℝ) → Fin 2 → ℝ) (e : List ℕ × List ℕ) :
    Option (List (AsmCall ℝ)) := do
  let _ ← gather x e.1 m 2
  let (Ke, nteu, ntep) ← mixElemM (fun X => stokesStiffness sfu sfp ic X mu) e [0, 1, 2] x
  let X ← gather x e.2 n 2
  let Fe ← stokesBodyForce sfu sfp ic X f
  return [.fields Ke [nteu, ntep] [e.1, e.2], .load (mixV Fe) nteu e.1]

/-- The element loop (sample_stokes_static.cpp:52-67). -/
def steadyCalls (x : List (Vec ℝ)) (elements : List (List ℕ × List ℕ)) (mu : ℝ) (f : (Fin 2 → ℝ) → Fin 2 → ℝ) :
    Option (List (AsmCall ℝ)) := do
  let cs ← elements.mapM (steadyElem sfu sfp ic x mu f)
  return cs.flatten

/-- `main` from the mesh to velocities and pressures `up` (sample_stokes_static.cpp:42-82). -/
def stokesStatic (x : List (Vec ℝ)) (elements : List (List ℕ × List ℕ)) (bc : List ((ℕ × ℕ) × ℝ)) (mu : ℝ)
    (f : (Fin 2 → ℝ) → Fin 2 → ℝ) : Option (List (Vec ℝ) × Bool) := do
  staticAnalysis useCG (zeroField x.length 3) (freeTable x.length 3) bc
    (← steadyCalls SF.square8 SF.square4 IC.gauss9Square x elements mu f)

/-- Mesh and boundary conditions (sample_stokes_static.cpp:20-40): nodes, `elementsu` with `elementsp`, `ufixed0` with
`ufixed1`. -/
def stokesProblem (M : SquareMesh ℝ) (sides lid : ℝ × ℝ → Bool) (value : ℝ) :
    Option (List (Vec ℝ) × List (List ℕ × List ℕ) × List ((ℕ × ℕ) × ℝ)) := do
  let x ← M.nodes2
  let elementsu ← SquareMesh.elements2 M.nx M.ny
  let elementsp ← SquareMesh.elements M.nx M.ny
  let ufixed0 ← M.fixedlist2 [0, 1] sides
  let ufixed1 ← M.fixedlist2 [0] lid
  return (nodeVectors x, elementsu.zip elementsp, fixedDofs ufixed0 ++ setLoads value (fixedDofs ufixed1))

/-- The predicate of all four sides with the `abs` of `double` (sample_stokes_static.cpp:25-30). -/
def cavitySides (r : ℝ × ℝ) : Bool :=
  decide (|r.1| < 1 / 10 ^ 5 ∨ |r.2| < 1 / 10 ^ 5 ∨ |r.1 - 1| < 1 / 10 ^ 5 ∨ |r.2 - 1| < 1 / 10 ^ 5)

/-- The body force (sample_stokes_static.cpp:60-66). -/
def corneredForce (p : Fin 2 → ℝ) : Fin 2 → ℝ := if 1 / 2 < p 0 ∧ p 1 < 1 / 2 then ![0, -100] else ![0, 0]

/-- `main` (sample_stokes_static.cpp:19-82) with the `abs` of `double`; the predicate of the lid (31-36) is that of
sample_navierstokes_decoupled.cpp. -/
def stokesProgram : Option (List (Vec ℝ) × Bool) := do
  let (x, elements, bc) ← stokesProblem ⟨1, 1, 20, 20⟩ cavitySides cavityLid 1
  stokesStatic x elements bc 1 corneredForce

end Pansfem
