/-
The program of /repo/sample/navierstokes/sample_navierstokes_decoupled.cpp: incompressible flow by the decoupled method.

Console output and the files of lines 137-146 are left out.
-/
import Verif.Model.Fluid
import Verif.Model.ProgramSquare
import Verif.Model.ProgramDynamic

noncomputable section

namespace Pansfem

/-! ### Element routines with two blocks -/

/-- The storage of an element matrix with a block for each velocity (src/LinearAlgebra/Models/Matrix.h:86-88,
src/FEM/Equation/NavierStokes.h:602-605): rows and columns `i` and `m + i`. -/
def joinM {K : Type} {m : ℕ} (A : Matrix (Fin m ⊕ Fin m) (Fin m ⊕ Fin m) K) : Mat K :=
  ⟨m + m, m + m, (List.ofFn fun i : Fin (m + m) => List.ofFn fun j : Fin (m + m) =>
    A (finSumFinEquiv.symm i) (finSumFinEquiv.symm j)).flatten⟩

/-- The storage of an element vector with a block for each velocity (src/LinearAlgebra/Models/Vector.h:78-79,
src/FEM/Equation/NavierStokes.h:644-647). -/
def joinV {K : Type} {m : ℕ} (f : Fin m ⊕ Fin m → K) : Vec K :=
  ⟨List.ofFn fun i : Fin (m + m) => f (finSumFinEquiv.symm i)⟩

/-- A routine returning an element matrix for two velocities (src/FEM/Equation/NavierStokes.h:577-606). -/
def elemM2 {K : Type} {m : ℕ} (core : Matrix (Fin m) (Fin 2) K → Option (Matrix (Fin m ⊕ Fin m) (Fin m ⊕ Fin m) K))
    (element doulist : List ℕ) (x : List (Vec K)) : Option (Mat K × List (List (ℕ × ℕ))) := do
  let nte ← blocked2 element.length doulist
  let X ← gather x element m 2
  return (joinM (← core X), nte)

/-- A routine returning an element vector for two velocities (src/FEM/Equation/NavierStokes.h:611-650, 705-749). -/
def elemV2 {K : Type} {m : ℕ} (core : Matrix (Fin m) (Fin 2) K → Option (Fin m ⊕ Fin m → K))
    (element doulist : List ℕ) (x : List (Vec K)) : Option (Vec K × List (List (ℕ × ℕ))) := do
  let nte ← blocked2 element.length doulist
  let X ← gather x element m 2
  return (joinV (← core X), nte)

/-- `Scaling(GetDiagonal(Kmod), F)` (sample_navierstokes_decoupled.cpp:93-94, 132-133); there is no criterion. -/
def useDiagonal : LinSolver := fun n A b => do
  let D ← getDiagonal n A
  return (← scaling D b, true)

/-! ### The program -/

/-- Mesh, boundary conditions and constants (sample_navierstokes_decoupled.cpp:22-54); `ufixed` are `ufixed0` and
`ufixed1` joined. -/
structure DecoupledProgram where
  x : List (Vec ℝ)
  elements : List (List ℕ)
  ufixed : List ((ℕ × ℕ) × ℝ)
  pfixed : List ((ℕ × ℕ) × ℝ)
  rho : ℝ
  mu : ℝ
  dt : ℝ

/-- The fields `v`, `u`, `p` (sample_navierstokes_decoupled.cpp:58-59, 67). -/
structure Flow where
  v : List (Vec ℝ)
  u : List (Vec ℝ)
  p : List (Vec ℝ)

variable (P : DecoupledProgram)

/-- The assembling calls for an element in the two velocity steps (sample_navierstokes_decoupled.cpp:82-89, 121-128):
`load` is the routine that gives `Fe`, `w` the velocity that is moved on. -/
def velocityCalls (load : Matrix (Fin 4) (Fin 2) ℝ → Option (Fin 4 ⊕ Fin 4 → ℝ)) (w : List (Vec ℝ)) (e : List ℕ) :
    Option (List (AsmCall ℝ)) := do
  let (Me, nte) ← elemM2 (fun X => decoupledLumped SF.square4 IC.gauss4Square X P.rho) e [0, 1] P.x
  let (Fe, nte') ← elemV2 load e [0, 1] P.x
  let be ← (← Me.mulVec (← elementVector w nte' e)).add (← Fe.smul P.dt)
  return [.matrix Me nte e, .load be nte' e]

/-- The element loop of the auxiliary velocity (sample_navierstokes_decoupled.cpp:81-90). -/
def auxiliaryCalls (u : List (Vec ℝ)) : Option (List (AsmCall ℝ)) := do
  let cs ← P.elements.mapM fun e => do
    let U ← gather u e 4 2
    velocityCalls P (fun X => auxiliaryVelocity SF.square4 IC.gauss4Square X U P.rho P.mu) u e
  return cs.flatten

/-- The element loop of the pressure (sample_navierstokes_decoupled.cpp:102-109). -/
def pressureCalls (v : List (Vec ℝ)) : Option (List (AsmCall ℝ)) := do
  let cs ← P.elements.mapM fun e => do
    let U ← gather v e 4 2
    let (Ke, nte) ← elemM 1 (scalarCore fun X => pressurePoissonK SF.square4 IC.gauss4Square X) e [0] P.x
    let (Fe, _) ← elemV 1 (fun X => (pressurePoissonF SF.square4 IC.gauss4Square X U P.rho P.dt).map
      fun w q => w q.1) e [0] P.x
    return [.matrix Ke nte e, .load Fe nte e]
  return cs.flatten

/-- The element loop of the velocity of the next step (sample_navierstokes_decoupled.cpp:120-129); the routine reads `v`
without using it (src/FEM/Equation/NavierStokes.h:722-725, 739). -/
def nextstepCalls (v p : List (Vec ℝ)) : Option (List (AsmCall ℝ)) := do
  let cs ← P.elements.mapM fun e => do
    let _ ← gather v e 4 2
    let Q ← gather p e 4 1
    velocityCalls P (fun X => nextstepVelocity SF.square4 IC.gauss4Square X fun i => Q i 0) v e
  return cs.flatten

/-- A time step (sample_navierstokes_decoupled.cpp:77-134) with the tables and numbers of equations `t`, `N` of the
velocities and `t'`, `N'` of the pressure; the flag is that of the pressure solver, the program does not ask for it. -/
def decoupledStep (t : List (List ℤ)) (N : ℕ) (t' : List (List ℤ)) (N' : ℕ) (f : Flow) : Option (Flow × Bool) := do
  let (v, _) ← solveStep useDiagonal f.v t N (← auxiliaryCalls P f.u)
  let (p, conv) ← solveStep useScalingCG f.p t' N' (← pressureCalls P v)
  let (u, _) ← solveStep useDiagonal f.u t N (← nextstepCalls P v p)
  return (⟨v, u, p⟩, conv)

/-- The loop over the time steps (sample_navierstokes_decoupled.cpp:74-147); the flag tells whether the pressure solver
met its criterion in all steps. -/
def decoupledSteps (t : List (List ℤ)) (N : ℕ) (t' : List (List ℤ)) (N' : ℕ) : ℕ → Flow → Option (Flow × Bool)
  | 0, f => some (f, true)
  | k + 1, f => do
    let (f', c) ← decoupledStep P t N t' N' f
    let (f'', c') ← decoupledSteps t N t' N' k f'
    return (f'', c && c')

/-- The fields and tables before the loop (sample_navierstokes_decoupled.cpp:58-70): `SetDirichlet` marks the one table
of the velocities for `v` and again for `u`; the two calls for each field (61, 63 and 62, 64) are joined. -/
def decoupledStart : Option (Flow × List (List ℤ) × List (List ℤ)) := do
  let (v, t) ← setDirichlet (zeroField P.x.length 2) (freeTable P.x.length 2) P.ufixed
  let (u, t) ← setDirichlet (zeroField P.x.length 2) t P.ufixed
  let (p, t') ← setDirichlet (zeroField P.x.length 1) (freeTable P.x.length 1) P.pfixed
  return (⟨v, u, p⟩, t, t')

/-- `main` with `steps` time steps (sample_navierstokes_decoupled.cpp:58-147). -/
def runDecoupled (steps : ℕ) : Option (Flow × Bool) := do
  let (f, t, t') ← decoupledStart P
  decoupledSteps P (renumbering t).1 (renumbering t).2 (renumbering t').1 (renumbering t').2 steps f

/-! ### Mesh and boundary conditions -/

/-- The loop that sets the velocity of the lid (sample_navierstokes_decoupled.cpp:44-48). -/
def setLid (l : List ((ℕ × ℕ) × ℝ)) : List ((ℕ × ℕ) × ℝ) := l.map fun r => if r.1.2 = 0 then (r.1, 1) else r

/-- Mesh and boundary conditions (sample_navierstokes_decoupled.cpp:29-54). -/
def decoupledProgram (m : SquareMesh ℝ) (walls lid pinned : ℝ × ℝ → Bool) (rho mu dt : ℝ) : Option DecoupledProgram := do
  let x ← m.nodes
  let elements ← SquareMesh.elements m.nx m.ny
  let ufixed0 ← m.fixedlist [0, 1] walls
  let ufixed1 ← m.fixedlist [0, 1] lid
  let pfixed ← m.fixedlist [0] pinned
  return ⟨nodeVectors x, elements, fixedDofs ufixed0 ++ setLid (fixedDofs ufixed1), fixedDofs pfixed, rho, mu, dt⟩

/-- The predicate of the walls (sample_navierstokes_decoupled.cpp:33). -/
def cavityWalls (r : ℝ × ℝ) : Bool :=
  decide (|r.1 - 0| < 1 / 10 ^ 5 ∨ |r.2 - 0| < 1 / 10 ^ 5 ∨ |r.1 - 1| < 1 / 10 ^ 5)

/-- The predicate of the lid (sample_navierstokes_decoupled.cpp:39). -/
def cavityLid (r : ℝ × ℝ) : Bool := decide (|r.2 - 1| < 1 / 10 ^ 5)

/-- The predicate of the fixed pressure (sample_navierstokes_decoupled.cpp:50). -/
def cavityPin (r : ℝ × ℝ) : Bool := decide (|r.1 - 1 / 2| < 1 / 10 ^ 5 ∧ |r.2| < 1 / 10 ^ 5)

/-- The literals (sample_navierstokes_decoupled.cpp:22-54). -/
def cavityProgram : Option DecoupledProgram :=
  decoupledProgram ⟨1, 1, 30, 30⟩ cavityWalls cavityLid cavityPin 1 (1 / 100) 0.005

end Pansfem
