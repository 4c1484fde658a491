/-
The programs with velocities and pressure in one system: /repo/sample/navierstokes/sample_navierstokes_dynamic.cpp,
sample_navierstokesSUPG_dynamic.cpp and /repo/sample/stokes/sample_stokes_dynamic.cpp.

* Nodes, elements and boundary conditions of the first and the last come from files; they are inputs here, the lists
  `elementsu`, `elementsp` as one list of pairs (the programs read `elementsp[i]` for every `i` in range of `elementsu`).
* sample_stokes_dynamic.cpp calls `Stokes` and `StokesTraction` (53, 68), which src/FEM/Equation/Stokes.h does not define; the
  routines with these arguments are `StokesStiffness` and `StokesSurfaceForce` there, and they are taken here.
* Console output and the files written in the loop are left out.
-/
import Verif.Model.ProgramDecoupled

noncomputable section

namespace Pansfem

variable {m n : ℕ}

/-! ### Element routines -/

/-- The numbers of the local unknowns of a mixed element (src/FEM/Equation/Stokes.h:28-36). -/
def fluEquiv (m n : ℕ) : Flu m n ≃ Fin (m + m + n) :=
  (Equiv.sumCongr finSumFinEquiv (Equiv.refl _)).trans finSumFinEquiv

/-- The storage of the matrix of a mixed element (src/LinearAlgebra/Models/Matrix.h:86-88,
src/FEM/Equation/NavierStokes.h:81-95). -/
def mixM {K : Type} (A : Matrix (Flu m n) (Flu m n) K) : Mat K :=
  ⟨m + m + n, m + m + n, (List.ofFn fun i : Fin (m + m + n) => List.ofFn fun j : Fin (m + m + n) =>
    A ((fluEquiv m n).symm i) ((fluEquiv m n).symm j)).flatten⟩

/-- The storage of the vector of a mixed element (src/LinearAlgebra/Models/Vector.h:78-79,
src/FEM/Equation/Stokes.h:163-170). -/
def mixV {K : Type} (f : Flu m n → K) : Vec K := ⟨List.ofFn fun i : Fin (m + m + n) => f ((fluEquiv m n).symm i)⟩

/-- A routine returning the matrix of a mixed element (src/FEM/Equation/NavierStokes.h:113-162, 167-205, 210-252, 257-330,
335-408, 413-486): `core` gets the coordinates of the pressure nodes.  The shape functions fix the numbers of nodes. -/
def mixElemM {K : Type} (core : Matrix (Fin n) (Fin 2) K → Option (Matrix (Flu m n) (Flu m n) K)) (e : List ℕ × List ℕ)
    (doulist : List ℕ) (x : List (Vec K)) : Option (Mat K × List (List (ℕ × ℕ)) × List (List (ℕ × ℕ))) :=
  if e.1.length = m then do
    let (nteu, ntep) ← blocked e.1.length e.2.length doulist
    let X ← gather x e.2 n 2
    return (mixM (← core X), nteu, ntep)
  else none

/-- `StokesSurfaceForce` as a routine (src/FEM/Equation/Stokes.h:128-172); it also reads the coordinates of the velocity
nodes. -/
def mixElemV {K : Type} (core : Matrix (Fin n) (Fin 2) K → Option (Flu m n → K)) (e : List ℕ × List ℕ)
    (doulist : List ℕ) (x : List (Vec K)) : Option (Vec K × List (List (ℕ × ℕ)) × List (List (ℕ × ℕ))) := do
  let (nteu, ntep) ← blocked e.1.length e.2.length doulist
  let _ ← gather x e.1 m 2
  let X ← gather x e.2 n 2
  return (mixV (← core X), nteu, ntep)

/-! ### A time step -/

/-- An element of the loops: the matrices in front of the rate and of the mean of the two times, the matrix in front of the
new values if the program has one, the tables, the nodes of velocities and pressure
(sample_navierstokes_dynamic.cpp:53-57, sample_stokes_dynamic.cpp:52-55). -/
structure FlowItem where
  Me : Mat ℝ
  Ke : Mat ℝ
  Ce : Option (Mat ℝ)
  nteu : List (List (ℕ × ℕ))
  ntep : List (List (ℕ × ℕ))
  eu : List ℕ
  ep : List ℕ

/-- `Ae = Me/dt + theta*Ke + Ce`, `be = (Me/dt - (1.0 - theta)*Ke)*ElementVector(...)`
(sample_navierstokes_dynamic.cpp:58-59, sample_navierstokesSUPG_dynamic.cpp:73-74) and the same without `Ce`
(sample_stokes_dynamic.cpp:56-58). -/
def flowElem (dt theta : ℝ) (up : List (Vec ℝ)) (it : FlowItem) : Option (Mat ℝ × Vec ℝ) := do
  let A ← (← it.Me.sdiv dt).add (← it.Ke.smul theta)
  let Ae ← match it.Ce with
    | none => some A
    | some C => A.add C
  let ue ← elementVector2 up [it.nteu, it.ntep] [it.eu, it.ep]
  let be ← (← (← it.Me.sdiv dt).sub (← it.Ke.smul (1 - theta))).mulVec ue
  return (Ae, be)

/-- The assembling calls of the element loop (sample_navierstokes_dynamic.cpp:60-62,
sample_navierstokesSUPG_dynamic.cpp:75-77, sample_stokes_dynamic.cpp:59-61). -/
def flowCalls (dt theta : ℝ) (up : List (Vec ℝ)) (items : List FlowItem) : Option (List (AsmCall ℝ)) := do
  let cs ← items.mapM fun it => do
    let (Ae, be) ← flowElem dt theta up it
    return [.fields Ae [it.nteu, it.ntep] [it.eu, it.ep], .load be it.nteu it.eu, .load be it.ntep it.ep]
  return cs.flatten

/-- A time step (sample_navierstokes_dynamic.cpp:49-76): `loop` are the element routines for the advection velocity, `extra` the
calls of the load loop (sample_stokes_dynamic.cpp:64-74).  The results are the field, the advection velocity of the next step and
whether the solver met its criterion, which the program does not ask. -/
def flowStep (s : LinSolver) (dt theta : ℝ) (loop : List (Vec ℝ) → Option (List FlowItem))
    (extra : Option (List (AsmCall ℝ))) (t : List (List ℤ)) (N : ℕ) (up ubar : List (Vec ℝ)) :
    Option (List (Vec ℝ) × List (Vec ℝ) × Bool) := do
  let calls ← flowCalls dt theta up (← loop ubar)
  let (up', conv) ← solveStep s up t N (calls ++ (← extra))
  return (up', ← up'.mapM fun v => v.segment 0 2, conv)

/-- The loop over the time steps (sample_navierstokes_dynamic.cpp:46-86, sample_navierstokesSUPG_dynamic.cpp:58-103,
sample_stokes_dynamic.cpp:44-95). -/
def flowSteps (s : LinSolver) (dt theta : ℝ) (loop : List (Vec ℝ) → Option (List FlowItem))
    (extra : Option (List (AsmCall ℝ))) (t : List (List ℤ)) (N : ℕ) :
    ℕ → List (Vec ℝ) → List (Vec ℝ) → Option (List (Vec ℝ) × Bool)
  | 0, up, _ => some (up, true)
  | k + 1, up, ubar => do
    let (up', ubar', c) ← flowStep s dt theta loop extra t N up ubar
    let (up'', c') ← flowSteps s dt theta loop extra t N k up' ubar'
    return (up'', c && c')

/-- `main` (sample_navierstokes_dynamic.cpp:31-86, sample_navierstokesSUPG_dynamic.cpp:42-103,
sample_stokes_dynamic.cpp:35-95): all fields start with zeros, then `SetDirichlet` and `Renumbering`. -/
def flowAnalysis (s : LinSolver) (dt theta : ℝ) (loop : List (Vec ℝ) → Option (List FlowItem))
    (extra : Option (List (AsmCall ℝ))) (nodes : ℕ) (bc : List ((ℕ × ℕ) × ℝ)) (steps : ℕ) :
    Option (List (Vec ℝ) × Bool) := do
  let (up, t) ← setDirichlet (zeroField nodes 3) (freeTable nodes 3) bc
  flowSteps s dt theta loop extra (renumbering t).1 (renumbering t).2 steps up (zeroField nodes 2)

/-! ### The three programs -/

variable (sfu : SF ℝ 2 m) (sfp : SF ℝ 2 n) (ic : IC ℝ 2)

/-- The element routines (sample_navierstokes_dynamic.cpp:53-57) for the shape functions `sfu`, `sfp`. -/
def galerkinItems (x : List (Vec ℝ)) (elements : List (List ℕ × List ℕ)) (rho mu : ℝ) (ubar : List (Vec ℝ)) :
    Option (List FlowItem) :=
  elements.mapM fun e => do
    let U ← gather ubar e.1 m 2
    let (Ke, _) ← mixElemM (fun X => nsStiffness sfu sfp ic X U rho mu) e [0, 1, 2] x
    let (Me, _) ← mixElemM (fun X => stokesMass sfu sfp ic X rho) e [0, 1, 2] x
    let (Ce, nteu, ntep) ← mixElemM (fun X => continuity sfu sfp ic X) e [0, 1, 2] x
    return ⟨Me, Ke, some Ce, nteu, ntep, e.1, e.2⟩

/-- sample_navierstokes_dynamic.cpp:20-88. -/
def navierStokesDynamic (x : List (Vec ℝ)) (elements : List (List ℕ × List ℕ)) (bc : List ((ℕ × ℕ) × ℝ)) (rho mu dt theta : ℝ)
    (steps : ℕ) : Option (List (Vec ℝ) × Bool) :=
  flowAnalysis useBiCGSTAB2 dt theta (galerkinItems SF.square8 SF.square4 IC.gauss9Square x elements rho mu) (some [])
    x.length bc steps

/-- The element routines (sample_navierstokesSUPG_dynamic.cpp:65-74): the sums `Me + Ms`, `Ke + Ks`, `Ce + Cs`. -/
def supgItems (x : List (Vec ℝ)) (elements : List (List ℕ × List ℕ)) (rho mu dt : ℝ) (ubar : List (Vec ℝ)) :
    Option (List FlowItem) :=
  elements.mapM fun e => do
    let U ← gather ubar e.1 m 2
    let (Ke, _) ← mixElemM (fun X => nsStiffness sfu sfp ic X U rho mu) e [0, 1, 2] x
    let (Me, _) ← mixElemM (fun X => stokesMass sfu sfp ic X rho) e [0, 1, 2] x
    let (Ce, _) ← mixElemM (fun X => continuity sfu sfp ic X) e [0, 1, 2] x
    let (Ks, _) ← mixElemM (fun X => supgStiffness sfu sfp ic X U rho mu dt) e [0, 1, 2] x
    let (Ms, _) ← mixElemM (fun X => supgMass sfu sfp ic X U rho mu dt) e [0, 1, 2] x
    let (Cs, nteu, ntep) ← mixElemM (fun X => supgContinuity sfu sfp ic X U rho mu dt) e [0, 1, 2] x
    return ⟨← Me.add Ms, ← Ke.add Ks, some (← Ce.add Cs), nteu, ntep, e.1, e.2⟩

/-- sample_navierstokesSUPG_dynamic.cpp:42-105; velocities and pressure have the same nodes. -/
def navierStokesSUPG (x : List (Vec ℝ)) (elements : List (List ℕ)) (bc : List ((ℕ × ℕ) × ℝ)) (rho mu dt theta : ℝ)
    (steps : ℕ) : Option (List (Vec ℝ) × Bool) :=
  flowAnalysis useBiCGSTAB2 dt theta
    (supgItems SF.square4 SF.square4 IC.gauss4Square x (elements.map fun e => (e, e)) rho mu dt) (some []) x.length bc steps

/-- Mesh, boundary conditions and constants (sample_navierstokesSUPG_dynamic.cpp:21-55); the loop runs for `t <= tmax`.  The
conditions are those of sample_navierstokes_decoupled.cpp for the velocities; the pressure is not given anywhere. -/
def cavitySUPG (mesh : SquareMesh ℝ) (rho mu dt theta : ℝ) (tmax : ℕ) : Option (List (Vec ℝ) × Bool) := do
  let x ← mesh.nodes
  let elements ← SquareMesh.elements mesh.nx mesh.ny
  let ufixed0 ← mesh.fixedlist [0, 1] cavityWalls
  let ufixed1 ← mesh.fixedlist [0, 1] cavityLid
  navierStokesSUPG (nodeVectors x) elements (fixedDofs ufixed0 ++ setLid (fixedDofs ufixed1)) rho mu dt theta (tmax + 1)

/-- The literals (sample_navierstokesSUPG_dynamic.cpp:21, 45-49). -/
def cavitySUPGSample : Option (List (Vec ℝ) × Bool) := cavitySUPG ⟨1, 1, 30, 30⟩ 1 (1 / 1000) 0.01 0.5 10000

/-- The element routines (sample_stokes_dynamic.cpp:51-55), which also read the coordinates of the velocity nodes
(src/FEM/Equation/Stokes.h:37-40, 96-99). -/
def stokesItems (x : List (Vec ℝ)) (elements : List (List ℕ × List ℕ)) (rho mu : ℝ) : Option (List FlowItem) :=
  elements.mapM fun e => do
    let _ ← gather x e.1 m 2
    let (Ke, _) ← mixElemM (fun X => stokesStiffness sfu sfp ic X mu) e [0, 1, 2] x
    let (Me, nteu, ntep) ← mixElemM (fun X => stokesMass sfu sfp ic X rho) e [0, 1, 2] x
    return ⟨Me, Ke, none, nteu, ntep, e.1, e.2⟩

/-- The load loop (sample_stokes_dynamic.cpp:64-74). -/
def stokesLoads (x : List (Vec ℝ)) (edges : List (List ℕ × List ℕ)) (f : (Fin 2 → ℝ) → Fin 2 → ℝ) :
    Option (List (AsmCall ℝ)) := do
  let cs ← edges.mapM fun e => do
    let (Fe, nteu, ntep) ← mixElemV (fun X => stokesSurfaceForce SF.line3 SF.line2 IC.gauss2Line X f) e [0, 1, 2] x
    return [.load Fe nteu e.1, .load Fe ntep e.2]
  return cs.flatten

/-- sample_stokes_dynamic.cpp:20-97 with `mu = rho = 1` as inputs. -/
def stokesDynamic (x : List (Vec ℝ)) (elements edges : List (List ℕ × List ℕ)) (bc : List ((ℕ × ℕ) × ℝ)) (rho mu : ℝ)
    (f : (Fin 2 → ℝ) → Fin 2 → ℝ) (dt theta : ℝ) (steps : ℕ) : Option (List (Vec ℝ) × Bool) :=
  flowAnalysis useCG dt theta (fun _ => stokesItems SF.triangle6 SF.triangle3 IC.gauss3Triangle x elements rho mu)
    (stokesLoads x edges f) x.length bc steps

end Pansfem
