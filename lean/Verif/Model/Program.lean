/-
The programs of /repo/sample: boundary conditions, assembling, solving, disassembling.

The programs differ in the mesh, the element routine and the solver; what they share is modelled here.
Reading and writing files and console output are left out.
-/
import Verif.Model.Assembly
import Verif.Model.Krylov

namespace Pansfem

/-- One call of `Assembling` made by a program between `Renumbering` and the solver:
* `matrix`: `Assembling(K, F, u, Ke, nodetoglobal, nodetoelement, element)` (sample_linear.cpp:43),
* `both`: the same with an element vector (sample_totallagrange.cpp:56),
* `fields`: the same with several node lists (sample_stokes_static.cpp:55),
* `load`: `Assembling(F, Fe, nodetoglobal, nodetoelement, element)` (sample_planestrain.cpp:47),
* `nodal`: `Assembling(F, qfixed, nodetoglobal)` (sample_linear.cpp:45). -/
inductive AsmCall (K : Type) where
  | matrix (Ke : Mat K) (nte : List (List (ℕ × ℕ))) (element : List ℕ)
  | both (Ke : Mat K) (Fe : Vec K) (nte : List (List (ℕ × ℕ))) (element : List ℕ)
  | fields (Ke : Mat K) (ntes : List (List (List (ℕ × ℕ)))) (elements : List (List ℕ))
  | load (Fe : Vec K) (nte : List (List (ℕ × ℕ))) (element : List ℕ)
  | nodal (q : List ((ℕ × ℕ) × K))

/-- The call: the overloads of Assembling.h:22-94, 119-127, 152-158. -/
def AsmCall.run {K : Type} [Ring K] (u : List (Vec K)) (ntg : List (List ℤ)) (c : AsmCall K)
    (st : LIL K × List K) : Option (LIL K × List K) :=
  match c with
  | .matrix Ke nte element => asmKF u Ke ntg nte element st
  | .both Ke Fe nte element => asmKFe u Ke Fe ntg nte element st
  | .fields Ke ntes elements => asmKF2 u Ke ntg ntes elements st
  | .load Fe nte element => do return (st.1, ← asmFe Fe ntg nte element st.2)
  | .nodal q => do return (st.1, ← asmNeumann q ntg st.2)

/-- The assembling loops (for example sample_linear.cpp:39-45). -/
def asmCalls {K : Type} [Ring K] (u : List (Vec K)) (ntg : List (List ℤ)) (calls : List (AsmCall K))
    (st : LIL K × List K) : Option (LIL K × List K) :=
  calls.foldlM (fun st c => c.run u ntg st) st

/-- A solver with its arguments `itrmax`, `eps`: matrix, right-hand side; solution and whether it reports
convergence (for example src/LinearAlgebra/Solvers/CG.h:122-152). -/
abbrev LinSolver := (n : ℕ) → CSR ℝ → (Fin n → ℝ) → Option ((Fin n → ℝ) × Bool)

/-- `CG(Kmod, F, 100000, 1.0e-10)` (sample_heattransfer_static.cpp:56). -/
noncomputable def useCG : LinSolver := fun _ A b => cg A b 100000 (1 / 10 ^ 10)

/-- `ScalingCG(Kmod, F, 100000, 1.0e-10)` (sample_linear.cpp:48). -/
noncomputable def useScalingCG : LinSolver := fun _ A b => scalingCG A b 100000 (1 / 10 ^ 10)

/-- `BiCGSTAB2(Kmod, F, 100000, 1.0e-10)` (sample_navierstokes_static.cpp:94). -/
noncomputable def useBiCGSTAB2 : LinSolver := fun _ A b => bicgstab2 A b 100000 (1 / 10 ^ 10)

/-- From the numbered table to the new displacements (for example sample_linear.cpp:36-49): assemble into
empty `K`, `F`, convert to `CSR`, solve, disassemble. -/
noncomputable def solveStep (s : LinSolver) (u : List (Vec ℝ)) (ntg : List (List ℤ)) (N : ℕ)
    (calls : List (AsmCall ℝ)) : Option (List (Vec ℝ) × Bool) := do
  let (A, F) ← asmCalls u ntg calls (LIL.new N N, List.replicate N 0)
  let (Kmod, _) ← CSR.ofLIL A
  let (x, conv) ← s F.length Kmod fun i => F[(i : ℕ)]
  return (← disassembling u (List.ofFn x) ntg, conv)

/-- A linear static analysis (sample_linear.cpp:30-49, sample_heattransfer_static.cpp:38-57,
sample_planestrain.cpp:31-64, sample_beam_linear.cpp:33-52, sample_shell_linear.cpp:42-61, sample_stokes_static.cpp:40-81,
sample_truss_totalstressdesign.cpp:43-65): several calls of `SetDirichlet` are one call with the lists joined. -/
noncomputable def staticAnalysis (s : LinSolver) (u₀ : List (Vec ℝ)) (t₀ : List (List ℤ))
    (bc : List ((ℕ × ℕ) × ℝ)) (calls : List (AsmCall ℝ)) : Option (List (Vec ℝ) × Bool) := do
  let (u, t₁) ← setDirichlet u₀ t₀ bc
  solveStep s u (renumbering t₁).1 (renumbering t₁).2 calls

end Pansfem
