/-
The optimisation loop of /repo/sample/optimize/sample_optimize_homogenization.cpp: evaluation of a design of unit
cells, passes, and the program with its literals.

* The tables of tensors, made from the unit cells (`Model/ProgramCell.lean`), are an input.
* The files written in every pass are replaced by the list of passes that the loop returns.
* MMA has inner loops without a bound on the passes; it gets a bound `fuel`, as in `Model/ProgramOptimize.lean`.
-/
import Verif.Model.ProgramOptimize
import Verif.Model.ProgramCell
import Verif.Model.Mesh

noncomputable section

namespace Pansfem

variable {p q : ℕ}

/-- What the loop does not change (sample_optimize_homogenization.cpp:35-38, 44, 128-145). -/
structure LatticeProgram (p q : ℕ) where
  x : List (Vec ℝ)
  elements : List (List ℕ)
  ufixed : List ((ℕ × ℕ) × ℝ)
  qfixed : List ((ℕ × ℕ) × ℝ)
  T : CellTables p q
  weightlimit : ℝ

/-- What a pass of the loop computes before it asks for convergence (sample_optimize_homogenization.cpp:166-288): `g`,
the derivatives of the weight, `u`, whether the solver reported convergence, `f`, the derivatives of the compliance. -/
structure LatticeEvaluation where
  g : ℝ
  dg : List (ℝ × ℝ × ℝ)
  u : List (Vec ℝ)
  solved : Bool
  f : ℝ
  df : List (ℝ × ℝ × ℝ)

/-- The evaluation of a design (sample_optimize_homogenization.cpp:163-288). -/
def evaluateLattice (P : LatticeProgram p q) (a b t : List ℝ) : Option LatticeEvaluation := do
  let (g, dg) ← latticeWeight P.weightlimit P.elements.length a b
  let (u, solved) ← latticeAnalysis P.x P.elements P.T P.ufixed P.qfixed a b t
  let (_, ntg) ← setDirichlet (zeroField P.x.length 2) (freeTable P.x.length 2) P.ufixed
  let (f, df) ← latticeCompliance SF.square8 IC.gauss9Square P.x P.elements P.T (renumbering ntg).1 a b t u
  return ⟨g, dg, u, solved, f, df⟩

/-- A pass: the design and its evaluation (sample_optimize_homogenization.cpp:160-338). -/
structure LatticePass where
  a : List ℝ
  b : List ℝ
  t : List ℝ
  value : LatticeEvaluation

/-- `s` (sample_optimize_homogenization.cpp:326-333). -/
def LatticePass.s (l : LatticePass) : List ℝ := latticePack (l.a.zip (l.b.zip l.t))

/-- The loop with `left` passes left (sample_optimize_homogenization.cpp:160-338): the passes that were evaluated, and
how the program ends. -/
def latticeLoop (P : LatticeProgram p q) (fuel : ℕ) : ℕ → List ℝ → List ℝ → List ℝ → MMA (3 * P.elements.length) 1 →
    List LatticePass × Ending
  | 0, _, _, _, _ => ([], .exhausted)
  | left + 1, a, b, t, o =>
    match evaluateLattice P a b t with
    | none => ([], .undefined)
    | some e =>
      if isConvergence o.previousvalue o.epsvalue e.f then ([⟨a, b, t, e⟩], .optimised)
      else
        match (mmaOptimiser (3 * P.elements.length) fuel).update o (latticePack (a.zip (b.zip t))) e.f (latticePack e.df) e.g
            (latticePack e.dg) fun _ => none with
        | .undefined => ([⟨a, b, t, e⟩], .undefined)
        | .running => ([⟨a, b, t, e⟩], .stuck)
        | .done r =>
          match latticeUnpack P.elements.length r.1 with
          | none => ([⟨a, b, t, e⟩], .undefined)
          | some (a', b', t') =>
            let rest := latticeLoop P fuel left a' b' t' r.2
            (⟨a, b, t, e⟩ :: rest.1, rest.2)

/-- The optimiser of the program (sample_optimize_homogenization.cpp:152-157). -/
def latticeOptimiser (n : ℕ) : MMA n 1 :=
  (MMA.mk' 1 (fun _ => 0) (fun _ => 10000) (fun _ => 0) (fun _ => 1.0e-3) fun _ => 0.999).setParameters
    1.0e-5 0.1 0.01 0.5 0.7 1.2 1.0e-6

/-- The loop from the first design on (sample_optimize_homogenization.cpp:149-338). -/
def runLattice (P : LatticeProgram p q) (fuel : ℕ) : List LatticePass × Ending :=
  latticeLoop P fuel 600 (List.replicate P.elements.length 0.5) (List.replicate P.elements.length 0.5)
    (List.replicate P.elements.length 0.5) (latticeOptimiser (3 * P.elements.length))

/-- Everything between the unit cells and the loop (sample_optimize_homogenization.cpp:128-145). -/
def latticeProgram (m : SquareMesh ℝ) (held loaded : ℝ × ℝ → Bool) (value : ℝ) (T : CellTables p q) (weightlimit : ℝ) :
    Option (LatticeProgram p q) := do
  let (x, elements, ufixed, qfixed) ← latticeProblem m held loaded value
  return ⟨x, elements, ufixed, qfixed, T, weightlimit⟩

end Pansfem
