/-
Supports and loads that the optimisation programs take from `SquareMesh`, and the analysis of the program that optimises
unit cells on such a mesh.

* The predicates are lambdas in the programs; they are parameters here.  The unqualified `abs` in them may be that of
  `int` or that of `double`, depending on the headers.
* Coordinates `(x, y)` of the mesher are turned into vectors of size 2.
-/
import Verif.Model.ProgramLattice
import Verif.Model.Mesh

noncomputable section

namespace Pansfem

variable {p q : ℕ}

/-- A list of `GenerateFixedlist` as `SetDirichlet` and `Assembling` read it; the dofs are not negative there, see
`dofsOk` (SquareMesh.h:194-208). -/
def fixedDofs (l : List ((ℕ × ℤ) × ℝ)) : List ((ℕ × ℕ) × ℝ) := l.map fun r => ((r.1.1, r.1.2.toNat), r.2)

/-- The loop that sets the loads (sample_optimize_homogenization.cpp:143-145, sample_optimize_density_mma.cpp:39-41). -/
def setLoads (value : ℝ) (l : List ((ℕ × ℕ) × ℝ)) : List ((ℕ × ℕ) × ℝ) := l.map fun r => (r.1, value)

/-- The nodes as vectors (SquareMesh.h:55-78, 94-120). -/
def nodeVectors (l : List (ℝ × ℝ)) : List (Vec ℝ) := l.map fun r => ⟨[r.1, r.2]⟩

/-- Mesh, supports and loads (sample_optimize_homogenization.cpp:128-145): nodes, elements, `ufixed`, `qfixed`. -/
def latticeProblem (m : SquareMesh ℝ) (held loaded : ℝ × ℝ → Bool) (value : ℝ) :
    Option (List (Vec ℝ) × List (List ℕ) × List ((ℕ × ℕ) × ℝ) × List ((ℕ × ℕ) × ℝ)) := do
  let x ← m.nodes2
  let elements ← SquareMesh.elements2 m.nx m.ny
  let ufixed ← m.fixedlist2 [0, 1] held
  let qfixed ← m.fixedlist2 [1] loaded
  return (nodeVectors x, elements, fixedDofs ufixed, setLoads value (fixedDofs qfixed))

/-- The displacements for a design (sample_optimize_homogenization.cpp:182-215). -/
def latticeAnalysis (x : List (Vec ℝ)) (elements : List (List ℕ)) (T : CellTables p q)
    (ufixed qfixed : List ((ℕ × ℕ) × ℝ)) (a b t : List ℝ) : Option (List (Vec ℝ) × Bool) := do
  let items ← latticeItems SF.square8 IC.gauss9Square x elements T a b t
  staticAnalysis useScalingCG (zeroField x.length 2) (freeTable x.length 2) ufixed
    (items.map (fun it => .matrix it.Ke it.nte it.element) ++ [.nodal qfixed])

/-- `SquareMesh<double>(60.0, 40.0, 60, 40)` (sample_optimize_homogenization.cpp:128,
sample_optimize_density_mma.cpp:24). -/
def programMesh : SquareMesh ℝ := ⟨60, 40, 60, 40⟩

/-- `as` and `bs` (sample_optimize_homogenization.cpp:35-36). -/
def programSizes : Fin 6 → ℝ := ![0.001, 0.2, 0.4, 0.6, 0.8, 0.999]

/-- The predicate of the supports with the `abs` of `double` (sample_optimize_homogenization.cpp:132,
sample_optimize_density_mma.cpp:28). -/
def leftSide (r : ℝ × ℝ) : Bool := decide (|r.1| < 1 / 10 ^ 5)

/-- The predicate of the loads with the `abs` of `double` (sample_optimize_homogenization.cpp:138). -/
def middleRight (r : ℝ × ℝ) : Bool := decide (|r.1 - 60| < 1 / 10 ^ 5 ∧ |r.2 - 20| < 1 + 1 / 10 ^ 5)

/-- The conversion of `double` to `int` that the `abs` of `int` brings: the fractional part is dropped
(sample_optimize_homogenization.cpp:132, 138). -/
def truncate (r : ℝ) : ℤ := if 0 ≤ r then ⌊r⌋ else ⌈r⌉

/-- The predicate of the supports with the `abs` of `int` (sample_optimize_homogenization.cpp:132). -/
def leftSideInt (r : ℝ × ℝ) : Bool := decide (((|truncate r.1| : ℤ) : ℝ) < 1 / 10 ^ 5)

/-- The predicate of the loads with the `abs` of `int` (sample_optimize_homogenization.cpp:138). -/
def middleRightInt (r : ℝ × ℝ) : Bool :=
  decide (((|truncate (r.1 - 60)| : ℤ) : ℝ) < 1 / 10 ^ 5 ∧ ((|truncate (r.2 - 20)| : ℤ) : ℝ) < 1 + 1 / 10 ^ 5)

/-- Mesh, supports and loads of the density programs (sample_optimize_density_mma.cpp:24-41, with the same lines in
sample_optimize_density_oc.cpp and sample_optimize_density_CONLIN.cpp): nodes, elements, `ufixed`, `qfixed`. -/
def densityProblem (m : SquareMesh ℝ) (held loaded : ℝ × ℝ → Bool) (value : ℝ) :
    Option (List (Vec ℝ) × List (List ℕ) × List ((ℕ × ℕ) × ℝ) × List ((ℕ × ℕ) × ℝ)) := do
  let x ← m.nodes
  let elements ← SquareMesh.elements m.nx m.ny
  let ufixed ← m.fixedlist [0, 1] held
  let qfixed ← m.fixedlist [1] loaded
  return (nodeVectors x, elements, fixedDofs ufixed, setLoads value (fixedDofs qfixed))

/-- The displacements for filtered densities (sample_optimize_density_mma.cpp:118-138,
sample_optimize_density_oc.cpp:113-133). -/
def densityAnalysis (x : List (Vec ℝ)) (elements : List (List ℕ)) (V t p E0 E1 : ℝ)
    (ufixed qfixed : List ((ℕ × ℕ) × ℝ)) (rho : List ℝ) : Option (List (Vec ℝ) × Bool) := do
  let items ← densityItems x elements V t p E0 E1 rho
  staticAnalysis useScalingCG (zeroField x.length 2) (freeTable x.length 2) ufixed
    (items.map (fun it => .matrix it.Ke it.nte it.element) ++ [.nodal qfixed])

/-- The predicate of the loads with the `abs` of `double` (sample_optimize_density_mma.cpp:34). -/
def rightPoint (r : ℝ × ℝ) : Bool := decide (|r.1 - 60| < 1 / 10 ^ 5 ∧ |r.2 - 20| < 1 / 10 ^ 5)

/-- The predicate of the loads with the `abs` of `int` (sample_optimize_density_mma.cpp:34). -/
def rightPointInt (r : ℝ × ℝ) : Bool :=
  decide (((|truncate (r.1 - 60)| : ℤ) : ℝ) < 1 / 10 ^ 5 ∧ ((|truncate (r.2 - 20)| : ℤ) : ℝ) < 1 / 10 ^ 5)

end Pansfem
