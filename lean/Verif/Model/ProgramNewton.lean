/-
The Newton loops of /repo/sample: solid/sample_totallagrange.cpp, solid/sample_updatedlagrange.cpp,
navierstokes/sample_navierstokes_static.cpp.

Mesh, boundary conditions, loads and constants come from files or are literals there; they are inputs here.  Files
and console output are left out.
-/
import Verif.Model.ProgramMain
import Verif.Model.Nonlinear

namespace Pansfem

/-- `u[i] += du[i]` for all `i` (sample_totallagrange.cpp:79-81, sample_navierstokes_static.cpp:96-98); both have
`x.size()` entries. -/
def addFields {K : Type} [Add K] : List (Vec K) → List (Vec K) → Option (List (Vec K))
  | [], [] => some []
  | a :: u, b :: v => do return (← a.add b) :: (← addFields u v)
  | _, _ => none

/-- `qfixedi.second *= c` for all entries (sample_totallagrange.cpp:60-64, sample_navierstokes_static.cpp:39-41,
65-67). -/
def scaleValues {K : Type} [Mul K] (c : K) (q : List ((ℕ × ℕ) × K)) : List ((ℕ × ℕ) × K) :=
  q.map fun p => (p.1, p.2 * c)

noncomputable section

/-- `normR/normF < 1.0e-10` with `normR` the sum of the squares of `R` and `normF` the norm of the loads
(sample_totallagrange.cpp:59-69). -/
def loadTest (q : List ((ℕ × ℕ) × ℝ)) (normR : ℝ) : Option Bool := do
  let r ← div? normR (Real.sqrt (q.map fun p => p.2 ^ 2).sum)
  return decide (r < 1 / 10 ^ 10)

/-- `normR < 1.0e-10` (sample_navierstokes_static.cpp:88). -/
def plainTest (normR : ℝ) : Option Bool := some (decide (normR < 1 / 10 ^ 10))

/-- One pass of the loop (sample_totallagrange.cpp:48-81, sample_navierstokes_static.cpp:72-98).  `loop` are the
element routines and loads for the current field, `z` the zero increment.  The overload of `Assembling` with the
matrix is given the current field in the solid programs (`own`) and the zero increment in the flow program.  The
result is `none` inside if the test holds and the loop is left; the flag is the one of the solver, which the programs
do not ask for. -/
def newtonIter (s : LinSolver) (own : Bool) (test : ℝ → Option Bool)
    (loop : List (Vec ℝ) → Option (List (AsmCall ℝ))) (t : List (List ℤ)) (N : ℕ) (z u : List (Vec ℝ)) :
    Option (Option (List (Vec ℝ) × Bool)) := do
  let (A, R) ← asmCalls (if own then u else z) t (← loop u) (LIL.new N N, List.replicate N 0)
  if ← test (R.map fun r => r * r).sum then return none
  let (Kmod, _) ← CSR.ofLIL A
  let (x, conv) ← s R.length Kmod fun i => R[(i : ℕ)]
  let du ← disassembling z (List.ofFn x) t
  return some (← addFields u du, conv)

/-- The loop (sample_totallagrange.cpp:47-82, sample_navierstokes_static.cpp:71-99): at most `k` passes; the flag
tells whether it was left through `break`. -/
def newtonLoop (s : LinSolver) (own : Bool) (test : ℝ → Option Bool)
    (loop : List (Vec ℝ) → Option (List (AsmCall ℝ))) (t : List (List ℤ)) (N : ℕ) (z : List (Vec ℝ)) :
    ℕ → List (Vec ℝ) → Option (List (Vec ℝ) × Bool)
  | 0, u => some (u, false)
  | k + 1, u => do
    match ← newtonIter s own test loop t N z u with
    | none => return (u, true)
    | some (v, _) => newtonLoop s own test loop t N z k v

/-- The loop over the load steps (sample_totallagrange.cpp:44-91): `incs` are the factors `finc/(double)fincmax`; the
flag tells whether all Newton loops were left through `break`. -/
def loadSteps (s : LinSolver) (loop : List (Vec ℝ) → Option (List (AsmCall ℝ))) (q : List ((ℕ × ℕ) × ℝ))
    (t : List (List ℤ)) (N : ℕ) (z : List (Vec ℝ)) (itr : ℕ) :
    List ℝ → List (Vec ℝ) → Option (List (Vec ℝ) × Bool)
  | [], u => some (u, true)
  | c :: incs, u => do
    let (v, b) ← newtonLoop s true (loadTest (scaleValues c q))
      (fun u => do return (← loop u) ++ [.nodal (scaleValues c q)]) t N z itr u
    let (w, b') ← loadSteps s loop q t N z itr incs v
    return (w, b && b')

/-- `finc/(double)fincmax` for `finc = 1, …, fincmax` (sample_totallagrange.cpp:44, 62). -/
def loadFactors (fincmax : ℕ) : List ℝ := (List.range fincmax).map fun i => ((i + 1 : ℕ) : ℝ) / (fincmax : ℝ)

/-- `main` (sample_totallagrange.cpp:30-91) for any element routine. -/
def loadAnalysis (s : LinSolver) (loop : List (Vec ℝ) → Option (List (AsmCall ℝ))) (z : List (Vec ℝ))
    (t₀ : List (List ℤ)) (bc q : List ((ℕ × ℕ) × ℝ)) (fincmax itr : ℕ) : Option (List (Vec ℝ) × Bool) := do
  let (u, t₁) ← setDirichlet z t₀ bc
  loadSteps s loop q (renumbering t₁).1 (renumbering t₁).2 z itr (loadFactors fincmax) u

/-- The loop over the boundary values (sample_navierstokes_static.cpp:61-100): before every Newton loop the boundary
values are set anew, in the field and in the numbered table. -/
def boundarySteps (s : LinSolver) (loop : List (Vec ℝ) → Option (List (AsmCall ℝ))) (bc : List ((ℕ × ℕ) × ℝ))
    (N : ℕ) (z : List (Vec ℝ)) (itr : ℕ) :
    List ℝ → List (List ℤ) → List (Vec ℝ) → Option (List (Vec ℝ) × Bool)
  | [], _, u => some (u, true)
  | c :: incs, t, u => do
    let (w, t') ← setDirichlet u t (scaleValues c bc)
    let (v, b) ← newtonLoop s false plainTest loop t' N z itr w
    let (y, b') ← boundarySteps s loop bc N z itr incs t' v
    return (y, b && b')

/-- `(k + 1)/(double)kmax` for `k = 1, …, kmax - 1` (sample_navierstokes_static.cpp:61, 66). -/
def boundaryFactors (kmax : ℕ) : List ℝ := (List.range (kmax - 1)).map fun i => ((i + 2 : ℕ) : ℝ) / (kmax : ℝ)

/-- `main` up to the field (sample_navierstokes_static.cpp:32-100): a linear analysis with the first part of the
boundary values, then the Newton loops. -/
def boundaryAnalysis (first s : LinSolver) (calls₀ : List (AsmCall ℝ))
    (loop : List (Vec ℝ) → Option (List (AsmCall ℝ))) (z : List (Vec ℝ)) (t₀ : List (List ℤ))
    (bc : List ((ℕ × ℕ) × ℝ)) (kmax itr : ℕ) : Option (List (Vec ℝ) × Bool) := do
  let (u, t₁) ← setDirichlet z t₀ (scaleValues (1 / (kmax : ℝ)) bc)
  let (v, _) ← solveStep first u (renumbering t₁).1 (renumbering t₁).2 calls₀
  boundarySteps s loop bc (renumbering t₁).2 z itr (boundaryFactors kmax) (renumbering t₁).1 v

/-! ### The solid programs -/

/-- The element loop `Ke`, `Qe`, `Assembling(K, R, u, Ke, Qe, …)` (sample_totallagrange.cpp:51-57). -/
def bothCalls {n d : ℕ} (k : ℕ) (core : Matrix (Fin n) (Fin d) ℝ → Matrix (Fin n) (Fin k) ℝ →
      Option (Matrix (Fin n × Fin k) (Fin n × Fin k) ℝ × (Fin n × Fin k → ℝ)))
    (doulist : List ℕ) (x : List (Vec ℝ)) (elements : List (List ℕ)) (u : List (Vec ℝ)) :
    Option (List (AsmCall ℝ)) :=
  elements.mapM fun e => do
    let nte ← interleaved k e.length doulist
    let X ← gather x e n d
    let U ← gather u e n k
    let (Ke, Qe) ← core X U
    return .both (flatM Ke) (flatV Qe) nte e

/-- `main` (sample_totallagrange.cpp:30-91). -/
def solidTLAnalysis (x : List (Vec ℝ)) (elements : List (List ℕ)) (bc q : List ((ℕ × ℕ) × ℝ)) (E V : ℝ) :
    Option (List (Vec ℝ) × Bool) :=
  loadAnalysis useScalingCG (bothCalls 3 (fun X U => solidTL SF.cubic8 IC.gauss8Cubic X U E V) [0, 1, 2] x elements)
    (zeroField x.length 3) (freeTable x.length 3) bc q 100 100

/-- `main` (sample_updatedlagrange.cpp:30-91). -/
def solidULAnalysis (x : List (Vec ℝ)) (elements : List (List ℕ)) (bc q : List ((ℕ × ℕ) × ℝ)) (E V : ℝ) :
    Option (List (Vec ℝ) × Bool) :=
  loadAnalysis useScalingCG (bothCalls 3 (fun X U => solidUL SF.cubic8 IC.gauss8Cubic X U E V) [0, 1, 2] x elements)
    (zeroField x.length 3) (freeTable x.length 3) bc q 100 100

end

end Pansfem
