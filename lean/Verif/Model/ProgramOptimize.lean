/-
The programs that optimise densities with MMA, CONLIN and OC on a mesh of quadrilaterals: neighbours of the elements,
evaluation of a design, optimisation loop.  The three programs differ only in the optimiser; lines are those of
sample_optimize_density_mma.cpp unless another file is named.

* Mesh, supports, loads and constants are inputs; `programMesh` and the literals are put in at the end.
* The files written in every pass are replaced by the list of passes that the loop returns.
* The solvers MMA and CONLIN have inner loops without a bound on the passes, OC has one; they get a bound `fuel`.  An
  optimiser that has not returned by then ends the model of the program with `stuck`.
* The optimisers read as many entries as they were built for; other lengths are undefined.
-/
import Verif.Model.ProgramSquare
import Verif.Model.Filter
import Verif.Model.General
import Verif.Model.MMA

noncomputable section

namespace Pansfem

/-! ### Neighbours -/

/-- The first two coordinates of a node with two coordinates (the points of sample_optimize_density_mma.cpp:44-47). -/
def planePoint (v : Vec ℝ) : Option (Fin 2 → ℝ) := if v.size = 2 then some fun d => (v.values[(d : ℕ)]?).getD 0 else none

/-- The centres of gravity of the elements (sample_optimize_density_mma.cpp:44-47). -/
def elementCentres (x : List (Vec ℝ)) (elements : List (List ℕ)) : Option (List (Fin 2 → ℝ)) := do
  let points ← x.mapM planePoint
  elements.mapM (centerOfGravity ℝ points)

/-- `(cg[i] - cg[j]).Norm()` (sample_optimize_density_mma.cpp:55-57, Vector.h:296-303). -/
def planeDistance (a b : Fin 2 → ℝ) : ℝ := Real.sqrt (∑ d, (a d - b d) ^ 2)

/-- The neighbours of the element with the centre `c` and their weights (sample_optimize_density_mma.cpp:54-59). -/
def neighbourRow (R : ℝ) (cg : List (Fin 2 → ℝ)) (c : Fin 2 → ℝ) : List (ℕ × ℝ) :=
  cg.zipIdx.filterMap fun q =>
    if planeDistance c q.1 ≤ R then some (q.2, (R - planeDistance c q.1) / R) else none

/-- `neighbors` and `w` (sample_optimize_density_mma.cpp:50-60); a radius of zero makes the weights undefined. -/
def neighbourTable (R : ℝ) (cg : List (Fin 2 → ℝ)) : Option (List (List ℕ) × List (List ℝ)) :=
  if R = 0 then none
  else some (cg.map fun c => (neighbourRow R cg c).map Prod.fst, cg.map fun c => (neighbourRow R cg c).map Prod.snd)

/-! ### Evaluation of a design -/

/-- What the loop of the programs does not change (sample_optimize_density_mma.cpp:24-78). -/
structure DensityProgram where
  x : List (Vec ℝ)
  elements : List (List ℕ)
  ufixed : List ((ℕ × ℕ) × ℝ)
  qfixed : List ((ℕ × ℕ) × ℝ)
  neighbors : List (List ℕ)
  w : List (List ℝ)
  V : ℝ
  t : ℝ
  p : ℝ
  E0 : ℝ
  E1 : ℝ
  weightlimit : ℝ
  scale0 : ℝ
  scale1 : ℝ

/-- The weight of filtered densities (sample_optimize_density_mma.cpp:104-110, sample_optimize_density_oc.cpp:200-205). -/
def weightValue (P : DensityProgram) (rho : List ℝ) : Option ℝ := do
  let g ← (List.range P.elements.length).foldlM (fun g i => do
    return g + (← div? (P.scale1 * (← rho[i]?)) (P.weightlimit * P.elements.length))) 0
  return g - 1 * P.scale1

/-- `dgdrho` (sample_optimize_density_mma.cpp:105, 108). -/
def weightSensitivities (P : DensityProgram) : Option (List ℝ) :=
  (List.range P.elements.length).mapM fun _ => div? P.scale1 (P.weightlimit * P.elements.length)

/-- What a pass of the loop computes before it asks for convergence (sample_optimize_density_mma.cpp:98-174). -/
structure Evaluation where
  rho : List ℝ
  g : ℝ
  u : List (Vec ℝ)
  solved : Bool
  f : ℝ
  dfds : List ℝ
  dgds : List ℝ

/-- The evaluation of a design (sample_optimize_density_mma.cpp:98-174). -/
def evaluate (P : DensityProgram) (beta : ℝ) (s : List ℝ) : Option Evaluation := do
  let n := P.elements.length
  let rho ← heavisideVariables n beta P.neighbors P.w s
  let g ← weightValue P rho
  let dgdrho ← weightSensitivities P
  let (u, solved) ← densityAnalysis P.x P.elements P.V P.t P.p P.E0 P.E1 P.ufixed P.qfixed rho
  let (_, ntg) ← setDirichlet (zeroField P.x.length 2) (freeTable P.x.length 2) P.ufixed
  let (f, dfdrho) ← densityCompliance P.x P.elements P.V P.t P.p P.E0 P.E1 P.scale0 (renumbering ntg).1 rho u
  let dfds ← heavisideSensitivities n beta P.neighbors P.w s dfdrho
  let dgds ← heavisideSensitivities n beta P.neighbors P.w s dgdrho
  return ⟨rho, g, u, solved, f, dfds, dgds⟩

/-- The callback that the OC program passes (sample_optimize_density_oc.cpp:199-206). -/
def weightCallback (P : DensityProgram) (beta : ℝ) (s : List ℝ) : Option ℝ := do
  weightValue P (← heavisideVariables P.elements.length beta P.neighbors P.w s)

/-! ### Optimisers -/

/-- What the loop uses of an optimiser: the two numbers that `IsConvergence` reads and `UpdateVariables` with design,
`f`, `dfds`, `g`, `dgds` and the callback for the weight (sample_optimize_density_mma.cpp:80-85, 197-203). -/
structure Optimiser where
  State : Type
  previous : State → ℝ
  eps : State → ℝ
  update : State → List ℝ → ℝ → List ℝ → ℝ → List ℝ → (List ℝ → Option ℝ) → Run (List ℝ × State)

/-- A list as a vector of the length that an optimiser was built for
(`s.size()` in sample_optimize_density_mma.cpp:80). -/
def sized (n : ℕ) (l : List ℝ) : Option (Fin n → ℝ) := if h : l.length = n then some fun i => l[(i : ℕ)] else none

/-- `MMA` with one constraint (sample_optimize_density_mma.cpp:80-85, 203); the callback is not used. -/
def mmaOptimiser (n fuel : ℕ) : Optimiser where
  State := MMA n 1
  previous o := o.previousvalue
  eps o := o.epsvalue
  update o s f dfds g dgds _ :=
    match sized n s, sized n dfds, sized n dgds with
    | some s, some df, some dg =>
      match mmaUpdate o fuel s f df (fun _ => g) fun _ => dg with
      | .undefined => .undefined
      | .running => .running
      | .done r => .done (List.ofFn r.1, r.2)
    | _, _, _ => .undefined

/-- `CONLIN` with one constraint (sample_optimize_density_CONLIN.cpp:80-85, 203); the callback is not used. -/
def conlinOptimiser (n fuel : ℕ) : Optimiser where
  State := CONLIN n 1
  previous o := o.previousvalue
  eps o := o.epsvalue
  update o s f dfds g dgds _ :=
    match sized n s, sized n dfds, sized n dgds with
    | some s, some df, some dg =>
      match conlinUpdate o fuel s f df (fun _ => g) fun _ => dg with
      | .undefined => .undefined
      | .running => .running
      | .done r => .done (List.ofFn r.1, r.2)
    | _, _, _ => .undefined

/-- `OC` (sample_optimize_density_oc.cpp:80, 198-207).  The model of `OC` has callbacks that return a number; an
undefined callback is read as 0 here, see `C123_callback`. -/
def ocOptimiser (fuel : ℕ) : Optimiser where
  State := OC
  previous o := o.previousvalue
  eps o := o.epsvalue
  update o s f dfds g dgds weight := ocUpdate o fuel s f dfds g dgds fun _ y => (weight y).getD 0

/-! ### The loop -/

/-- How a program ends (sample_optimize_density_mma.cpp:88-204). -/
inductive Ending where
  | undefined
  | stuck
  | optimised
  | exhausted

/-- A pass: its number, the parameter of the filter, the design and its evaluation
(sample_optimize_density_mma.cpp:88-204). -/
structure DensityPass where
  k : ℕ
  beta : ℝ
  s : List ℝ
  value : Evaluation

/-- The parameter of the filter in a pass (sample_optimize_density_mma.cpp:90-93). -/
def nextBeta (k : ℕ) (beta : ℝ) : ℝ := if k % 40 = 0 then beta * 2 else beta

/-- The loop with `left` passes left (sample_optimize_density_mma.cpp:88-204): the passes that were evaluated, and how the
program ends. -/
def densityLoop (P : DensityProgram) (O : Optimiser) : ℕ → ℕ → ℝ → List ℝ → O.State → List DensityPass × Ending
  | 0, _, _, _, _ => ([], .exhausted)
  | left + 1, k, beta, s, o =>
    match evaluate P (nextBeta k beta) s with
    | none => ([], .undefined)
    | some e =>
      if isConvergence (O.previous o) (O.eps o) e.f then ([⟨k, nextBeta k beta, s, e⟩], .optimised)
      else
        match O.update o s e.f e.dfds e.g e.dgds (weightCallback P (nextBeta k beta)) with
        | .undefined => ([⟨k, nextBeta k beta, s, e⟩], .undefined)
        | .running => ([⟨k, nextBeta k beta, s, e⟩], .stuck)
        | .done r =>
          let rest := densityLoop P O left (k + 1) (nextBeta k beta) r.1 r.2
          (⟨k, nextBeta k beta, s, e⟩ :: rest.1, rest.2)

/-! ### The programs -/

/-- Everything before the optimiser is built (sample_optimize_density_mma.cpp:24-78). -/
def densityProgram (m : SquareMesh ℝ) (held loaded : ℝ × ℝ → Bool) (value R V t p E0 E1 weightlimit scale0 scale1 : ℝ) :
    Option DensityProgram := do
  let (x, elements, ufixed, qfixed) ← densityProblem m held loaded value
  let (neighbors, w) ← neighbourTable R (← elementCentres x elements)
  return ⟨x, elements, ufixed, qfixed, neighbors, w, V, t, p, E0, E1, weightlimit, scale0, scale1⟩

/-- The literals of the programs (sample_optimize_density_mma.cpp:24-78). -/
def sampleDensity (held loaded : ℝ × ℝ → Bool) : Option DensityProgram :=
  densityProgram programMesh held loaded (-1) 1.5 0.3 1 3 0.0001 210000 0.5 1.0e5 1

/-- The program with MMA (sample_optimize_density_mma.cpp:66-204). -/
def runMMA (P : DensityProgram) (fuel : ℕ) : List DensityPass × Ending :=
  densityLoop P (mmaOptimiser P.elements.length fuel) 500 0 0.5 (List.replicate P.elements.length 0.5)
    ((MMA.mk' 1 (fun _ => 0) (fun _ => 10000) (fun _ => 0) (fun _ => 0.01) fun _ => 1).setParameters
      1.0e-5 0.1 0.2 0.5 0.7 1.2 1.0e-6)

/-- The program with CONLIN (sample_optimize_density_CONLIN.cpp:66-204). -/
def runCONLIN (P : DensityProgram) (fuel : ℕ) : List DensityPass × Ending :=
  densityLoop P (conlinOptimiser P.elements.length fuel) 500 0 0.5 (List.replicate P.elements.length 0.5)
    ((CONLIN.mk' 1 (fun _ => 0) (fun _ => 10000) (fun _ => 0) (fun _ => 0.01) fun _ => 1).setParameters 0.2 1.0e-6)

/-- The program with OC (sample_optimize_density_oc.cpp:66-208). -/
def runOC (P : DensityProgram) (fuel : ℕ) : List DensityPass × Ending :=
  densityLoop P (ocOptimiser fuel) 500 0 0.5 (List.replicate P.elements.length 0.5)
    (OC.mk' P.elements.length 0.5 0 1.0e4 1.0e-3 0.15 (List.replicate P.elements.length 0.01)
      (List.replicate P.elements.length 1))

end Pansfem
