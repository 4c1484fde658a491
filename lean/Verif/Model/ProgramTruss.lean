/-
The truss programs: sizes of the bars optimised with OC, and sections for full stress.

* Mesh, supports, loads and constants are inputs; the literals are put in at the end.
* The files written are left out; the passes of the loop are returned as a list.
* The bisection in OC gets a bound `fuel`, as in `ProgramOptimize`; an optimiser that has not returned by then ends the
  model of the program with `stuck`.
-/
import Verif.Model.ProgramOptimize

noncomputable section

namespace Pansfem

/-! ### Size optimisation -/

/-- What the loop does not change (sample_truss_sizeoptimization.cpp:22-53). -/
structure TrussProgram where
  x : List (Vec ℝ)
  elements : List (List ℕ)
  ufixed : List ((ℕ × ℕ) × ℝ)
  qfixed : List ((ℕ × ℕ) × ℝ)
  l : List ℝ
  lsum : ℝ
  E : ℝ
  A0 : ℝ
  A1 : ℝ
  weightlimit : ℝ
  scale0 : ℝ

/-- The difference of the values at the ends of a bar, `x[element[1]] - x[element[0]]`
(sample_truss_sizeoptimization.cpp:51, sample_truss_totalstressdesign.cpp:71-72). -/
def alongBar (x : List (Vec ℝ)) (e : List ℕ) : Option (Vec ℝ) := do
  let b ← x[← e[1]?]?
  let a ← x[← e[0]?]?
  b.sub a

/-- `.Norm()` (Vector.h:296-303). -/
def Vec.norm (v : Vec ℝ) : Option ℝ := do return Real.sqrt (← v.normSq)

/-- `l[i]` (sample_truss_sizeoptimization.cpp:51). -/
def barLength (x : List (Vec ℝ)) (e : List ℕ) : Option ℝ := do (← alongBar x e).norm

/-- The weight of a design (sample_truss_sizeoptimization.cpp:70-76, 163-167). -/
def trussWeight (P : TrussProgram) (s : List ℝ) : Option ℝ := do
  let g ← (List.range P.elements.length).foldlM (fun g i => do
    return g + (← div? ((← s[i]?) * (← P.l[i]?)) (P.weightlimit * P.lsum))) 0
  return g - 1

/-- `dgds` (sample_truss_sizeoptimization.cpp:71, 74). -/
def trussWeightSensitivities (P : TrussProgram) : Option (List ℝ) :=
  (List.range P.elements.length).mapM fun i => do div? (← P.l[i]?) (P.weightlimit * P.lsum)

/-- The displacements for a design (sample_truss_sizeoptimization.cpp:84-101). -/
def trussAnalysis (P : TrussProgram) (s : List ℝ) : Option (List (Vec ℝ) × Bool) := do
  let items ← trussItems P.x P.elements P.E P.A0 P.A1 s
  staticAnalysis useScalingCG (zeroField P.x.length 2) (freeTable P.x.length 2) P.ufixed
    (items.map (fun it => .matrix it.Ke it.nte it.element) ++ [.nodal P.qfixed])

/-- What a pass of the loop computes before it asks for convergence (sample_truss_sizeoptimization.cpp:70-131). -/
structure TrussEvaluation where
  g : ℝ
  dgds : List ℝ
  u : List (Vec ℝ)
  solved : Bool
  f : ℝ
  dfds : List ℝ

/-- The evaluation of a design (sample_truss_sizeoptimization.cpp:67-131). -/
def evaluateTruss (P : TrussProgram) (s : List ℝ) : Option TrussEvaluation := do
  let g ← trussWeight P s
  let dgds ← trussWeightSensitivities P
  let (u, solved) ← trussAnalysis P s
  let (_, ntg) ← setDirichlet (zeroField P.x.length 2) (freeTable P.x.length 2) P.ufixed
  let (f, dfds) ← trussCompliance P.x P.elements P.E P.A0 P.A1 P.scale0 (renumbering ntg).1 s u
  return ⟨g, dgds, u, solved, f, dfds⟩

/-- A pass: the design and its evaluation (sample_truss_sizeoptimization.cpp:62-171). -/
structure TrussPass where
  s : List ℝ
  value : TrussEvaluation

/-- The loop with `left` passes left (sample_truss_sizeoptimization.cpp:62-171): the passes that were evaluated, and how
the program ends. -/
def trussLoop (P : TrussProgram) (fuel : ℕ) : ℕ → List ℝ → OC → List TrussPass × Ending
  | 0, _, _ => ([], .exhausted)
  | left + 1, s, o =>
    match evaluateTruss P s with
    | none => ([], .undefined)
    | some e =>
      if isConvergence o.previousvalue o.epsvalue e.f then ([⟨s, e⟩], .optimised)
      else
        match (ocOptimiser fuel).update o s e.f e.dfds e.g e.dgds (trussWeight P) with
        | .undefined => ([⟨s, e⟩], .undefined)
        | .running => ([⟨s, e⟩], .stuck)
        | .done r =>
          let rest := trussLoop P fuel left r.1 r.2
          (⟨s, e⟩ :: rest.1, rest.2)

/-- Mesh, supports and loads (sample_truss_sizeoptimization.cpp:30-47, sample_truss_totalstressdesign.cpp:25-42): nodes,
elements, `ufixed`, `qfixed`. -/
def trussProblem (m : GrandStructure ℝ) (held loaded : ℝ × ℝ → Bool) (value : ℝ) :
    Option (List (Vec ℝ) × List (List ℕ) × List ((ℕ × ℕ) × ℝ) × List ((ℕ × ℕ) × ℝ)) := do
  let x ← m.nodes
  let elements ← m.elements
  let ufixed ← m.fixedlist [0, 1] held
  let qfixed ← m.fixedlist [1] loaded
  return (nodeVectors x, elements, fixedDofs ufixed, setLoads value (fixedDofs qfixed))

/-- Everything before the loop but the optimiser (sample_truss_sizeoptimization.cpp:22-53). -/
def trussProgram (m : GrandStructure ℝ) (held loaded : ℝ × ℝ → Bool) (value E A0 A1 weightlimit scale0 : ℝ) :
    Option TrussProgram := do
  let (x, elements, ufixed, qfixed) ← trussProblem m held loaded value
  let l ← elements.mapM (barLength x)
  return ⟨x, elements, ufixed, qfixed, l, l.foldl (· + ·) 0, E, A0, A1, weightlimit, scale0⟩

/-- The program from the first design on (sample_truss_sizeoptimization.cpp:57-171). -/
def runTruss (P : TrussProgram) (fuel : ℕ) : List TrussPass × Ending :=
  trussLoop P fuel 50 (List.replicate P.elements.length 0.5)
    (OC.mk' P.elements.length 0.5 0 1.0e3 1.0e-3 0.15 (List.replicate P.elements.length 0.01)
      (List.replicate P.elements.length 1))

/-! ### Sections for full stress -/

/-- The new section of a bar (sample_truss_totalstressdesign.cpp:71-78). -/
def stressSection (x u : List (Vec ℝ)) (E sigmat sigmac A : ℝ) (e : List ℕ) : Option ℝ := do
  let li ← alongBar x e
  let di ← alongBar u e
  let f ← div? (← (← di.smul (E * A)).dot li) ((← li.norm) ^ 2)
  if 0 < f then div? f sigmat else div? (-f) sigmac

/-- Displacements and new sections for the sections `A0` (sample_truss_totalstressdesign.cpp:43-79). -/
def stressDesign (x : List (Vec ℝ)) (elements : List (List ℕ)) (ufixed qfixed : List ((ℕ × ℕ) × ℝ))
    (A0 E sigmat sigmac : ℝ) : Option (List (Vec ℝ) × Bool × List ℝ) := do
  let items ← designItems 2 (trussCore E) [0, 1] x elements (elements.map fun _ => A0)
  let (u, solved) ← staticAnalysis useCG (zeroField x.length 2) (freeTable x.length 2) ufixed
    (items.map (fun it => .matrix it.Ke it.nte it.element) ++ [.nodal qfixed])
  let A ← elements.mapM (stressSection x u E sigmat sigmac A0)
  return (u, solved, A)

/-! ### The literals -/

/-- `GrandStructure2D<double>(4000.0, 2000.0, 4, 2, 1500)` (sample_truss_sizeoptimization.cpp:30,
sample_truss_totalstressdesign.cpp:25). -/
def sampleGround : GrandStructure ℝ := ⟨4000, 2000, 4, 2, 1500⟩

/-- The predicate of the supports with the `abs` of `double` (sample_truss_sizeoptimization.cpp:34,
sample_truss_totalstressdesign.cpp:29). -/
def trussHeld (r : ℝ × ℝ) : Bool := decide (|r.1| < 1 / 10 ^ 5 ∧ (|r.2| < 1 / 10 ^ 5 ∨ |r.2 - 2000| < 1 / 10 ^ 5))

/-- The predicate of the loads with the `abs` of `double` (sample_truss_sizeoptimization.cpp:40,
sample_truss_totalstressdesign.cpp:35). -/
def trussLoaded (r : ℝ × ℝ) : Bool := decide (|r.1 - 4000| < 1 / 10 ^ 5 ∧ |r.2 - 1000| < 1 / 10 ^ 5)

/-- The predicate of the supports with the `abs` of `int` (sample_truss_sizeoptimization.cpp:34). -/
def trussHeldInt (r : ℝ × ℝ) : Bool :=
  decide (((|truncate r.1| : ℤ) : ℝ) < 1 / 10 ^ 5 ∧
    (((|truncate r.2| : ℤ) : ℝ) < 1 / 10 ^ 5 ∨ ((|truncate (r.2 - 2000)| : ℤ) : ℝ) < 1 / 10 ^ 5))

/-- The predicate of the loads with the `abs` of `int` (sample_truss_sizeoptimization.cpp:40). -/
def trussLoadedInt (r : ℝ × ℝ) : Bool :=
  decide (((|truncate (r.1 - 4000)| : ℤ) : ℝ) < 1 / 10 ^ 5 ∧ ((|truncate (r.2 - 1000)| : ℤ) : ℝ) < 1 / 10 ^ 5)

/-- The literals of the size optimisation (sample_truss_sizeoptimization.cpp:22-53). -/
def sampleTruss (held loaded : ℝ × ℝ → Bool) : Option TrussProgram :=
  trussProgram sampleGround held loaded (-5000) 210000 1.0e-5 1.5e2 0.5 1.0e-3

/-- The program for full stress with its literals (sample_truss_totalstressdesign.cpp:19-79). -/
def sampleStress (held loaded : ℝ × ℝ → Bool) : Option (List (Vec ℝ) × Bool × List ℝ) := do
  let (x, elements, ufixed, qfixed) ← trussProblem sampleGround held loaded (-5000)
  stressDesign x elements ufixed qfixed 0.25 200000 50 50

end Pansfem
