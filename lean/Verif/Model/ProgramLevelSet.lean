/-
The program that optimises with a level set function (sample/optimize/sample_optimize_levelset.cpp).

* Mesh, supports, loads and constants are inputs; the literals are put in at the end.
* The files and the output are replaced by the list of passes that the loop returns.
* `TD`, `TDN` and the averages of `phi` are vectors with one entry there and numbers here.
* `nvol` is a `double` that is compared with the number of the pass.
-/
import Verif.Model.ProgramOptimize
import Verif.Model.ProgramDynamic
import Mathlib.Analysis.SpecialFunctions.Exp

noncomputable section

namespace Pansfem

/-- What the loop does not change (sample_optimize_levelset.cpp:25-71). -/
structure LevelSetProgram where
  x : List (Vec ℝ)
  elements : List (List ℕ)
  ufixed : List ((ℕ × ℕ) × ℝ)
  qfixed : List ((ℕ × ℕ) × ℝ)
  phifixed : List ((ℕ × ℕ) × ℝ)
  Vmax : ℝ
  tau : ℝ
  E0 : ℝ
  Emin : ℝ
  nu : ℝ
  nvol : ℝ
  dt : ℝ
  d : ℝ
  p : ℝ

/-! ### Topological derivative -/

/-- `A1` (sample_optimize_levelset.cpp:36). -/
def topologicalA1 (E0 nu : ℝ) : Option ℝ :=
  div? (-1.5 * (1 - nu) * (1 - 14 * nu + 15 * nu ^ 2) * E0) ((1 + nu) * (7 - 5 * nu) * (1 - 2 * nu) ^ 2)

/-- `A2` (sample_optimize_levelset.cpp:37). -/
def topologicalA2 (E0 nu : ℝ) : Option ℝ := div? (7.5 * (1 - nu) * E0) ((1 + nu) * (7 - 5 * nu))

/-- The modulus `(A1 + 2.0*A2)*(1.0 - pow(c, 2.0))` and the ratio `c = A1/(A1 + 2.0*A2)`
(sample_optimize_levelset.cpp:38, 121). -/
def topologicalMaterial (E0 nu : ℝ) : Option (ℝ × ℝ) := do
  let A1 ← topologicalA1 E0 nu
  let A2 ← topologicalA2 E0 nu
  let c ← div? A1 (A1 + 2 * A2)
  return ((A1 + 2 * A2) * (1 - c ^ 2), c)

/-- `ue*(Ke*ue)` (sample_optimize_levelset.cpp:119-120). -/
def elementWork (u : List (Vec ℝ)) (it : ElemData ℝ) : Option ℝ := do
  let ue ← elementVector u it.nte it.element
  ue.dot (← it.Ke.mulVec ue)

/-- `(1.0e-4 + str[i]*(1.0 - 1.0e-4))*ue*(Ke*ue)` (sample_optimize_levelset.cpp:119, 122). -/
def topologicalDerivative (str : ℝ) (u : List (Vec ℝ)) (it : ElemData ℝ) : Option ℝ := do
  let ue ← elementVector u it.nte it.element
  (← ue.smul (1.0e-4 + str * (1 - 1.0e-4))).dot (← it.Ke.mulVec ue)

/-! ### Analysis -/

/-- `Emin + str[i]*(E0 - Emin)` (sample_optimize_levelset.cpp:89). -/
def levelsetModulus (E0 Emin str : ℝ) : ℝ := Emin + str * (E0 - Emin)

/-- The stiffness loop (sample_optimize_levelset.cpp:86-91, 115-118). -/
def levelsetItems (P : LevelSetProgram) (str : List ℝ) : Option (List (ElemData ℝ)) :=
  designItems 2 (fun E X => planeStressStiffness SF.square4 IC.gauss4Square X E P.nu 1) [0, 1] P.x P.elements
    (str.map (levelsetModulus P.E0 P.Emin))

/-- The displacements for a shape (sample_optimize_levelset.cpp:77-97). -/
def levelsetAnalysis (P : LevelSetProgram) (str : List ℝ) : Option (List (Vec ℝ) × Bool) := do
  let items ← levelsetItems P str
  staticAnalysis useScalingCG (zeroField P.x.length 2) (freeTable P.x.length 2) P.ufixed
    (items.map (fun it => .matrix it.Ke it.nte it.element) ++ [.nodal P.qfixed])

/-- `std::accumulate(l.begin(), l.end(), 0.0)/(double)n` (sample_optimize_levelset.cpp:70, 126, 128). -/
def listMean (l : List ℝ) (n : ℕ) : Option ℝ := div? (l.foldl (· + ·) 0) n

/-- What a pass computes before it asks for convergence (sample_optimize_levelset.cpp:77-128). -/
structure LevelSetValue where
  u : List (Vec ℝ)
  solved : Bool
  objective : ℝ
  TD : List ℝ
  TDN : List ℝ
  vol : ℝ
  ex : ℝ
  lambda : ℝ

/-- The volume that a pass aims at (sample_optimize_levelset.cpp:127). -/
def volumeTarget (P : LevelSetProgram) (volInit : ℝ) (t : ℕ) : Option ℝ := do
  return P.Vmax + (volInit - P.Vmax) * max 0 (1 - (← div? ((t : ℝ) + 1) P.nvol))

/-- The evaluation of a shape (sample_optimize_levelset.cpp:77-128); `old` is the entry of `objective` that is added
to. -/
def levelsetEvaluate (P : LevelSetProgram) (volInit : ℝ) (t : ℕ) (old : ℝ) (str : List ℝ) : Option LevelSetValue := do
  let (u, solved) ← levelsetAnalysis P str
  let items ← levelsetItems P str
  let objective ← items.foldlM (fun s it => do return s + (← elementWork u it)) old
  let (E, c) ← topologicalMaterial P.E0 P.nu
  let tops ← designItems 2 (fun E X => planeStressStiffness SF.square4 IC.gauss4Square X E c 1) [0, 1] P.x P.elements
    (P.elements.map fun _ => E)
  let TD ← (List.range tops.length).mapM fun i => do topologicalDerivative (← str[i]?) u (← tops[i]?)
  let TDN ← nodalFromElemental ℝ P.x.length (0 : ℝ) TD P.elements
  let vol ← listMean str P.elements.length
  let ex ← volumeTarget P volInit t
  let lambda := (← listMean TDN P.x.length) * Real.exp (P.p * ((← div? (vol - ex) ex) + P.d))
  return ⟨u, solved, objective, TD, TDN, vol, ex, lambda⟩

/-! ### Convergence -/

/-- `fabs(objective[t] - objective[t - k]) < 0.01*fabs(objective[t])` (sample_optimize_levelset.cpp:133-137); a negative
index is undefined. -/
def objectiveNear (objective : List ℝ) (t k : ℕ) : Option Bool := do
  if t < k then none
  else
    let a ← objective[t]?
    let b ← objective[t - k]?
    return decide (|a - b| < 0.01 * |a|)

/-- The criterion (sample_optimize_levelset.cpp:132-137): the operands of `&&` are evaluated from left to right until one
is false. -/
def levelsetConverged (P : LevelSetProgram) (objective : List ℝ) (t : ℕ) (vol : ℝ) : Option Bool := do
  if ¬ P.nvol < t then return false
  if ¬ |vol - P.Vmax| < 0.005 then return false
  [5, 4, 3, 2, 1].foldlM (fun ok k => if ok then objectiveNear objective t k else some false) true

/-! ### Update -/

/-- `C` (sample_optimize_levelset.cpp:147-151). -/
def levelsetScale (P : LevelSetProgram) (TDN : List ℝ) : Option ℝ := do
  let s ← (List.range P.x.length).foldlM (fun s i => do return s + |← TDN[i]?|) 0
  div? P.elements.length s

/-- `Te = Me/dt + Ke`, `Ye = Me/dt*phie + Fe` (sample_optimize_levelset.cpp:169-171). -/
def levelsetElem (dt : ℝ) (phi : List (Vec ℝ)) (it : TimeItem ℝ) : Option (Mat ℝ × Vec ℝ) := do
  let phie ← elementVector phi it.nte it.element
  let Te ← (← it.Me.sdiv dt).add it.Ke
  let Ye ← (← (← it.Me.sdiv dt).mulVec phie).add (← it.Fe)
  return (Te, Ye)

/-- The element loop (sample_optimize_levelset.cpp:160-174). -/
def levelsetCalls (P : LevelSetProgram) (C lambda : ℝ) (TDN : List ℝ) (phi : List (Vec ℝ)) :
    Option (List (AsmCall ℝ)) := do
  let items ← reactionItems P.x P.elements (P.tau * P.elements.length) (fun u _ => C * (u - lambda))
    (TDN.map fun a => ⟨[a]⟩)
  let cs ← items.mapM fun it => do
    let (Te, Ye) ← levelsetElem P.dt phi it
    return [.matrix Te it.nte it.element, .load Ye it.nte it.element]
  return cs.flatten

/-- `std::max(std::min(1.0, phi[i](0)), -1.0)` (sample_optimize_levelset.cpp:181). -/
def clampEntry (v : Vec ℝ) : Option (Vec ℝ) := do
  let a ← v.values[0]?
  return ⟨v.values.set 0 (max (min 1 a) (-1))⟩

/-- The new level set function (sample_optimize_levelset.cpp:147-182): the values before and after they are cut off, and
whether the solver met its criterion. -/
def levelsetUpdate (P : LevelSetProgram) (phi : List (Vec ℝ)) (v : LevelSetValue) :
    Option (List (Vec ℝ) × List (Vec ℝ) × Bool) := do
  let C ← levelsetScale P v.TDN
  let (phi₀, t₁) ← setDirichlet phi (freeTable P.x.length 1) P.phifixed
  let (raw, solved) ← solveStep useScalingCG phi₀ (renumbering t₁).1 (renumbering t₁).2
    (← levelsetCalls P C v.lambda v.TDN phi₀)
  return (raw, ← raw.mapM clampEntry, solved)

/-- `str` for a level set function (sample_optimize_levelset.cpp:184-191). -/
def shapeOf (P : LevelSetProgram) (phi : List (Vec ℝ)) : Option (List ℝ) := do
  let phie ← elementalFromNodal ℝ (0 : ℝ) (← phi.mapM fun v => v.values[0]?) P.elements
  return phie.map fun a => if a < 0 then 0 else 1

/-! ### The loop -/

/-- A pass: its number, level set function, shape and their evaluation (sample_optimize_levelset.cpp:75-192). -/
structure LevelSetPass where
  t : ℕ
  phi : List (Vec ℝ)
  str : List ℝ
  value : LevelSetValue

/-- The loop with `left` passes left (sample_optimize_levelset.cpp:75-192). -/
def levelsetLoop (P : LevelSetProgram) (volInit : ℝ) : ℕ → ℕ → List ℝ → List (Vec ℝ) → List ℝ → List LevelSetPass × Ending
  | 0, _, _, _, _ => ([], .exhausted)
  | left + 1, t, objective, phi, str =>
    match (do levelsetEvaluate P volInit t (← objective[t]?) str) with
    | none => ([], .undefined)
    | some v =>
      match levelsetConverged P (objective.set t v.objective) t v.vol with
      | none => ([⟨t, phi, str, v⟩], .undefined)
      | some true => ([⟨t, phi, str, v⟩], .optimised)
      | some false =>
        match (do
            let (_, phi', _) ← levelsetUpdate P phi v
            return (phi', ← shapeOf P phi')) with
        | none => ([⟨t, phi, str, v⟩], .undefined)
        | some r =>
          let rest := levelsetLoop P volInit left (t + 1) (objective.set t v.objective) r.1 r.2
          (⟨t, phi, str, v⟩ :: rest.1, rest.2)

/-- From the first level set function on (sample_optimize_levelset.cpp:68-192). -/
def runLevelSet (P : LevelSetProgram) (tmax : ℕ) : List LevelSetPass × Ending :=
  let str := List.replicate P.elements.length (1 : ℝ)
  match listMean str P.elements.length with
  | none => ([], .undefined)
  | some volInit =>
    levelsetLoop P volInit tmax 0 (List.replicate tmax 0) (List.replicate P.x.length ⟨[1]⟩) str

/-! ### The program -/

/-- Mesh and boundary conditions (sample_optimize_levelset.cpp:42-65). -/
def levelsetProgram (m : SquareMesh ℝ) (held loaded border : ℝ × ℝ → Bool)
    (value Vmax tau E0 Emin nu nvol dt d p : ℝ) : Option LevelSetProgram := do
  let (x, elements, ufixed, qfixed) ← densityProblem m held loaded value
  let phifixed ← m.fixedlist [0] border
  return ⟨x, elements, ufixed, qfixed, fixedDofs phifixed, Vmax, tau, E0, Emin, nu, nvol, dt, d, p⟩

/-- The predicate of the outer boundary with the `abs` of `double` (sample_optimize_levelset.cpp:61). -/
def outerSides (r : ℝ × ℝ) : Bool :=
  decide (|r.1 - 0| < 1 / 10 ^ 5 ∨ |r.1 - 60| < 1 / 10 ^ 5 ∨ |r.2 - 0| < 1 / 10 ^ 5 ∨ |r.2 - 40| < 1 / 10 ^ 5)

/-- The predicate of the outer boundary with the `abs` of `int` (sample_optimize_levelset.cpp:61). -/
def outerSidesInt (r : ℝ × ℝ) : Bool :=
  decide (((|truncate (r.1 - 0)| : ℤ) : ℝ) < 1 / 10 ^ 5 ∨ ((|truncate (r.1 - 60)| : ℤ) : ℝ) < 1 / 10 ^ 5 ∨
    ((|truncate (r.2 - 0)| : ℤ) : ℝ) < 1 / 10 ^ 5 ∨ ((|truncate (r.2 - 40)| : ℤ) : ℝ) < 1 / 10 ^ 5)

/-- The literals (sample_optimize_levelset.cpp:25-65). -/
def sampleLevelSet (held loaded border : ℝ × ℝ → Bool) : Option LevelSetProgram :=
  levelsetProgram programMesh held loaded border (-1) 0.5 2.0e-4 1 1.0e-4 0.3 100 0.1 (-0.02) 4

end Pansfem
