/-
What the properties of the optimisation programs refer to.
-/
import Verif.Model.ProgramOptimize
import Verif.Spec.ProgramDesign
import Verif.Spec.ProgramSquare
import Verif.Spec.PlaneEnergy
import Verif.Props.C43_Filters

noncomputable section

namespace Pansfem

/-- A problem that the density programs can analyse: a mesh of quadrilaterals with positive Jacobians, held by supports
without prescribed displacements, loaded at a dof that is not fixed; a filter with weights that are not negative and do
not vanish around any element; an admissible material, moduli `0 < E0 ≤ E1` and positive scales. -/
structure DensityProgram.Ok (P : DensityProgram) : Prop where
  quads : Quads P.x P.elements
  held : RigidlyHeld P.x P.elements P.ufixed
  fixedRange : ∀ r ∈ P.ufixed, r.1.1 < P.x.length ∧ r.1.2 < 2
  fixedZero : ∀ r ∈ P.ufixed, r.2 = 0
  loadRange : ∀ r ∈ P.qfixed, r.1.1 < P.x.length ∧ r.1.2 < 2
  loaded : ∃ n < P.x.length, ∃ d < 2, (n, d) ∉ P.ufixed.map Prod.fst ∧ nodalLoad P.qfixed n d ≠ 0
  size : P.x.length ≤ 50000
  nonempty : 0 < P.elements.length
  weights : WeightsOk P.elements.length P.neighbors P.w
  poisson : -1 < P.V ∧ 2 * P.V < 1
  thickness : 0 < P.t
  power : 0 ≤ P.p
  moduli : 0 < P.E0 ∧ P.E0 ≤ P.E1
  limit : 0 < P.weightlimit
  scales : 0 < P.scale0 ∧ 0 < P.scale1

/-- A design whose variables lie between 0 and 1, one for every element. -/
def IsDesign (n : ℕ) (s : List ℝ) : Prop := s.length = n ∧ ∀ a ∈ s, 0 ≤ a ∧ a ≤ 1

/-- The strain energy of an element with modulus 1 in plane strain. -/
def DensityProgram.unitEnergy (P : DensityProgram) (u : List (Vec ℝ)) (i : Fin P.elements.length) : ℝ :=
  P.t * isotropicEnergy (P.V / ((1 + P.V) * (1 - 2 * P.V))) (1 / (2 * (1 + P.V))) P.x P.elements[i] (valOf u)

/-- An evaluation as it should be.  The filtered densities lie between 0 and 1.  The solver has converged: the supports do
not move and the forces balance the loads up to `1e-10` of their norm.  The weight is that of the densities, the objective
their scaled strain energy with the moduli `E1 ρ^p + E0 (1 - ρ^p)`, and positive.  The sensitivities are the filtered
derivatives with respect to the densities, with the displacements held fixed and the sign of a compliance; none of the
objective is positive and all of the weight are. -/
structure Evaluation.Sound (P : DensityProgram) (beta : ℝ) (s : List ℝ) (e : Evaluation) : Prop where
  filtered : heavisideVariables P.elements.length beta P.neighbors P.w s = some e.rho
  densities : IsDesign P.elements.length e.rho
  solved : e.solved = true
  still : ∀ r ∈ P.ufixed, nodal e.u r.1.1 r.1.2 = some 0
  balance : ∃ items, densityItems P.x P.elements P.V P.t P.p P.E0 P.E1 e.rho = some items ∧
    dofNorm (freeDofs (freeTable P.x.length 2) P.ufixed)
        (residual (items.map ElemData.call ++ [.nodal P.qfixed]) (valOf e.u)) <
      1 / 10 ^ 10 * dofNorm (freeDofs (freeTable P.x.length 2) P.ufixed) (nodalLoad P.qfixed)
  weight : e.g = P.scale1 * (e.rho.sum / P.elements.length / P.weightlimit - 1)
  compliance : e.f = P.scale0 * ∑ i : Fin P.elements.length, (P.E1 * (e.rho[(i : ℕ)]?.getD 0) ^ P.p +
    P.E0 * (1 - (e.rho[(i : ℕ)]?.getD 0) ^ P.p)) * P.unitEnergy e.u i
  objective : 0 < e.f
  dcompliance : heavisideSensitivities P.elements.length beta P.neighbors P.w s
    (List.ofFn fun i : Fin P.elements.length => -(P.scale0 * ((P.E1 - P.E0) * (P.p * (e.rho[(i : ℕ)]?.getD 0) ^ (P.p - 1)) *
      P.unitEnergy e.u i))) = some e.dfds
  dweight : heavisideSensitivities P.elements.length beta P.neighbors P.w s
    (List.replicate P.elements.length (P.scale1 / P.elements.length / P.weightlimit)) = some e.dgds
  dflength : e.dfds.length = P.elements.length
  dglength : e.dgds.length = P.elements.length
  dfsign : ∀ a ∈ e.dfds, a ≤ 0
  dgsign : ∀ a ∈ e.dgds, 0 < a

/-- The change of the objective that ends the programs. -/
def Settled (eps f f' : ℝ) : Prop := |f' - f| < eps * (f' + f)

/-- A list as a vector of `n` numbers. -/
def designVector (n : ℕ) (l : List ℝ) : Fin n → ℝ := fun i => l[(i : ℕ)]?.getD 0

/-- The designs of a run come from an optimiser: there are states, the first one given, such that the optimiser takes
state and evaluation of a pass to design and state of the next pass.  If the run is stuck, the optimiser does not return
from the last pass. -/
def UpdatedBy {S : Type} (update : S → DensityPass → Run (List ℝ × S)) (o : S) (r : List DensityPass × Ending) : Prop :=
  ∃ st : ℕ → S, st 0 = o ∧
    (∀ i (h : i + 1 < r.1.length), update (st i) r.1[i] = .done (r.1[i + 1].s, st (i + 1))) ∧
    (r.2 = .stuck → ∃ q, r.1.getLast? = some q ∧ update (st (r.1.length - 1)) q = .running)

/-- The result of an optimiser of vectors as a list. -/
def asListRun {n : ℕ} {S : Type} : Run ((Fin n → ℝ) × S) → Run (List ℝ × S)
  | .undefined => .undefined
  | .running => .running
  | .done r => .done (List.ofFn r.1, r.2)

/-- A run of at most `N` passes as it should be.  No operation is undefined.  The passes are numbered from 0 and the
parameter of the filter doubles every forty passes.  The first design is `1/2` everywhere.  The variables of every design
lie in `box`, every evaluation is sound, and from one pass to the next every variable makes a `step`.  The run ends after
the first pass whose objective has settled, which takes two passes, after `N` passes, or in an optimiser that does not
return. -/
structure SoundRun (P : DensityProgram) (eps : ℝ) (box : ℝ → Prop) (step : ℝ → ℝ → Prop) (N : ℕ)
    (r : List DensityPass × Ending) : Prop where
  defined : r.2 ≠ .undefined
  count : r.1.length ≤ N
  numbered : ∀ i (h : i < r.1.length), r.1[i].k = i ∧ r.1[i].beta = 2 ^ (i / 40)
  start : r.1.head?.map DensityPass.s = some (List.replicate P.elements.length 0.5)
  design : ∀ q ∈ r.1, q.s.length = P.elements.length ∧ (∀ a ∈ q.s, box a) ∧ q.value.Sound P q.beta q.s
  moves : List.IsChain (List.Forall₂ step) (r.1.map DensityPass.s)
  exhausted : r.2 = .exhausted → r.1.length = N
  settles : ∀ i (h : i + 1 < r.1.length), Settled eps r.1[i].value.f r.1[i + 1].value.f ↔
    i + 2 = r.1.length ∧ r.2 = .optimised
  twice : r.2 = .optimised → 2 ≤ r.1.length

end Pansfem
