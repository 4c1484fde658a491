/-
What the properties of the level set program refer to.
-/
import Verif.Model.ProgramLevelSet
import Verif.Spec.ProgramDesign
import Verif.Spec.ProgramDynamic
import Verif.Spec.ProgramSquare
import Verif.Spec.PlaneEnergy
import Verif.Props.C40_General

noncomputable section

namespace Pansfem

/-- A problem that the level set program can treat: a mesh of quadrilaterals with positive Jacobians that covers all
nodes, held by supports without prescribed displacements, loaded at a dof that is not fixed; the level set function is
zero at some nodes; an admissible material, positive moduli and target volume, a diffusion that is not negative, a
positive time step, and at least four passes before the target volume applies. -/
structure LevelSetProgram.Ok (P : LevelSetProgram) : Prop where
  quads : Quads P.x P.elements
  used : ∀ m < P.x.length, ∃ e ∈ P.elements, m ∈ e
  held : RigidlyHeld P.x P.elements P.ufixed
  fixedRange : ∀ r ∈ P.ufixed, r.1.1 < P.x.length ∧ r.1.2 < 2
  fixedZero : ∀ r ∈ P.ufixed, r.2 = 0
  loadRange : ∀ r ∈ P.qfixed, r.1.1 < P.x.length ∧ r.1.2 < 2
  loaded : ∃ n < P.x.length, ∃ d < 2, (n, d) ∉ P.ufixed.map Prod.fst ∧ nodalLoad P.qfixed n d ≠ 0
  borderRange : ∀ r ∈ P.phifixed, r.1.1 < P.x.length ∧ r.1.2 < 1
  borderZero : ∀ r ∈ P.phifixed, r.2 = 0
  size : P.x.length ≤ 50000
  nonempty : 0 < P.elements.length
  poisson : -1 < P.nu ∧ P.nu < 1 ∧ 2 * P.nu ≠ 1
  moduli : 0 < P.Emin ∧ 0 < P.E0
  volume : 0 < P.Vmax ∧ P.Vmax ≤ 1
  diffusion : 0 ≤ P.tau
  step : 0 < P.dt
  passes : 4 ≤ P.nvol

/-- A shape: 0 or 1 for every element. -/
def IsShape (n : ℕ) (str : List ℝ) : Prop := str.length = n ∧ ∀ a ∈ str, a = 0 ∨ a = 1

/-- An evaluation as it should be.  The solver has converged: the supports do not move and the forces balance the loads
up to `1e-10` of their norm.  The objective is the strain energy of plane stress and positive.  `TD` is the topological
derivative, `TDN` its mean over the elements at a node; none is negative and not all vanish.  `vol` is the mean of the
shape, `ex` falls linearly from 1 to `Vmax` within `nvol` passes, `lambda` is the mean of `TDN` times an exponential. -/
structure LevelSetValue.Sound (P : LevelSetProgram) (t : ℕ) (str : List ℝ) (v : LevelSetValue) : Prop where
  solved : v.solved = true
  still : ∀ r ∈ P.ufixed, nodal v.u r.1.1 r.1.2 = some 0
  balance : ∃ items, levelsetItems P str = some items ∧ dofNorm (freeDofs (freeTable P.x.length 2) P.ufixed)
      (residual (items.map ElemData.call ++ [.nodal P.qfixed]) (valOf v.u)) <
    1 / 10 ^ 10 * dofNorm (freeDofs (freeTable P.x.length 2) P.ufixed) (nodalLoad P.qfixed)
  objective : v.objective = ∑ i : Fin P.elements.length, (P.Emin + str[(i : ℕ)]?.getD 0 * (P.E0 - P.Emin)) *
    isotropicEnergy (P.nu / (1 - P.nu ^ 2)) (1 / (2 * (1 + P.nu))) P.x P.elements[i] (valOf v.u)
  positive : 0 < v.objective
  derivative : v.TD = List.ofFn fun i : Fin P.elements.length =>
    (0.0001 + str[(i : ℕ)]?.getD 0 * 0.9999) * isotropicEnergy
      (-1.5 * (1 - P.nu) * (1 - 14 * P.nu + 15 * P.nu ^ 2) * P.E0 / ((1 + P.nu) * (7 - 5 * P.nu) * (1 - 2 * P.nu) ^ 2))
      (7.5 * (1 - P.nu) * P.E0 / ((1 + P.nu) * (7 - 5 * P.nu))) P.x P.elements[i] (valOf v.u)
  averaged : v.TDN = List.ofFn fun m : Fin P.x.length =>
    (received v.TD P.elements m).sum / (received v.TD P.elements m).length
  signs : (∀ a ∈ v.TD, 0 ≤ a) ∧ (∀ a ∈ v.TDN, 0 ≤ a) ∧ 0 < v.TDN.sum
  vol : v.vol = str.sum / P.elements.length
  ex : v.ex = P.Vmax + (1 - P.Vmax) * max 0 (1 - (t + 1) / P.nvol)
  lambda : v.lambda = v.TDN.sum / P.x.length * Real.exp (P.p * ((v.vol - v.ex) / v.ex + P.d))

/-- The level set function with the value zero where it is fixed. -/
def bordered (P : LevelSetProgram) (phi : List (Vec ℝ)) (n d : ℕ) : ℝ :=
  if (n, d) ∈ P.phifixed.map Prod.fst then 0 else valOf phi n d

/-- The element matrices and vectors of the level set equation of a pass. -/
def LevelSetEquation (P : LevelSetProgram) (v : LevelSetValue) (items : List (TimeItem ℝ)) : Prop :=
  reactionItems P.x P.elements (P.tau * P.elements.length)
    (fun u _ => P.elements.length / v.TDN.sum * (u - v.lambda)) (v.TDN.map fun a => ⟨[a]⟩) = some items

/-- The update from one pass to the next: an implicit Euler step of the level set equation, solved up to `1e-10`, with
the value zero where the function is fixed, then cut off at `±1`; the new shape is 0 exactly where the mean of the
function over the element is negative. -/
structure LevelSetStep (P : LevelSetProgram) (q q' : LevelSetPass) : Prop where
  equation : ∃ items raw, LevelSetEquation P q.value items ∧
    StepMet items P.dt 1 (freeTable P.x.length 1) P.phifixed (bordered P q.phi) raw ∧
    (∀ r ∈ P.phifixed, raw r.1.1 r.1.2 = 0) ∧
    q'.phi = List.ofFn fun m : Fin P.x.length => ⟨[max (min 1 (raw m 0)) (-1)]⟩
  shape : q'.str = P.elements.map fun e => if (e.map fun m => valOf q'.phi m 0).sum / (e.length : ℝ) < 0 then (0 : ℝ) else 1

/-- The right-hand side of the level set equation vanishes where the function is not fixed. -/
def LevelSetStalls (P : LevelSetProgram) (q : LevelSetPass) : Prop :=
  ∃ items, LevelSetEquation P q.value items ∧ ∀ p ∈ freeDofs (freeTable P.x.length 1) P.phifixed,
    timeResidual items P.dt 1 (bordered P q.phi) 0 p.1 p.2 = 0

/-- The criterion that ends the program: after more than `nvol` passes, the volume is near its target and the objective
differs by less than one per cent from those of the five passes before. -/
def LevelSetSettled (P : LevelSetProgram) (f : ℕ → ℝ) (t : ℕ) (vol : ℝ) : Prop :=
  P.nvol < t ∧ |vol - P.Vmax| < 0.005 ∧ ∀ k, 1 ≤ k → k ≤ 5 → k ≤ t ∧ |f t - f (t - k)| < 0.01 * |f t|

/-- A run of at most `N` passes as it should be.  The passes are numbered from 0; the first function and shape are 1
everywhere; every function has values in `[-1, 1]`, every shape is one, every evaluation is sound and every pass is
followed by its update.  The run ends after the first pass that is settled, after `N` passes, or in the division of zero
by zero that the solver makes if the right-hand side of the level set equation vanishes. -/
structure SoundLevelSet (P : LevelSetProgram) (N : ℕ) (r : List LevelSetPass × Ending) : Prop where
  count : r.1.length ≤ N
  numbered : ∀ i (h : i < r.1.length), r.1[i].t = i
  start : 0 < N → ∃ q, r.1.head? = some q ∧ q.phi = List.replicate P.x.length ⟨[1]⟩ ∧
    q.str = List.replicate P.elements.length 1
  bounded : ∀ q ∈ r.1, q.phi.length = P.x.length ∧ ∀ v ∈ q.phi, ∃ a, v = ⟨[a]⟩ ∧ |a| ≤ 1
  shapes : ∀ q ∈ r.1, IsShape P.elements.length q.str
  values : ∀ q ∈ r.1, q.value.Sound P q.t q.str
  updates : List.IsChain (LevelSetStep P) r.1
  settles : ∀ i (h : i < r.1.length),
    LevelSetSettled P (fun k => (r.1.map fun q => q.value.objective)[k]?.getD 0) i r.1[i].value.vol ↔
      i + 1 = r.1.length ∧ r.2 = .optimised
  exhausted : r.2 = .exhausted → r.1.length = N
  stalls : r.2 = .undefined ↔ ∃ q, r.1.getLast? = some q ∧ r.2 ≠ .optimised ∧ LevelSetStalls P q
  returns : r.2 ≠ .stuck

end Pansfem
