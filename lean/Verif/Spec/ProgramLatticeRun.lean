/-
What the properties of the loop that optimises unit cells refer to.
-/
import Verif.Model.ProgramLatticeRun
import Verif.Spec.ProgramLattice
import Verif.Spec.ProgramOptimize
import Mathlib.Analysis.Calculus.Deriv.Basic

noncomputable section

open Matrix

namespace Pansfem

variable {p q : ℕ}

/-- A problem that the program can analyse: a mesh of quadrilaterals with eight nodes and positive Jacobians, held by
supports without prescribed displacements, loaded at a dof that is not fixed; tables over distinct sizes and a positive
limit. -/
structure LatticeProgram.Ok (P : LatticeProgram p q) : Prop where
  quads : Quads8 P.x P.elements
  held : HeldMesh P.x P.elements P.ufixed
  fixedRange : ∀ r ∈ P.ufixed, r.1.1 < P.x.length ∧ r.1.2 < 2
  fixedZero : ∀ r ∈ P.ufixed, r.2 = 0
  loadRange : ∀ r ∈ P.qfixed, r.1.1 < P.x.length ∧ r.1.2 < 2
  loaded : ∃ n < P.x.length, ∃ d < 2, (n, d) ∉ P.ufixed.map Prod.fst ∧ nodalLoad P.qfixed n d ≠ 0
  size : P.x.length ≤ 50000
  nonempty : 0 < P.elements.length
  sizes : Function.Injective P.T.as ∧ Function.Injective P.T.bs
  limit : 0 < P.weightlimit

/-- Every tensor between the sizes and rotations that the optimiser may choose is positive definite. -/
def LatticeProgram.Solid (P : LatticeProgram p q) : Prop :=
  ∀ a b t D, (0.001 ≤ a ∧ a ≤ 0.999) → (0.001 ≤ b ∧ b ≤ 0.999) → (0.001 ≤ t ∧ t ≤ 0.999) →
    latticeTensor P.T a b t = some D → PosTensor D

/-- A design in the box of the optimiser: three variables for every element. -/
structure InLatticeBox (N : ℕ) (a b t : List ℝ) : Prop where
  la : a.length = N
  lb : b.length = N
  lt : t.length = N
  box : ∀ v ∈ a ++ (b ++ t), 0.001 ≤ v ∧ v ≤ 0.999

/-- The work of the stresses of the element `i`, filled with the unit cell of sizes `a` and `b` turned by `t`, on its
strains. -/
def LatticeProgram.work (P : LatticeProgram p q) (u : List (Vec ℝ)) (i : Fin P.elements.length) (a b t : ℝ) : ℝ :=
  ∑ g, measure2 SF.square8 IC.gauss9Square (nodeRows 8 P.x P.elements[i]) g *
    (strainAt P.x P.elements[i] (valOf u) g ⬝ᵥ
      (((latticeTensor P.T a b t).getD 0) *ᵥ strainAt P.x P.elements[i] (valOf u) g))

/-- What an evaluation computes, whatever the displacements are.  The weight is the mean of the occupied areas over the
limit, less one.  The objective is the work of the stresses on the strains.  The sensitivities are the derivatives, those
of the objective with the displacements held fixed and the sign of a compliance. -/
structure LatticeEvaluation.Exact (P : LatticeProgram p q) (a b t : List ℝ) (e : LatticeEvaluation) : Prop where
  weight : e.g = (∑ i : Fin P.elements.length, (a[(i : ℕ)]?.getD 0 + b[(i : ℕ)]?.getD 0 -
    a[(i : ℕ)]?.getD 0 * b[(i : ℕ)]?.getD 0)) / P.elements.length / P.weightlimit - 1
  compliance : e.f = ∑ i : Fin P.elements.length,
    P.work e.u i (a[(i : ℕ)]?.getD 0) (b[(i : ℕ)]?.getD 0) (t[(i : ℕ)]?.getD 0)
  dweight : e.dg = List.ofFn fun i : Fin P.elements.length =>
    ((1 - b[(i : ℕ)]?.getD 0) / (P.weightlimit * P.elements.length),
      (1 - a[(i : ℕ)]?.getD 0) / (P.weightlimit * P.elements.length), 0)
  dlength : e.df.length = P.elements.length
  dcompliance : ∀ i : Fin P.elements.length,
    HasDerivAt (fun y => -P.work e.u i y (b[(i : ℕ)]?.getD 0) (t[(i : ℕ)]?.getD 0)) (e.df[(i : ℕ)]?.getD 0).1
      (a[(i : ℕ)]?.getD 0) ∧
    HasDerivAt (fun y => -P.work e.u i (a[(i : ℕ)]?.getD 0) y (t[(i : ℕ)]?.getD 0)) (e.df[(i : ℕ)]?.getD 0).2.1
      (b[(i : ℕ)]?.getD 0) ∧
    HasDerivAt (fun y => -P.work e.u i (a[(i : ℕ)]?.getD 0) (b[(i : ℕ)]?.getD 0) y) (e.df[(i : ℕ)]?.getD 0).2.2
      (t[(i : ℕ)]?.getD 0)

/-- An evaluation as it should be: exact, with a solver that has converged, so that the supports do not move and the
forces balance the loads up to `1e-10` of their norm, and a positive objective. -/
structure LatticeEvaluation.Sound (P : LatticeProgram p q) (a b t : List ℝ) (e : LatticeEvaluation) : Prop where
  exact : e.Exact P a b t
  solved : e.solved = true
  still : ∀ r ∈ P.ufixed, nodal e.u r.1.1 r.1.2 = some 0
  balance : ∃ items, latticeItems SF.square8 IC.gauss9Square P.x P.elements P.T a b t = some items ∧
    dofNorm (freeDofs (freeTable P.x.length 2) P.ufixed)
        (residual (items.map ElemData.call ++ [.nodal P.qfixed]) (valOf e.u)) <
      1 / 10 ^ 10 * dofNorm (freeDofs (freeTable P.x.length 2) P.ufixed) (nodalLoad P.qfixed)
  objective : 0 < e.f

/-- Three lists with the values of the elements as one vector: the three values of an element follow each other. -/
def byElement (N : ℕ) (a b t : List ℝ) : Fin (3 * N) → ℝ := fun j =>
  if (j : ℕ) % 3 = 0 then a[(j : ℕ) / 3]?.getD 0 else if (j : ℕ) % 3 = 1 then b[(j : ℕ) / 3]?.getD 0
    else t[(j : ℕ) / 3]?.getD 0

/-- The design of a pass as one vector. -/
def LatticePass.vector (N : ℕ) (l : LatticePass) : Fin (3 * N) → ℝ := byElement N l.a l.b l.t

/-- Sensitivities as one vector. -/
def tripleVector (N : ℕ) (d : List (ℝ × ℝ × ℝ)) : Fin (3 * N) → ℝ :=
  byElement N (d.map fun v => v.1) (d.map fun v => v.2.1) (d.map fun v => v.2.2)

/-- A step of a variable in one pass. -/
def LatticeStep (v w : ℝ) : Prop := |w - v| < 0.01 * 0.998

/-- What every run of at most `M` passes satisfies: the first design is `1/2` everywhere, all designs lie in the box, every
evaluation is that of its design, and from one pass to the next every variable changes by less than a hundredth of its
range.  If an operation is undefined it is in the evaluation of a design in the box that has a tensor that is not positive
definite. -/
structure LatticeRun (P : LatticeProgram p q) (M : ℕ) (r : List LatticePass × Ending) : Prop where
  count : r.1.length ≤ M
  start : ∀ l, r.1.head? = some l → l.a = List.replicate P.elements.length 0.5 ∧
    l.b = List.replicate P.elements.length 0.5 ∧ l.t = List.replicate P.elements.length 0.5
  design : ∀ l ∈ r.1, InLatticeBox P.elements.length l.a l.b l.t ∧ evaluateLattice P l.a l.b l.t = some l.value ∧
    l.value.Exact P l.a l.b l.t
  moves : List.IsChain (fun l k => List.Forall₂ LatticeStep l.a k.a ∧ List.Forall₂ LatticeStep l.b k.b ∧
    List.Forall₂ LatticeStep l.t k.t) r.1
  exhausted : r.2 = .exhausted → r.1.length = M
  undefined : r.2 = .undefined →
    ∃ a b t, InLatticeBox P.elements.length a b t ∧ evaluateLattice P a b t = none ∧
      ¬ LatticeDesign P.T P.elements.length a b t

/-- A run of at most `M` passes as it should be: no operation is undefined, every evaluation is sound, and the run ends
after the first pass whose objective has settled, which takes two passes, after `M` passes, or in an optimiser that does
not return. -/
structure SoundLatticeRun (P : LatticeProgram p q) (eps : ℝ) (M : ℕ) (r : List LatticePass × Ending) : Prop where
  run : LatticeRun P M r
  defined : r.2 ≠ .undefined
  nonempty : r.1 ≠ []
  sound : ∀ l ∈ r.1, l.value.Sound P l.a l.b l.t
  settles : ∀ i (h : i + 1 < r.1.length), Settled eps r.1[i].value.f r.1[i + 1].value.f ↔
    i + 2 = r.1.length ∧ r.2 = .optimised
  twice : r.2 = .optimised → 2 ≤ r.1.length

/-- The designs of a run come from an optimiser, as in `UpdatedBy`. -/
def LatticeUpdatedBy {n : ℕ} {S : Type} (vector : LatticePass → Fin n → ℝ)
    (update : S → LatticePass → Run ((Fin n → ℝ) × S)) (o : S) (r : List LatticePass × Ending) : Prop :=
  ∃ st : ℕ → S, st 0 = o ∧
    (∀ i (h : i + 1 < r.1.length), update (st i) r.1[i] = .done (vector r.1[i + 1], st (i + 1))) ∧
    (r.2 = .stuck → ∃ l, r.1.getLast? = some l ∧ update (st (r.1.length - 1)) l = .running)

end Pansfem
