/-
What an analysis program is supposed to compute, in terms of its `Assembling` calls.
-/
import Verif.Model.Program
import Verif.Spec.Krylov
import Verif.Lemmas.Assembly
import Verif.Props.C23_Assembling

namespace Pansfem

variable {K : Type}

/-- The local dofs of a call: node, dof, local index. -/
def AsmCall.dofs : AsmCall K → List (ℕ × ℕ × ℕ)
  | .matrix _ nte element => localDofs nte element
  | .both _ _ nte element => localDofs nte element
  | .fields _ ntes elements => localDofs2 ntes elements
  | .load _ nte element => localDofs nte element
  | .nodal q => q.zipIdx.map fun p => (p.1.1.1, p.1.1.2, p.2)

/-- Entry of the element matrix; calls without matrix have a zero one. -/
def AsmCall.mat [Zero K] (c : AsmCall K) (a b : ℕ) : K :=
  match c with
  | .matrix Ke _ _ => (Ke.at? a b).getD 0
  | .both Ke _ _ _ => (Ke.at? a b).getD 0
  | .fields Ke _ _ => (Ke.at? a b).getD 0
  | _ => 0

/-- Entry of the element vector; calls without vector have a zero one. -/
def AsmCall.rhs [Zero K] (c : AsmCall K) (a : ℕ) : K :=
  match c with
  | .both _ Fe _ _ => (Fe.at? a).getD 0
  | .load Fe _ _ => (Fe.at? a).getD 0
  | .nodal q => (q[a]?.map Prod.snd).getD 0
  | _ => 0

/-- The data of a call fit the tables: the dofs exist, element matrix and vector are large enough. -/
def AsmCall.Fits (c : AsmCall K) (t : List (List ℤ)) (u : List (Vec K)) : Prop :=
  (∀ p ∈ c.dofs, (dofNum t p.1 p.2.1).isSome ∧ (Pansfem.nodal u p.1 p.2.1).isSome) ∧
  match c with
  | .matrix Ke nte element => element.length ≤ nte.length ∧
      ∀ p ∈ localDofs nte element, ∀ q ∈ localDofs nte element, (Ke.at? p.2.2 q.2.2).isSome
  | .both Ke Fe nte element => element.length ≤ nte.length ∧
      (∀ p ∈ localDofs nte element, ∀ q ∈ localDofs nte element, (Ke.at? p.2.2 q.2.2).isSome) ∧
      ∀ p ∈ localDofs nte element, (Fe.at? p.2.2).isSome
  | .fields Ke ntes elements =>
      List.Forall₂ (fun (el : List ℕ) (nte : List (List (ℕ × ℕ))) => el.length ≤ nte.length) elements ntes ∧
      ∀ p ∈ localDofs2 ntes elements, ∀ q ∈ localDofs2 ntes elements, (Ke.at? p.2.2 q.2.2).isSome
  | .load Fe nte element => element.length ≤ nte.length ∧
      ∀ p ∈ localDofs nte element, (Fe.at? p.2.2).isSome
  | .nodal _ => True

/-- The residual at dof `d` of node `n` of a field `v`: over all calls and all local dofs of the call at that
dof, the sum of the row of `Ke v - Fe`. -/
def residual [Ring K] (calls : List (AsmCall K)) (v : ℕ → ℕ → K) (n d : ℕ) : K :=
  (calls.map fun c => (c.dofs.map fun p => if p.1 = n ∧ p.2.1 = d then
    (c.dofs.map fun q => c.mat p.2.2 q.2.2 * v q.1 q.2.1).sum - c.rhs p.2.2 else 0).sum).sum

/-- The sum of the bilinear forms of the element matrices. -/
def energy [Ring K] (calls : List (AsmCall K)) (v w : ℕ → ℕ → K) : K :=
  (calls.map fun c => (c.dofs.map fun p => v p.1 p.2.1 *
    (c.dofs.map fun q => c.mat p.2.2 q.2.2 * w q.1 q.2.1).sum).sum).sum

/-- All element matrices are symmetric. -/
def SymmetricCalls [Zero K] (calls : List (AsmCall K)) : Prop :=
  ∀ c ∈ calls, ∀ p ∈ c.dofs, ∀ q ∈ c.dofs, c.mat p.2.2 q.2.2 = c.mat q.2.2 p.2.2

/-- All dofs of a table, node by node. -/
def allDofs (t : List (List ℤ)) : List (ℕ × ℕ) :=
  (List.range t.length).flatMap fun n => (List.range (t[n]?.getD []).length).map fun d => (n, d)

/-- A dof is free: it is neither marked in the table nor listed. -/
def IsFree (t : List (List ℤ)) (bc : List ((ℕ × ℕ) × K)) (p : ℕ × ℕ) : Prop :=
  numOf t p.1 p.2 ≠ -1 ∧ p ∉ bc.map Prod.fst

instance (t : List (List ℤ)) (bc : List ((ℕ × ℕ) × K)) (p : ℕ × ℕ) : Decidable (IsFree t bc p) := by
  unfold IsFree; infer_instance

/-- The free dofs. -/
def freeDofs (t : List (List ℤ)) (bc : List ((ℕ × ℕ) × K)) : List (ℕ × ℕ) :=
  (allDofs t).filter fun p => decide (IsFree t bc p)

/-- The given values: zero at the free dofs, elsewhere the last listed value or the initial one. -/
def given [Zero K] (u₀ : List (Vec K)) (t₀ : List (List ℤ)) (bc : List ((ℕ × ℕ) × K)) (n d : ℕ) : K :=
  if IsFree t₀ bc (n, d) then 0 else ((lastValue bc n d).or (nodal u₀ n d)).getD 0

/-- Euclidean norm over a list of dofs. -/
noncomputable def dofNorm (L : List (ℕ × ℕ)) (v : ℕ → ℕ → ℝ) : ℝ :=
  Real.sqrt (L.map fun p => v p.1 p.2 ^ 2).sum

/-- The flag of the solver tells whether the residual is below `1e-10` times the right-hand side. -/
def LinSolver.Certifies (s : LinSolver) : Prop :=
  ∀ (n : ℕ) (A : CSR ℝ) (M : Matrix (Fin n) (Fin n) ℝ) (b x : Fin n → ℝ) (conv : Bool), IsCSR n A M →
    s n A b = some (x, conv) → (conv = true ↔ vnorm (b - M.mulVec x) < 1 / 10 ^ 10 * vnorm b)

/-- The solver succeeds on symmetric positive definite systems of at most 100000 equations with a right-hand
side that is not zero. -/
def LinSolver.Finds (s : LinSolver) : Prop :=
  ∀ (n : ℕ) (A : CSR ℝ) (M : Matrix (Fin n) (Fin n) ℝ) (b : Fin n → ℝ), IsCSR n A M → SPD M → b ≠ 0 →
    n ≤ 100000 → ∃ x, s n A b = some (x, true)

/-- The solver divides zero by zero if the right-hand side is zero. -/
def LinSolver.Breaks (s : LinSolver) : Prop :=
  ∀ (n : ℕ) (A : CSR ℝ) (M : Matrix (Fin n) (Fin n) ℝ), IsCSR n A M → s n A 0 = none

end Pansfem
