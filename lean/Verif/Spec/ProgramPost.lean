/-
When element matrix, table and node list of a post-processing loop belong together.
-/
import Verif.Model.ProgramPost
import Verif.Spec.Program

namespace Pansfem

variable {K : Type}

/-- The call of `Assembling` with the element matrix. -/
def ElemData.call (it : ElemData K) : AsmCall K := .matrix it.Ke it.nte it.element

/-- One table row per node, the local indices are `0, 1, ...` in some order, the element matrix has that size. -/
def ElemData.Square (it : ElemData K) : Prop :=
  it.nte.length = it.element.length ∧
  ((localDofs it.nte it.element).map fun p => p.2.2).Perm (List.range (localDofs it.nte it.element).length) ∧
  it.Ke.row = (localDofs it.nte it.element).length ∧ it.Ke.col = (localDofs it.nte it.element).length

/-- A nodal field has exactly the dofs of a table. -/
def Shaped (u : List (Vec K)) (t : List (List ℤ)) : Prop :=
  u.length = t.length ∧ ∀ n d, (nodal u n d).isSome ↔ (dofNum t n d).isSome

/-- The loads of the calls at a dof. -/
def loadAt [Ring K] (calls : List (AsmCall K)) (n d : ℕ) : K :=
  (calls.map fun c => (c.dofs.map fun p => if p.1 = n ∧ p.2.1 = d then c.rhs p.2.2 else 0).sum).sum

end Pansfem
