/-
The discrete equation of a time step.
-/
import Verif.Model.ProgramDynamic
import Verif.Spec.ProgramPost

namespace Pansfem

variable {K : Type}

/-- The mass matrix as a call. -/
def TimeItem.mass (it : TimeItem K) : AsmCall K := .matrix it.Me it.nte it.element

/-- The stiffness matrix as a call. -/
def TimeItem.stiff (it : TimeItem K) : AsmCall K := .matrix it.Ke it.nte it.element

/-- The source vector as a call. -/
def TimeItem.source [Zero K] (it : TimeItem K) : AsmCall K :=
  .load (it.Fe.getD ⟨[]⟩) it.nte it.element

/-- Matrices, source vector, table and nodes of an element belong together. -/
structure TimeItem.Sound (t : List (List ℤ)) (u : List (Vec K)) (it : TimeItem K) : Prop where
  massWF : it.Me.WF
  stiffWF : it.Ke.WF
  massSq : ElemData.Square ⟨it.Me, it.nte, it.element⟩
  stiffSq : ElemData.Square ⟨it.Ke, it.nte, it.element⟩
  fits : ∀ p ∈ localDofs it.nte it.element, (dofNum t p.1 p.2.1).isSome ∧ (nodal u p.1 p.2.1).isSome
  source : ∀ f, it.Fe = some f → f.size = (localDofs it.nte it.element).length

/-- The residual of `M (v - u)/dt + K (theta v + (1 - theta) u) - F`. -/
def timeResidual [Field K] (items : List (TimeItem K)) (dt theta : K) (u v : ℕ → ℕ → K) (n d : ℕ) : K :=
  residual (items.map TimeItem.mass) (fun a b => (v a b - u a b) / dt) n d +
  residual (items.map TimeItem.stiff) (fun a b => theta * v a b + (1 - theta) * u a b) n d -
  loadAt (items.map TimeItem.source) n d

/-- The values at the dofs that are not free; zero at the free ones. -/
def held [Zero K] (t : List (List ℤ)) (bc : List ((ℕ × ℕ) × K)) (u : ℕ → ℕ → K) (n d : ℕ) : K :=
  if IsFree t bc (n, d) then 0 else u n d

/-- The criterion of the solver in a time step: the norm of the residual over the free dofs is below `1e-10` times
its norm for the held values alone. -/
def StepMet (items : List (TimeItem ℝ)) (dt theta : ℝ) (t : List (List ℤ)) (bc : List ((ℕ × ℕ) × ℝ))
    (u v : ℕ → ℕ → ℝ) : Prop :=
  dofNorm (freeDofs t bc) (timeResidual items dt theta u v)
    < 1 / 10 ^ 10 * dofNorm (freeDofs t bc) (timeResidual items dt theta u (held t bc u))

/-- A time step without solver error: the equation holds at the free dofs and the others keep their values. -/
def ExactStep (items : List (TimeItem ℝ)) (dt theta : ℝ) (t : List (List ℤ)) (bc : List ((ℕ × ℕ) × ℝ))
    (u v : ℕ → ℕ → ℝ) : Prop :=
  (∀ p ∈ freeDofs t bc, timeResidual items dt theta u v p.1 p.2 = 0) ∧ ∀ n d, ¬ IsFree t bc (n, d) → v n d = u n d

end Pansfem
