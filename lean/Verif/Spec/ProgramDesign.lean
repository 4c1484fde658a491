/-
What the displacements in an optimisation program are supposed to be.
-/
import Verif.Model.ProgramDesign
import Verif.Spec.ProgramMesh
import Verif.Spec.ProgramPost

namespace Pansfem

/-- The field vanishes at the supports and is in equilibrium at all other dofs. -/
def Equilibrium (t : List (List ℤ)) (bc : List ((ℕ × ℕ) × ℝ)) (calls : List (AsmCall ℝ)) (u : List (Vec ℝ)) : Prop :=
  (∀ p ∈ freeDofs t bc, residual calls (valOf u) p.1 p.2 = 0) ∧ ∀ n d, ¬ IsFree t bc (n, d) → valOf u n d = 0

/-- The elements are bars of positive length. -/
def Bars (x : List (Vec ℝ)) (elements : List (List ℕ)) : Prop :=
  ∀ e ∈ elements, HasCoords x e ∧ ∃ a b, e = [a, b] ∧ (coord x a 0 ≠ coord x b 0 ∨ coord x a 1 ≠ coord x b 1)

/-- The elements are quadrilaterals with positive Jacobian at the points of the rule. -/
def Quads (x : List (Vec ℝ)) (elements : List (List ℕ)) : Prop :=
  ∀ e ∈ elements, ∃ X : Matrix (Fin 4) (Fin 2) ℝ, gather x e 4 2 = some X ∧
    ∀ g, 0 < (SF.square4.dNdr (IC.gauss4Square.points g) * X).det

/-- The displacements for the design `s`, if `U` gives equilibrium for every design with positive coefficients. -/
structure Displacements (N : ℕ) (bc : List ((ℕ × ℕ) × ℝ)) (loads : List (AsmCall ℝ)) (m : ℝ → ℝ) (M : ℕ)
    (items : List ℝ → Option (List (ElemData ℝ))) (U : List ℝ → List (Vec ℝ)) : Prop where
  shaped : ∀ s, Shaped (U s) (freeTable N 2)
  solves : ∀ s its, s.length = M → (∀ a ∈ s, 0 < m a) → items s = some its →
    Equilibrium (freeTable N 2) bc (its.map ElemData.call ++ loads) (U s)

end Pansfem
