/-
Designs, tensors and displacements of the program that optimises unit cells.
-/
import Verif.Model.ProgramLattice
import Verif.Spec.ProgramVibration
import Verif.Spec.ProgramDesign

noncomputable section

open Matrix

namespace Pansfem

variable {p q : ℕ}

/-- Symmetric and positive definite. -/
def PosTensor (D : Matrix (Fin 3) (Fin 3) ℝ) : Prop := Dᵀ = D ∧ ∀ v ≠ 0, 0 < v ⬝ᵥ (D *ᵥ v)

/-- The strain with the components `v`: two normal strains and the engineering shear. -/
def strainTensor (v : Fin 3 → ℝ) : Matrix (Fin 2) (Fin 2) ℝ := !![v 0, v 2 / 2; v 2 / 2, v 1]

/-- The change of axes by the angle `theta`. -/
def axes (theta : ℝ) : Matrix (Fin 2) (Fin 2) ℝ :=
  !![Real.cos theta, Real.sin theta; -Real.sin theta, Real.cos theta]

/-- A design for `N` elements in which every tensor is positive definite. -/
structure LatticeDesign (T : CellTables p q) (N : ℕ) (a b t : List ℝ) : Prop where
  la : a.length = N
  lb : b.length = N
  lt : t.length = N
  pos : ∀ i < N, ∀ D, latticeTensor T (a[i]?.getD 0) (b[i]?.getD 0) (t[i]?.getD 0) = some D → PosTensor D

/-- `U` gives displacements in equilibrium with the loads for every such design. -/
structure LatticeDisplacements (x : List (Vec ℝ)) (elements : List (List ℕ)) (T : CellTables p q)
    (bc loads : List ((ℕ × ℕ) × ℝ)) (U : List ℝ → List ℝ → List ℝ → List (Vec ℝ)) : Prop where
  shaped : ∀ a b t, Shaped (U a b t) (freeTable x.length 2)
  solves : ∀ a b t its, LatticeDesign T elements.length a b t →
    latticeItems SF.square8 IC.gauss9Square x elements T a b t = some its →
    Equilibrium (freeTable x.length 2) bc (its.map ElemData.call ++ [.nodal loads]) (U a b t)

/-- The strain of the field at an integration point of an element. -/
def strainAt (x : List (Vec ℝ)) (e : List ℕ) (v : ℕ → ℕ → ℝ) (g : Fin IC.gauss9Square.N) : Fin 3 → ℝ :=
  let G := (SF.square8.dNdr (IC.gauss9Square.points g) * nodeRows 8 x e)⁻¹ * SF.square8.dNdr (IC.gauss9Square.points g)
  let H := fun k j => ∑ i : Fin 8, G k i * v (e[(i : ℕ)]?.getD 0) j
  ![H 0 0, H 1 1, H 1 0 + H 0 1]

/-- The supports hold the mesh: only the zero field vanishes at the supports and has no strain. -/
def HeldMesh (x : List (Vec ℝ)) (elements : List (List ℕ)) (bc : List ((ℕ × ℕ) × ℝ)) : Prop :=
  ∀ v, ZeroAtSupports x bc v → (∀ e ∈ elements, ∀ g, strainAt x e v g = 0) → v = 0

end Pansfem
