/-
Meshes and fields of the vibration program.
-/
import Verif.Model.ProgramVibration
import Verif.Spec.ProgramMesh
import Verif.Spec.ProgramPost

namespace Pansfem

/-- The coordinates of the nodes of an element, one row per node. -/
noncomputable def nodeRows (n : ℕ) (x : List (Vec ℝ)) (e : List ℕ) : Matrix (Fin n) (Fin 2) ℝ :=
  Matrix.of fun i j => coord x (e[(i : ℕ)]?.getD 0) j

/-- The elements are quadrilaterals with eight nodes; the Jacobian is positive at the integration points. -/
def Quads8 (x : List (Vec ℝ)) (elements : List (List ℕ)) : Prop :=
  ∀ e ∈ elements, HasCoords x e ∧ e.length = 8 ∧
    ∀ g : Fin IC.gauss9Square.N, 0 < (SF.square8.dNdr (IC.gauss9Square.points g) * nodeRows 8 x e).det

/-- The nodal field with the entries of a vector at the numbered dofs and zero elsewhere. -/
noncomputable def fieldOf {N : ℕ} (t : List (List ℤ)) (y : Fin N → ℝ) (n d : ℕ) : ℝ :=
  if numOf t n d = -1 then 0 else if h : (numOf t n d).toNat < N then y ⟨_, h⟩ else 0

/-- A matrix is the bilinear form of a list of element matrices, restricted to the numbered dofs. -/
def FormOf {N : ℕ} (t : List (List ℤ)) (items : List (ElemData ℝ)) (M : Matrix (Fin N) (Fin N) ℝ) : Prop :=
  ∀ y z : Fin N → ℝ, y ⬝ᵥ M.mulVec z = energy (items.map ElemData.call) (fieldOf t y) (fieldOf t z)

/-- What the program is given: positive constants, quadrilaterals with eight nodes, supports at dofs of the mesh, and
every dof supported or part of an element. -/
structure VibrationInput (x : List (Vec ℝ)) (elements : List (List ℕ)) (bc : List ((ℕ × ℕ) × ℝ)) (E V t rho : ℝ) :
    Prop where
  quads : Quads8 x elements
  young : 0 < E
  poisson : -1 < V ∧ 2 * V < 1
  thick : 0 < t
  dense : 0 < rho
  support : ∀ p ∈ bc, p.1.1 < x.length ∧ p.1.2 < 2
  used : ∀ m < x.length, ∀ j < 2, (∃ e ∈ elements, m ∈ e) ∨ (m, j) ∈ bc.map Prod.fst

/-- A field vanishes at the supports and outside the mesh. -/
def ZeroAtSupports (x : List (Vec ℝ)) (bc : List ((ℕ × ℕ) × ℝ)) (v : ℕ → ℕ → ℝ) : Prop :=
  ∀ m j, ¬ (m < x.length ∧ j < 2 ∧ (m, j) ∉ bc.map Prod.fst) → v m j = 0

/-- `lam` is an eigenvalue of the mesh: some admissible field that is not zero satisfies the weak equation with all
admissible fields. -/
def MeshEigenvalue (x : List (Vec ℝ)) (elements : List (List ℕ)) (bc : List ((ℕ × ℕ) × ℝ)) (E V t rho lam : ℝ) : Prop :=
  ∃ ks ms, vibrationStiffness x elements E V t = some ks ∧ vibrationMass x elements rho t = some ms ∧
    ∃ v, ZeroAtSupports x bc v ∧ (∃ m j, v m j ≠ 0) ∧ ∀ w, ZeroAtSupports x bc w →
      energy (ks.map ElemData.call) w v = lam * energy (ms.map ElemData.call) w v

end Pansfem
