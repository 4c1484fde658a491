/-
Conditions on meshes and supports for the programs with hexahedra.
-/
import Verif.Spec.ProgramMesh
import Verif.Lemmas.Brick

namespace Pansfem

noncomputable section

/-- The nodes of a list have three coordinates. -/
def HasCoords3 (x : List (Vec ℝ)) (e : List ℕ) : Prop := ∀ m ∈ e, ∀ j < 3, (nodal x m j).isSome

/-- The elements are parallelepipeds of positive volume: eight nodes `o`, `o + a`, `o + a + b`, `o + b` and the same
four shifted by `c`, with `det (a, b, c) > 0`. -/
def Bricks (x : List (Vec ℝ)) (elements : List (List ℕ)) : Prop :=
  ∀ e ∈ elements, HasCoords3 x e ∧ e.length = 8 ∧ ∃ (o : Fin 3 → ℝ) (A : Matrix (Fin 3) (Fin 3) ℝ), 0 < A.det ∧
    ∀ (i : Fin 8) (j : Fin 3), coord x (e[(i : ℕ)]?.getD 0) j = brick o A i j

/-- Component `j` at node `m` of the rigid motion with translation `a` and rotation `w`. -/
def rigid3At (x : List (Vec ℝ)) (a w : Fin 3 → ℝ) (m j : ℕ) : ℝ :=
  match j with
  | 0 => a 0 + (w 1 * coord x m 2 - w 2 * coord x m 1)
  | 1 => a 1 + (w 2 * coord x m 0 - w 0 * coord x m 2)
  | 2 => a 2 + (w 0 * coord x m 1 - w 1 * coord x m 0)
  | _ => 0

/-- Three nodes are on a line. -/
def Collinear3 (x : List (Vec ℝ)) (m m' m'' : ℕ) : Prop :=
  ∀ i j : Fin 3, (coord x m' i - coord x m i) * (coord x m'' j - coord x m j) =
    (coord x m' j - coord x m j) * (coord x m'' i - coord x m i)

/-- Two elements share three nodes that are not on a line. -/
def ShareFace (x : List (Vec ℝ)) (e f : List ℕ) : Prop :=
  ∃ m m' m'', ¬ Collinear3 x m m' m'' ∧ ∀ k ∈ [m, m', m''], k ∈ e ∧ k ∈ f

/-- Every element is reached from every other one across shared faces. -/
def FaceConnected (x : List (Vec ℝ)) (elements : List (List ℕ)) : Prop :=
  ∀ e ∈ elements, ∀ f ∈ elements, Relation.ReflTransGen (fun a b => b ∈ elements ∧ ShareFace x a b) e f

/-- The supports at nodes of elements allow no rigid motion. -/
def Supported3 (x : List (Vec ℝ)) (elements : List (List ℕ)) (fixed : List (ℕ × ℕ)) : Prop :=
  ∀ a w : Fin 3 → ℝ, (∀ s ∈ fixed, (∃ e ∈ elements, s.1 ∈ e) → s.2 < 3 → rigid3At x a w s.1 s.2 = 0) →
    a = 0 ∧ w = 0

end

end Pansfem
