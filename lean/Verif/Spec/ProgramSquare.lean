/-
What the mesh, supports and loads of the optimisation programs are supposed to be.
-/
import Verif.Spec.ProgramMesh

namespace Pansfem

/-- The sum of the loads at a dof. -/
def nodalLoad (loads : List ((ℕ × ℕ) × ℝ)) (n d : ℕ) : ℝ :=
  ((loads.filter fun r => decide (r.1 = (n, d))).map Prod.snd).sum

/-- The supports hold the mesh: only the zero field vanishes at the supports and outside the mesh and moves every element
rigidly. -/
def RigidlyHeld (x : List (Vec ℝ)) (elements : List (List ℕ)) (bc : List ((ℕ × ℕ) × ℝ)) : Prop :=
  ∀ v : ℕ → ℕ → ℝ, (∀ m j, ¬ (m < x.length ∧ j < 2 ∧ (m, j) ∉ bc.map Prod.fst) → v m j = 0) →
    (∀ e ∈ elements, ∃ p q w, ∀ m ∈ e, ∀ j < 2, v m j = rigidAt x p q w m j) → v = 0

end Pansfem
