/-
Unit cells: strains, energies and loads of periodic fields.
-/
import Verif.Model.ProgramCell
import Verif.Spec.ProgramVibration
import Verif.Lemmas.Elastic

namespace Pansfem

open Matrix

variable {n : ℕ}

/-- What the program is given: elements with positive Jacobian at the integration points, positive constants, pairs of
nodes of the mesh (master, slave) in which no master is a slave and no slave has two masters. -/
structure CellInput (sf : SF ℝ 2 n) (ic : IC ℝ 2) (x : List (Vec ℝ)) (elements : List (List ℕ)) (pairs : List (ℕ × ℕ))
    (E V t : ℝ) : Prop where
  size : 0 < n
  coords : ∀ e ∈ elements, HasCoords x e ∧ e.length = n
  positive : ∀ e ∈ elements, ∀ g, 0 < measure2 sf ic (nodeRows n x e) g
  young : 0 < E
  poisson : -1 < V ∧ 2 * V < 1
  thick : 0 < t
  pairs_lt : ∀ p ∈ pairs, p.1 < x.length ∧ p.2 < x.length
  master : ∀ p ∈ pairs, p.1 ∉ pairs.map Prod.snd
  unique : ∀ p ∈ pairs, ∀ q ∈ pairs, p.2 = q.2 → p.1 = q.1

/-- A field takes the same values at the two nodes of each pair. -/
def Periodic (pairs : List (ℕ × ℕ)) (v : ℕ → ℕ → ℝ) : Prop := ∀ p ∈ pairs, ∀ j < 2, v p.2 j = v p.1 j

/-- The strain of a field at an integration point of an element. -/
noncomputable def cellStrain (sf : SF ℝ 2 n) (ic : IC ℝ 2) (x : List (Vec ℝ)) (v : ℕ → ℕ → ℝ) (e : List ℕ)
    (g : Fin ic.N) : Fin 3 → ℝ :=
  strain2 (gradAt sf (nodeRows n x e) (ic.points g)) fun p => v (e[(p.1 : ℕ)]?.getD 0) p.2

/-- Integral over the cell of `a · D b` for two strain fields. -/
noncomputable def cellForm (sf : SF ℝ 2 n) (ic : IC ℝ 2) (x : List (Vec ℝ)) (elements : List (List ℕ))
    (D : Matrix (Fin 3) (Fin 3) ℝ) (t : ℝ) (a b : List ℕ → Fin ic.N → Fin 3 → ℝ) : ℝ :=
  (elements.map fun e => ∑ g, measure2 sf ic (nodeRows n x e) g * t * (a e g ⬝ᵥ (D *ᵥ b e g))).sum

/-- The work of the weak springs as they are assembled: each couples the two dofs of a node. -/
def springWork (alpha : ℝ) (elements : List (List ℕ)) (v w : ℕ → ℕ → ℝ) : ℝ :=
  (elements.map fun e => (e.map fun m => alpha * ((v m 0 + v m 1) * (w m 0 + w m 1))).sum).sum

/-- The work of springs that pull each dof back. -/
def groundWork (alpha : ℝ) (elements : List (List ℕ)) (v w : ℕ → ℕ → ℝ) : ℝ :=
  (elements.map fun e => (e.map fun m => alpha * (v m 0 * w m 0 + v m 1 * w m 1)).sum).sum

/-- The load of the macroscopic strain `s` on a field. -/
noncomputable def cellLoad (sf : SF ℝ 2 n) (ic : IC ℝ 2) (x : List (Vec ℝ)) (elements : List (List ℕ))
    (D : Matrix (Fin 3) (Fin 3) ℝ) (t : ℝ) (s : Fin 3 → ℝ) (w : ℕ → ℕ → ℝ) : ℝ :=
  cellForm sf ic x elements D t (cellStrain sf ic x w) fun _ _ => s

/-- The energy of the cell with the macroscopic strain `s` relaxed by the field `w`, springs included. -/
noncomputable def cellEnergy (sf : SF ℝ 2 n) (ic : IC ℝ 2) (x : List (Vec ℝ)) (elements : List (List ℕ))
    (D : Matrix (Fin 3) (Fin 3) ℝ) (t alpha : ℝ) (s : Fin 3 → ℝ) (w : ℕ → ℕ → ℝ) : ℝ :=
  cellForm sf ic x elements D t (fun e g => s - cellStrain sf ic x w e g) (fun e g => s - cellStrain sf ic x w e g) +
    springWork alpha elements w w

/-- How far the field `v` is from balance under the macroscopic strain `s`, tested with the field `w`. -/
noncomputable def imbalance (sf : SF ℝ 2 n) (ic : IC ℝ 2) (x : List (Vec ℝ)) (elements : List (List ℕ))
    (D : Matrix (Fin 3) (Fin 3) ℝ) (t alpha : ℝ) (s : Fin 3 → ℝ) (v w : ℕ → ℕ → ℝ) : ℝ :=
  cellForm sf ic x elements D t (cellStrain sf ic x w) (fun e g => s - cellStrain sf ic x v e g) -
    springWork alpha elements w v

/-- The characteristic displacement of the macroscopic strain `s`. -/
def CellResult.field (res : CellResult) (s : Fin 3 → ℝ) (m j : ℕ) : ℝ := ∑ k, s k * valOf (res.chi k) m j

/-- The Euclidean norm of a periodic field: one node of each pair counts. -/
noncomputable def cellNorm (N : ℕ) (pairs : List (ℕ × ℕ)) (w : ℕ → ℕ → ℝ) : ℝ :=
  √(∑ m ∈ (Finset.range N).filter (fun m => m ∉ pairs.map Prod.snd), ((w m 0) ^ 2 + (w m 1) ^ 2))

end Pansfem
