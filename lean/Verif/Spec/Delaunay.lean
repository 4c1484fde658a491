/-
What a triangulation of the Delaunay mesher should satisfy (/repo/src/PrePost/Mesher/Delaunay.h).
-/
import Verif.Model.Delaunay
import Mathlib.Algebra.BigOperators.Group.List.Basic

namespace Pansfem

/-- The side `i` of element `t` (between the nodes `i + 1` and `i + 2`) and the side `j` of element `u`
are the same side, seen from its two sides, and each element has the other one as its neighbour there. -/
def Glued (els : List DTri) (t : ℕ) (i : Fin 3) (u : ℕ) (j : Fin 3) : Prop :=
  ∃ e f, els[t]? = some e ∧ els[u]? = some f ∧ e.neighbors i = u ∧ f.neighbors j = t ∧
    f.nodes (j + 1) = e.nodes (i + 2) ∧ f.nodes (j + 2) = e.nodes (i + 1)

/-- The neighbour relation is symmetric: at every side there is no neighbour, or an existing one that has
this element as its neighbour at the same side. -/
def Linked (els : List DTri) : Prop :=
  ∀ t e, els[t]? = some e → ∀ i, e.neighbors i = -1 ∨ ∃ u j, Glued els t i u j

/-- The place of a node. -/
def placeOf {K : Type} [Zero K] (nodes : List (DNode K)) (z : ℤ) : K × K :=
  match atInt nodes z with
  | some p => p.x
  | none => (0, 0)

/-- Twice the signed area of an element. -/
def area2 {K : Type} [Ring K] (pos : ℤ → K × K) (e : DTri) : K :=
  vecpro (pos (e.nodes 0)) (pos (e.nodes 1)) (pos (e.nodes 2))

/-- Twice the signed area of all elements together. -/
def total2 {K : Type} [Ring K] (pos : ℤ → K × K) (els : List DTri) : K := (els.map (area2 pos)).sum

/-- All corners run counterclockwise. -/
def Oriented {K : Type} [Ring K] [LT K] (pos : ℤ → K × K) (els : List DTri) : Prop :=
  ∀ e ∈ els, 0 < area2 pos e

/-- A consistent triangulation: symmetric neighbours, counterclockwise elements, existing nodes, and all
elements in use. -/
structure Consistent {K : Type} [Ring K] [LT K] (nodes : List (DNode K)) (els : List DTri) :
    Prop where
  linked : Linked els
  oriented : Oriented (placeOf nodes) els
  indices : ∀ e ∈ els, ∀ i, 0 ≤ e.nodes i ∧ e.nodes i < nodes.length
  active : ∀ e ∈ els, e.active = true

end Pansfem
