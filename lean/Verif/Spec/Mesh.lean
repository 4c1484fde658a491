/-
What a mesh of polygons is: sides, signed areas, consistency of elements and boundary edges.  Nothing
here refers to the meshers.
-/
import Mathlib.Data.List.Rotate
import Mathlib.Algebra.Field.Basic
import Mathlib.Algebra.BigOperators.Group.List.Basic

namespace Pansfem

/-- The directed sides of a polygon given by its corners in order. -/
def sides (e : List ℕ) : List (ℕ × ℕ) := e.zip (e.rotate 1)

/-- Twice the signed area of the triangle of the origin and two points. -/
def cross {K : Type} [CommRing K] (p q : K × K) : K := p.1 * q.2 - q.1 * p.2

/-- The signed area of a polygon: positive if the corners are in counter-clockwise order (for a convex
polygon). -/
def polyArea {K : Type} [Field K] (nodes : List (K × K)) (e : List ℕ) : K :=
  ((sides e).map fun s => cross (nodes.getD s.1 (0, 0)) (nodes.getD s.2 (0, 0))).sum / 2

/-- Twice the signed area of the triangle of three nodes: positive if they turn left. -/
def turn {K : Type} [CommRing K] (p q r : K × K) : K :=
  (q.1 - p.1) * (r.2 - p.2) - (r.1 - p.1) * (q.2 - p.2)

/-- A quadrilateral whose four corners turn left: it is strictly convex and in counter-clockwise
order. -/
def ConvexQuad {K : Type} [Field K] [LinearOrder K] (nodes : List (K × K)) (e : List ℕ) : Prop :=
  ∃ a b c d p q r s, e = [a, b, c, d] ∧
    nodes[a]? = some p ∧ nodes[b]? = some q ∧ nodes[c]? = some r ∧ nodes[d]? = some s ∧
    0 < turn p q r ∧ 0 < turn q r s ∧ 0 < turn r s p ∧ 0 < turn s p q

/-- A consistent mesh of quadrilaterals over `N` nodes with the list `edges` of its boundary edges. -/
structure CellsOk (N : ℕ) (elements edges : List (List ℕ)) : Prop where
  /-- Four different existing corners. -/
  corners : ∀ e ∈ elements, e.length = 4 ∧ e.Nodup ∧ ∀ n ∈ e, n < N
  /-- Every node is used. -/
  used : ∀ n < N, ∃ e ∈ elements, n ∈ e
  /-- A directed side belongs to one element only.  So a pair of nodes is a side of at most two
  elements, and these pass it in opposite directions. -/
  once : (elements.flatMap sides).Nodup
  /-- An edge joins two nodes. -/
  pair : ∀ e ∈ edges, ∃ a b, e = [a, b]
  /-- The edges are exactly the sides without an element on the other side. -/
  boundary : ∀ a b, [a, b] ∈ edges ↔
    (a, b) ∈ elements.flatMap sides ∧ (b, a) ∉ elements.flatMap sides
  /-- Each of them is listed once. -/
  edgesOnce : edges.Nodup

/-- Edges in the order of one closed walk: each begins where the one before ends. -/
def ClosedLoop (edges : List (List ℕ)) : Prop :=
  ∀ k < edges.length, ∃ a b c,
    edges[k]? = some [a, b] ∧ edges[(k + 1) % edges.length]? = some [b, c]

/-- The signed area enclosed by the boundary edges. -/
def enclosed {K : Type} [Field K] (nodes : List (K × K)) (edges : List (List ℕ)) : K :=
  (edges.map fun e =>
    cross (nodes.getD (e.getD 0 0) (0, 0)) (nodes.getD (e.getD 1 0) (0, 0))).sum / 2

/-- The list `fixed` selects exactly the nodes whose coordinates satisfy `pred`, with every `u` of
`ulist`, in ascending order of the nodes and with value zero. -/
def Selects {K : Type} [Zero K] (nodes : List (K × K)) (ulist : List ℤ) (pred : K × K → Bool)
    (fixed : List ((ℕ × ℤ) × K)) : Prop :=
  (∀ f ∈ fixed, f.2 = 0) ∧
  (∀ n u, (n, u) ∈ fixed.map Prod.fst ↔ (∃ p, nodes[n]? = some p ∧ pred p = true) ∧ u ∈ ulist) ∧
  (ulist.Nodup → (fixed.map Prod.fst).Nodup)

/-- Node `m` lies in the middle between the nodes `a` and `b`. -/
def Midpoint {K : Type} [Field K] (nodes : List (K × K)) (m a b : ℕ) : Prop :=
  ∃ p q, nodes[a]? = some p ∧ nodes[b]? = some q ∧ nodes[m]? = some ((p.1 + q.1) / 2, (p.2 + q.2) / 2)

/-- The sides of an eight node element with their middle nodes. -/
def midsides : List ℕ → List ((ℕ × ℕ) × ℕ)
  | [a, b, c, d, p, q, r, s] => [((a, b), p), ((b, c), q), ((c, d), r), ((d, a), s)]
  | [a, b, m] => [((a, b), m)]
  | _ => []

end Pansfem
