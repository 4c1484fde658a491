/-
The structured meshers: /repo/src/PrePost/Mesher (SquareMesh.h, AnnulusMesh.h, SquareAnnulusMesh.h,
SquareCircleAnnulusMesh.h, GrandStructure.h).

* Numbers of divisions are natural numbers (a negative one makes the `std::vector` constructor throw);
  `int` does not overflow.
* A generator first allocates a `std::vector` of default constructed entries and then assigns them by
  index.  `fill` keeps this shape: an index outside the vector, and an entry that is never assigned,
  are `none` (for nodes the default constructed `Vector` may not even be destroyed, see C04; for
  elements the entry would be an empty element).
* A division by zero is `none` (the code goes on with a NaN coordinate).
* `cos`, `sin` and `pow` are the real functions.
-/
import Mathlib.Analysis.SpecialFunctions.Pow.Real
import Mathlib.Analysis.SpecialFunctions.Trigonometric.Basic

namespace Pansfem

/-- `v[k] = a` on a `std::vector` (for example src/PrePost/Mesher/SquareMesh.h:66). -/
def store {α : Type} (v : List (Option α)) (w : ℕ × α) : Option (List (Option α)) :=
  if w.1 < v.length then some (v.set w.1 (some w.2)) else none

/-- A vector of `n` default constructed entries filled by the assignments `ws` in program order
(SquareMesh.h:63-69 and every other generator with a preallocated vector). -/
def fill {α : Type} (n : ℕ) (ws : List (ℕ × α)) : Option (List α) :=
  (ws.foldlM store (List.replicate n none)).bind fun v => v.mapM id

/-- The assertion `0 <= *std::min_element(ulist.begin(), ulist.end())` (SquareMesh.h:195): for the
empty list the end iterator is dereferenced. -/
def dofsOk (ulist : List ℤ) : Bool := !ulist.isEmpty && ulist.all (0 ≤ ·)

/-- The body of the loops of `GenerateFixedlist` (SquareMesh.h:199-203): if the predicate holds at the
point, the node number goes with every entry of `ulist`, and the value is `T()`. -/
def fixedAt {K : Type} [Zero K] (ulist : List ℤ) (pred : K × K → Bool) (w : ℕ × (K × K)) :
    List ((ℕ × ℤ) × K) :=
  if pred w.2 then ulist.map fun u => ((w.1, u), 0) else []

/-- The nested loops over `i < m` and `j < n` (SquareMesh.h:64-65 and so on). -/
def grid {α : Type} (m n : ℕ) (f : ℕ → ℕ → α) : List α :=
  (List.range m).flatMap fun i : ℕ => (List.range n).map fun j : ℕ => f i j

/-- The evaluation of `pred(nodes[k0]) && pred(nodes[k1]) && …` (SquareMesh.h:128): `&&` stops at the
first failure. -/
def allSatisfy {K : Type} (pred : K × K → Bool) (nodes : List (K × K)) : List ℕ → Option Bool
  | [] => some true
  | k :: ks => do
    let p ← nodes[k]?
    if pred p then allSatisfy pred nodes ks else return false

/-- The loops of `GenerateElementIdsSelected` and `GenerateEdgeIdsSelected` (SquareMesh.h:126-132 and
172-187): `cands` holds the number to be pushed and the nodes to be tested. -/
def selectIds {K : Type} (pred : K × K → Bool) (nodes : List (K × K)) :
    List (ℕ × List ℕ) → Option (List ℕ)
  | [] => some []
  | c :: cs => do
    let b ← allSatisfy pred nodes c.2
    let rest ← selectIds pred nodes cs
    return if b then c.1 :: rest else rest

/-! ### SquareMesh -/

/-- The members of `SquareMesh` (SquareMesh.h:43-45, 49-54). -/
structure SquareMesh (K : Type) where
  x : K
  y : K
  nx : ℕ
  ny : ℕ

namespace SquareMesh
section
variable {K : Type} [Field K]

/-- The assignments of `GenerateNodes` (SquareMesh.h:64-68). -/
def nodeWrites (m : SquareMesh K) : List (ℕ × (K × K)) :=
  grid (m.nx + 1) (m.ny + 1) fun i j =>
    ((m.ny + 1) * i + j, (m.x * ((i : K) / (m.nx : K)), m.y * ((j : K) / (m.ny : K))))

/-- `GenerateNodes` (SquareMesh.h:62-70). -/
def nodes (m : SquareMesh K) : Option (List (K × K)) :=
  if m.nx = 0 ∨ m.ny = 0 then none else fill ((m.nx + 1) * (m.ny + 1)) m.nodeWrites

/-- The assignments of the nodes on the vertical sides in `GenerateNodes2` (SquareMesh.h:83-87). -/
def verticalWrites (m : SquareMesh K) : List (ℕ × (K × K)) :=
  grid (m.nx + 1) m.ny fun i j =>
    (m.ny * i + j + (m.nx + 1) * (m.ny + 1),
      (m.x * ((i : K) / (m.nx : K)), m.y * (((j : K) + 0.5) / (m.ny : K))))

/-- The assignments of the nodes on the horizontal sides in `GenerateNodes2` (SquareMesh.h:88-92); the
index is computed in `double`, exactly. -/
def horizontalWrites (m : SquareMesh K) : List (ℕ × (K × K)) :=
  grid m.nx (m.ny + 1) fun i j =>
    ((m.ny + 1) * i + j + (m.nx + 1) * (2 * m.ny + 1),
      (m.x * (((i : K) + 0.5) / (m.nx : K)), m.y * ((j : K) / (m.ny : K))))

/-- `GenerateNodes2` (SquareMesh.h:74-94). -/
def nodes2 (m : SquareMesh K) : Option (List (K × K)) :=
  if m.nx = 0 ∨ m.ny = 0 then none
  else fill ((2 * m.nx + 1) * (2 * m.ny + 1) - m.nx * m.ny)
    (m.nodeWrites ++ m.verticalWrites ++ m.horizontalWrites)

/-- `GenerateElements` (SquareMesh.h:98-106; SquareMesh2 has the same text, 321-329). -/
def elements (nx ny : ℕ) : Option (List (List ℕ)) :=
  fill (nx * ny) (grid nx ny fun i j =>
    (ny * i + j,
      [(ny + 1) * i + j, (ny + 1) * (i + 1) + j, (ny + 1) * (i + 1) + (j + 1), (ny + 1) * i + (j + 1)]))

/-- `GenerateElements2` (SquareMesh.h:110-118). -/
def elements2 (nx ny : ℕ) : Option (List (List ℕ)) :=
  fill (nx * ny) (grid nx ny fun i j =>
    (ny * i + j,
      [(ny + 1) * i + j, (ny + 1) * (i + 1) + j, (ny + 1) * (i + 1) + (j + 1), (ny + 1) * i + (j + 1),
        (ny + 1) * i + j + (nx + 1) * (2 * ny + 1), ny * (i + 1) + j + (nx + 1) * (ny + 1),
        (ny + 1) * i + (j + 1) + (nx + 1) * (2 * ny + 1), ny * i + j + (nx + 1) * (ny + 1)]))

/-- The assignments of `GenerateEdges` (SquareMesh.h:140-147; SquareMesh2 has the same text, 333-344). -/
def edgeWrites (nx ny : ℕ) : List (ℕ × List ℕ) :=
  ((List.range nx).flatMap fun i : ℕ =>
      [(i, [(ny + 1) * i, (ny + 1) * (i + 1)]),
        (2 * nx + ny - i - 1, [(ny + 1) * (i + 1) + ny, (ny + 1) * i + ny])]) ++
    (List.range ny).flatMap fun j : ℕ =>
      [(j + nx, [(ny + 1) * nx + j, (ny + 1) * nx + j + 1]),
        (2 * (nx + ny) - j - 1, [j + 1, j])]

/-- `GenerateEdges` (SquareMesh.h:138-149). -/
def edges (nx ny : ℕ) : Option (List (List ℕ)) := fill (2 * (nx + ny)) (edgeWrites nx ny)

/-- `GenerateEdges2` (SquareMesh.h:153-164). -/
def edges2 (nx ny : ℕ) : Option (List (List ℕ)) :=
  fill (2 * (nx + ny))
    (((List.range nx).flatMap fun i : ℕ =>
        [(i, [(ny + 1) * i, (ny + 1) * (i + 1), (ny + 1) * i + (nx + 1) * (2 * ny + 1)]),
          (2 * nx + ny - i - 1, [(ny + 1) * (i + 1) + ny, (ny + 1) * i + ny,
            (ny + 1) * i + (nx + 1) * (2 * ny + 1) + ny])]) ++
      (List.range ny).flatMap fun j : ℕ =>
        [(j + nx, [(ny + 1) * nx + j, (ny + 1) * nx + j + 1, j + (nx + 1) * (ny + 1) + nx * ny]),
          (2 * (nx + ny) - j - 1, [j + 1, j, j + (nx + 1) * (ny + 1)])])

/-- `GenerateElementIdsSelected` (SquareMesh.h:123-134). -/
def elementIds (m : SquareMesh K) (pred : K × K → Bool) : Option (List ℕ) := do
  let nodes ← m.nodes
  selectIds pred nodes (grid m.nx m.ny fun i j =>
    (m.ny * i + j, [(m.ny + 1) * i + j, (m.ny + 1) * (i + 1) + j, (m.ny + 1) * (i + 1) + (j + 1),
      (m.ny + 1) * i + (j + 1)]))

/-- `GenerateEdgeIdsSelected` (SquareMesh.h:169-189). -/
def edgeIds (m : SquareMesh K) (pred : K × K → Bool) : Option (List ℕ) := do
  let nodes ← m.nodes
  selectIds pred nodes
    (((List.range m.nx).flatMap fun i : ℕ =>
        [(i, [(m.ny + 1) * i, (m.ny + 1) * (i + 1)]),
          (2 * m.nx + m.ny - i - 1, [(m.ny + 1) * (i + 1) + m.ny, (m.ny + 1) * i + m.ny])]) ++
      (List.range m.ny).flatMap fun j : ℕ =>
        [(j + m.nx, [(m.ny + 1) * m.nx + j, (m.ny + 1) * m.nx + j + 1]),
          (2 * (m.nx + m.ny) - j - 1, [j + 1, j])])

/-- `GenerateFixedlist` (SquareMesh.h:194-207); the coordinates are computed anew. -/
def fixedlist (m : SquareMesh K) (ulist : List ℤ) (pred : K × K → Bool) :
    Option (List ((ℕ × ℤ) × K)) :=
  if dofsOk ulist = false ∨ m.nx = 0 ∨ m.ny = 0 then none
  else some ((grid (m.nx + 1) (m.ny + 1) fun i j =>
    ((m.ny + 1) * i + j, (m.x * ((i : K) / (m.nx : K)), m.y * ((j : K) / (m.ny : K))))).flatMap
      (fixedAt ulist pred))

/-- `GenerateFixedlist2` (SquareMesh.h:212-245). -/
def fixedlist2 (m : SquareMesh K) (ulist : List ℤ) (pred : K × K → Bool) :
    Option (List ((ℕ × ℤ) × K)) :=
  if dofsOk ulist = false ∨ m.nx = 0 ∨ m.ny = 0 then none
  else some (
    (grid (m.nx + 1) (m.ny + 1) fun i j =>
      ((m.ny + 1) * i + j,
        (m.x * ((i : K) / (m.nx : K)), m.y * ((j : K) / (m.ny : K))))).flatMap (fixedAt ulist pred) ++
    (grid (m.nx + 1) m.ny fun i j =>
      (m.ny * i + j + (m.nx + 1) * (m.ny + 1),
        (m.x * ((i : K) / (m.nx : K)), m.y * (((j : K) + 0.5) / (m.ny : K))))).flatMap
          (fixedAt ulist pred) ++
    (grid m.nx (m.ny + 1) fun i j =>
      ((m.ny + 1) * i + j + (m.nx + 1) * (2 * m.ny + 1),
        (m.x * (((i : K) + 0.5) / (m.nx : K)), m.y * ((j : K) / (m.ny : K))))).flatMap
          (fixedAt ulist pred))

end
end SquareMesh

/-! ### SquareMesh2 -/

/-- The members of `SquareMesh2` (SquareMesh.h:262-263, 268-275). -/
structure GradedMesh where
  x : ℝ
  y : ℝ
  nx : ℕ
  ny : ℕ
  rx : ℝ
  ry : ℝ

namespace GradedMesh

/-- `rx0` and `ry0` (SquareMesh.h:285-286): `none` if the divisor vanishes, which it does for the ratio
one.  Ratios must be positive here (simplification: a negative ratio with an odd number of divisions
is a NaN). -/
noncomputable def scale (l r : ℝ) (n : ℕ) : Option ℝ :=
  if r ≤ 0 ∨ r ^ ((n : ℝ) / 2) - 1 = 0 then none else some (0.5 * l / (r ^ ((n : ℝ) / 2) - 1))

/-- One coordinate of a node (SquareMesh.h:289-315): the case distinction on `i < nx/2.0`,
`nx/2.0 < i` and the middle; the code spells out the nine combinations of both coordinates. -/
noncomputable def coordinate (l r r0 : ℝ) (n i : ℕ) : ℝ :=
  if (i : ℝ) < (n : ℝ) / 2 then r0 * (r ^ i - 1)
  else if (n : ℝ) / 2 < (i : ℝ) then l - r0 * (r ^ (n - i) - 1)
  else 0.5 * l

/-- The assignments of `GenerateNodes` (SquareMesh.h:287-316). -/
noncomputable def nodeWrites (m : GradedMesh) (rx0 ry0 : ℝ) : List (ℕ × (ℝ × ℝ)) :=
  grid (m.nx + 1) (m.ny + 1) fun i j =>
    ((m.ny + 1) * i + j, (coordinate m.x m.rx rx0 m.nx i, coordinate m.y m.ry ry0 m.ny j))

/-- `GenerateNodes` (SquareMesh.h:283-318).  `GenerateElements` and `GenerateEdges` (321-344) are those
of `SquareMesh`. -/
noncomputable def nodes (m : GradedMesh) : Option (List (ℝ × ℝ)) := do
  let rx0 ← scale m.x m.rx m.nx
  let ry0 ← scale m.y m.ry m.ny
  fill ((m.nx + 1) * (m.ny + 1)) (m.nodeWrites rx0 ry0)

/-- `GenerateFixedlist` (SquareMesh.h:349-417). -/
noncomputable def fixedlist (m : GradedMesh) (ulist : List ℤ) (pred : ℝ × ℝ → Bool) :
    Option (List ((ℕ × ℤ) × ℝ)) :=
  if dofsOk ulist = false then none else do
    let rx0 ← scale m.x m.rx m.nx
    let ry0 ← scale m.y m.ry m.ny
    return (grid (m.nx + 1) (m.ny + 1) fun i j =>
      ((m.ny + 1) * i + j,
        (coordinate m.x m.rx rx0 m.nx i, coordinate m.y m.ry ry0 m.ny j))).flatMap (fixedAt ulist pred)

end GradedMesh

/-! ### Ring shaped meshes -/

/-- `GenerateElements` of the ring shaped meshes with `n` nodes on each ring (AnnulusMesh.h:67-75;
SquareAnnulusMesh.h:75-83 and SquareCircleAnnulusMesh.h:83-91 with `n = nxy = 2*(nx + ny)`).  The loops
do not run for `n = 0`, so the remainder by zero is never computed. -/
def ringElements (rows n : ℕ) : Option (List (List ℕ)) :=
  fill (rows * n) (grid rows n fun i j =>
    (n * i + j, [n * i + j % n, n * (i + 1) + j % n, n * (i + 1) + (j + 1) % n, n * i + (j + 1) % n]))

/-- `GenerateEdges` of the ring shaped meshes (AnnulusMesh.h:79-86, SquareAnnulusMesh.h:87-94,
SquareCircleAnnulusMesh.h:95-102). -/
def ringEdges (rows n : ℕ) : Option (List (List ℕ)) :=
  fill (2 * n) ((List.range n).flatMap fun i : ℕ =>
    [(n - i - 1, [(i + 1) % n, i]), (i + n, [n * rows + i, n * rows + (i + 1) % n])])

/-- The members of `AnnulusMesh` (AnnulusMesh.h:34-35, 40-45). -/
structure AnnulusMesh where
  r0 : ℝ
  r1 : ℝ
  nr : ℕ
  nt : ℕ

namespace AnnulusMesh

/-- The radius of ring `i` (AnnulusMesh.h:56). -/
noncomputable def radius (m : AnnulusMesh) (i : ℕ) : ℝ := (m.r1 - m.r0) * i / m.nr + m.r0

/-- The coordinates of node `j` of ring `i` (AnnulusMesh.h:58-59). -/
noncomputable def point (m : AnnulusMesh) (i j : ℕ) : ℝ × ℝ :=
  (m.radius i * Real.cos (2.0 * Real.pi * j / m.nt), m.radius i * Real.sin (2.0 * Real.pi * j / m.nt))

/-- `GenerateNodes` (AnnulusMesh.h:53-63). -/
noncomputable def nodes (m : AnnulusMesh) : Option (List (ℝ × ℝ)) :=
  if m.nr = 0 then none
  else fill ((m.nr + 1) * m.nt) (grid (m.nr + 1) m.nt fun i j => (m.nt * i + j, m.point i j))

/-- `GenerateFixedlist` (AnnulusMesh.h:91-106). -/
noncomputable def fixedlist (m : AnnulusMesh) (ulist : List ℤ) (pred : ℝ × ℝ → Bool) :
    Option (List ((ℕ × ℤ) × ℝ)) :=
  if dofsOk ulist = false ∨ m.nr = 0 then none
  else some ((grid (m.nr + 1) m.nt fun i j =>
    (m.nt * i + j,
      (((m.r1 - m.r0) * i / m.nr + m.r0) * Real.cos (2.0 * Real.pi * j / m.nt),
        ((m.r1 - m.r0) * i / m.nr + m.r0) * Real.sin (2.0 * Real.pi * j / m.nt)))).flatMap
      (fixedAt ulist pred))

end AnnulusMesh

/-- The members of `SquareAnnulusMesh` (SquareAnnulusMesh.h:33-34, 39-48). -/
structure SquareAnnulusMesh (K : Type) where
  a : K
  b : K
  c : K
  d : K
  nx : ℕ
  ny : ℕ
  nt : ℕ

namespace SquareAnnulusMesh
section
variable {K : Type} [Field K]

/-- `nxy` (SquareAnnulusMesh.h:47). -/
def nxy (m : SquareAnnulusMesh K) : ℕ := 2 * (m.nx + m.ny)

/-- The assignments of `GenerateNodes` (SquareAnnulusMesh.h:59-69). -/
def nodeWrites (m : SquareAnnulusMesh K) : List (ℕ × (K × K)) :=
  (List.range (m.nt + 1)).flatMap fun i : ℕ =>
    let t : K := (i : K) / (m.nt : K)
    ((List.range m.ny).flatMap fun j : ℕ =>
      [(m.nxy * i + j,
          (t * 0.5 * m.a + (1 - t) * 0.5 * m.c,
            t * m.b * ((j : K) / (m.ny : K) - 0.5) + (1 - t) * m.d * ((j : K) / (m.ny : K) - 0.5))),
        (m.nxy * i + j + m.ny + m.nx,
          (-t * 0.5 * m.a - (1 - t) * 0.5 * m.c,
            t * m.b * (0.5 - (j : K) / (m.ny : K)) + (1 - t) * m.d * (0.5 - (j : K) / (m.ny : K))))]) ++
    (List.range m.nx).flatMap fun j : ℕ =>
      [(m.nxy * i + j + m.ny,
          (t * m.a * (0.5 - (j : K) / (m.nx : K)) + (1 - t) * m.c * (0.5 - (j : K) / (m.nx : K)),
            t * 0.5 * m.b + (1 - t) * 0.5 * m.d)),
        (m.nxy * i + j + 2 * m.ny + m.nx,
          (t * m.a * ((j : K) / (m.nx : K) - 0.5) + (1 - t) * m.c * ((j : K) / (m.nx : K) - 0.5),
            -t * 0.5 * m.b - (1 - t) * 0.5 * m.d))]

/-- `GenerateNodes` (SquareAnnulusMesh.h:57-71). -/
def nodes (m : SquareAnnulusMesh K) : Option (List (K × K)) :=
  if m.nt = 0 then none else fill (m.nxy * (m.nt + 1)) m.nodeWrites

/-- `GenerateFixedlist` (SquareAnnulusMesh.h:99-134): here the roles of `t` and `1 - t` are exchanged
with respect to `GenerateNodes`. -/
def fixedlist (m : SquareAnnulusMesh K) (ulist : List ℤ) (pred : K × K → Bool) :
    Option (List ((ℕ × ℤ) × K)) :=
  if dofsOk ulist = false ∨ m.nt = 0 then none
  else some (((List.range (m.nt + 1)).flatMap fun i : ℕ =>
    let t : K := (i : K) / (m.nt : K)
    ((List.range m.ny).map fun j : ℕ => (m.nxy * i + j,
      ((1 - t) * 0.5 * m.a + t * 0.5 * m.c,
        (1 - t) * m.b * ((j : K) / (m.ny : K) - 0.5) + t * m.d * ((j : K) / (m.ny : K) - 0.5)))) ++
    ((List.range m.nx).map fun j : ℕ => (m.nxy * i + j + m.ny,
      ((1 - t) * m.a * (0.5 - (j : K) / (m.nx : K)) + t * m.c * (0.5 - (j : K) / (m.nx : K)),
        (1 - t) * 0.5 * m.b + t * 0.5 * m.d))) ++
    ((List.range m.ny).map fun j : ℕ => (m.nxy * i + j + m.ny + m.nx,
      (-(1 - t) * 0.5 * m.a - t * 0.5 * m.c,
        (1 - t) * m.b * (0.5 - (j : K) / (m.ny : K)) + t * m.d * (0.5 - (j : K) / (m.ny : K))))) ++
    ((List.range m.nx).map fun j : ℕ => (m.nxy * i + j + 2 * m.ny + m.nx,
      ((1 - t) * m.a * ((j : K) / (m.nx : K) - 0.5) + t * m.c * ((j : K) / (m.nx : K) - 0.5),
        -(1 - t) * 0.5 * m.b - t * 0.5 * m.d)))).flatMap (fixedAt ulist pred))

end
end SquareAnnulusMesh

/-- The members of `SquareCircleAnnulusMesh` (SquareCircleAnnulusMesh.h:34-35, 40-49). -/
structure SquareCircleMesh where
  a : ℝ
  b : ℝ
  r : ℝ
  p : ℝ
  nx : ℕ
  ny : ℕ
  nr : ℕ

namespace SquareCircleMesh

/-- `nxy` (SquareCircleAnnulusMesh.h:48). -/
def nxy (m : SquareCircleMesh) : ℕ := 2 * (m.nx + m.ny)

/-- `t` (SquareCircleAnnulusMesh.h:60). -/
noncomputable def blend (m : SquareCircleMesh) (i : ℕ) : ℝ := ((i : ℝ) / (m.nr : ℝ)) ^ m.p

/-- The points of the right part of ring `i` (SquareCircleAnnulusMesh.h:62-63). -/
noncomputable def right (m : SquareCircleMesh) (i j : ℕ) : ℝ × ℝ :=
  ((1 - m.blend i) * m.r * Real.cos (2 * Real.pi * (j - 0.5 * m.ny) / m.nxy) + m.blend i * 0.5 * m.a,
    (1 - m.blend i) * m.r * Real.sin (2 * Real.pi * (j - 0.5 * m.ny) / m.nxy)
      + m.blend i * m.b * (j / m.ny - 0.5))

/-- The points of the top part of ring `i` (SquareCircleAnnulusMesh.h:66-67). -/
noncomputable def top (m : SquareCircleMesh) (i j : ℕ) : ℝ × ℝ :=
  ((1 - m.blend i) * m.r * Real.cos (2 * Real.pi * (j + 0.5 * m.ny) / m.nxy)
      + m.blend i * m.a * (0.5 - j / m.nx),
    (1 - m.blend i) * m.r * Real.sin (2 * Real.pi * (j + 0.5 * m.ny) / m.nxy) + m.blend i * 0.5 * m.b)

/-- The points of the left part of ring `i` (SquareCircleAnnulusMesh.h:70-71). -/
noncomputable def left (m : SquareCircleMesh) (i j : ℕ) : ℝ × ℝ :=
  ((1 - m.blend i) * m.r * Real.cos (2 * Real.pi * (j + 0.5 * m.ny + m.nx) / m.nxy)
      - m.blend i * 0.5 * m.a,
    (1 - m.blend i) * m.r * Real.sin (2 * Real.pi * (j + 0.5 * m.ny + m.nx) / m.nxy)
      + m.blend i * m.b * (0.5 - j / m.ny))

/-- The points of the bottom part of ring `i` (SquareCircleAnnulusMesh.h:74-75). -/
noncomputable def bottom (m : SquareCircleMesh) (i j : ℕ) : ℝ × ℝ :=
  ((1 - m.blend i) * m.r * Real.cos (2 * Real.pi * (j + 1.5 * m.ny + m.nx) / m.nxy)
      + m.blend i * m.a * (j / m.nx - 0.5),
    (1 - m.blend i) * m.r * Real.sin (2 * Real.pi * (j + 1.5 * m.ny + m.nx) / m.nxy)
      - m.blend i * 0.5 * m.b)

/-- `GenerateNodes` (SquareCircleAnnulusMesh.h:57-79).  A negative exponent is `none`: `pow(0, p)` is
infinite on the first ring. -/
noncomputable def nodes (m : SquareCircleMesh) : Option (List (ℝ × ℝ)) :=
  if m.nr = 0 ∨ m.p < 0 then none
  else fill (m.nxy * (m.nr + 1)) ((List.range (m.nr + 1)).flatMap fun i : ℕ =>
    ((List.range m.ny).map fun j : ℕ => (m.nxy * i + j, m.right i j)) ++
    ((List.range m.nx).map fun j : ℕ => (m.nxy * i + j + m.ny, m.top i j)) ++
    ((List.range m.ny).map fun j : ℕ => (m.nxy * i + j + m.ny + m.nx, m.left i j)) ++
    ((List.range m.nx).map fun j : ℕ => (m.nxy * i + j + 2 * m.ny + m.nx, m.bottom i j)))

/-- `GenerateFixedlist` (SquareCircleAnnulusMesh.h:107-146); the four formulas are repeated literally. -/
noncomputable def fixedlist (m : SquareCircleMesh) (ulist : List ℤ) (pred : ℝ × ℝ → Bool) :
    Option (List ((ℕ × ℤ) × ℝ)) :=
  if dofsOk ulist = false ∨ m.nr = 0 ∨ m.p < 0 then none
  else some (((List.range (m.nr + 1)).flatMap fun i : ℕ =>
    ((List.range m.ny).map fun j : ℕ => (m.nxy * i + j, m.right i j)) ++
    ((List.range m.nx).map fun j : ℕ => (m.nxy * i + j + m.ny, m.top i j)) ++
    ((List.range m.ny).map fun j : ℕ => (m.nxy * i + j + m.ny + m.nx, m.left i j)) ++
    ((List.range m.nx).map fun j : ℕ => (m.nxy * i + j + 2 * m.ny + m.nx, m.bottom i j))).flatMap
      (fixedAt ulist pred))

end SquareCircleMesh

/-! ### SquareAnnulusMesh2: a rectangle with a rectangular hole -/

/-- The members of `SquareAnnulusMesh2` (SquareAnnulusMesh.h:151-152). -/
structure HoleMesh (K : Type) where
  a : K
  b : K
  nx : ℕ
  ny : ℕ
  nv : ℕ
  nw : ℕ
  nxv : ℕ
  nyw : ℕ

namespace HoleMesh
section
variable {K : Type} [Field K]

/-- The constructor (SquareAnnulusMesh.h:157-168): `none` if the assertion fails.  A hole larger than
the rectangle is `none` too (simplification: the code goes on with a negative `nxv` or `nyw`). -/
def construct (a b : K) (nx ny nv nw : ℕ) : Option (HoleMesh K) :=
  if nv ≤ nx ∧ nw ≤ ny ∧ (nx - nv) % 2 = 0 ∧ (ny - nw) % 2 = 0 then
    some ⟨a, b, nx, ny, nv, nw, (nx - nv) / 2, (ny - nw) / 2⟩
  else none

/-- The points assigned by `GenerateNodes`, in the order of `nodeid` (SquareAnnulusMesh.h:178-199).  The
loop `i < nv - 1` does not run for `nv = 0`, as with the truncated difference. -/
def points (m : HoleMesh K) : List (K × K) :=
  (grid (m.nxv + 1) (m.ny + 1) fun i j => (m.a * i / m.nx, m.b * j / m.ny)) ++
  ((List.range (m.nv - 1)).flatMap fun i : ℕ =>
    ((List.range (m.nyw + 1)).map fun j : ℕ => (m.a * (m.nxv + 1 + i) / m.nx, m.b * j / m.ny)) ++
    ((List.range (m.nyw + 1)).map fun j : ℕ =>
      (m.a * (m.nxv + 1 + i) / m.nx, m.b * (j + m.nyw + m.nw) / m.ny))) ++
  grid (m.nxv + 1) (m.ny + 1) fun i j => (m.a * (m.nxv + m.nv + i) / m.nx, m.b * j / m.ny)

/-- Entries `v[id] = a; id++` one after the other (SquareAnnulusMesh.h:181-182). -/
def counted {α : Type} (l : List α) : List (ℕ × α) := l.zipIdx.map fun p => (p.2, p.1)

/-- A size computed with `int`: a negative one makes the constructor of the vector throw
(SquareAnnulusMesh.h:177). -/
def sized {α : Type} (n : ℤ) (ws : List (ℕ × α)) : Option (List α) :=
  if n < 0 then none else fill n.toNat ws

/-- `GenerateNodes` (SquareAnnulusMesh.h:176-202). -/
def nodes (m : HoleMesh K) : Option (List (K × K)) :=
  if m.nx = 0 ∨ m.ny = 0 then none
  else sized ((m.nx + 1) * (m.ny + 1) - (m.nv - 1) * (m.nw - 1)) (counted m.points)

/-- A node number computed with `int`; a negative one is `none` (the differences in SquareAnnulusMesh.h:209-257). -/
def number (k : ℤ) : Option ℕ := if k < 0 then none else some k.toNat

/-- The element with lower left corner `p`, lower right corner `q`: the two nodes above are the next
ones (the pattern `{p, q, q + 1, p + 1}` of SquareAnnulusMesh.h:211, 217, 223-227, 231-235, 241-245,
251-254). -/
def cell (p q : ℤ) : List ℤ := [p, q, q + 1, p + 1]

/-- The elements in the order of `elementid` (SquareAnnulusMesh.h:209-257). -/
def cells (m : HoleMesh K) : List (List ℤ) :=
  let ny : ℤ := m.ny
  let nxv : ℤ := m.nxv
  let nyw : ℤ := m.nyw
  let nv : ℤ := m.nv
  let nw : ℤ := m.nw
  (grid m.nxv m.ny fun i j => cell ((ny + 1) * i + j) ((ny + 1) * (i + 1) + j)) ++
  ((List.range m.nyw).map fun j : ℕ => cell ((ny + 1) * nxv + j) ((ny + 1) * (nxv + 1) + j)) ++
  ((List.range (m.nv - 1)).flatMap fun i : ℕ =>
    ((List.range m.nyw).map fun j : ℕ =>
      cell ((ny + 1) * nxv + nw - 1 + (nyw + 1) * (2 * i + 1) + j)
        ((ny + 1) * nxv + nw - 1 + (nyw + 1) * (2 * i + 3) + j)) ++
    ((List.range m.nyw).map fun j : ℕ =>
      cell ((ny + 1) * (nxv + 1) + 2 * (nyw + 1) * i + j)
        ((ny + 1) * (nxv + 1) + 2 * (nyw + 1) * (i + 1) + j))) ++
  ((List.range m.nyw).map fun j : ℕ =>
    cell ((ny + 1) * (nxv + 1) + (nyw + 1) * (2 * nv - 3) + j)
      ((ny + 1) * (nxv + 1) + 2 * (nyw + 1) * (nv - 1) + nyw + nw + j)) ++
  grid m.nxv m.ny fun i j =>
    cell ((ny + 1) * (nxv + 1) + 2 * (nyw + 1) * (nv - 1) + (ny + 1) * i + j)
      ((ny + 1) * (nxv + 1) + 2 * (nyw + 1) * (nv - 1) + (ny + 1) * (i + 1) + j)

/-- `GenerateElements` (SquareAnnulusMesh.h:206-260). -/
def elements (m : HoleMesh K) : Option (List (List ℕ)) :=
  (m.cells.mapM fun e : List ℤ => e.mapM number).bind fun es =>
    sized (m.nx * m.ny - m.nv * m.nw) (counted es)

/-- The edges in the order of `edgeid` (SquareAnnulusMesh.h:267-309). -/
def edgeList (m : HoleMesh K) : List (List ℤ) :=
  let ny : ℤ := m.ny
  let nxv : ℤ := m.nxv
  let nyw : ℤ := m.nyw
  let nv : ℤ := m.nv
  ((List.range (m.nxv + 1)).map fun i : ℕ => [(ny + 1) * i, (ny + 1) * (i + 1)]) ++
  ((List.range (m.nv - 1)).map fun i : ℕ =>
    [(ny + 1) * (nxv + 1) + 2 * (nyw + 1) * i, (ny + 1) * (nxv + 1) + 2 * (nyw + 1) * (i + 1)]) ++
  ((List.range m.nxv).map fun i : ℕ =>
    [(ny + 1) * (nxv + 1) + 2 * (nyw + 1) * (nv - 1) + (ny + 1) * i,
      (ny + 1) * (nxv + 1) + 2 * (nyw + 1) * (nv - 1) + (ny + 1) * (i + 1)]) ++
  ((List.range m.ny).map fun j : ℕ =>
    [(ny + 1) * (2 * nxv + 1) + 2 * (nyw + 1) * (nv - 1) + j,
      (ny + 1) * (2 * nxv + 1) + 2 * (nyw + 1) * (nv - 1) + (j + 1)]) ++
  ((List.range (m.nxv + 1)).map fun i : ℕ =>
    [2 * (ny + 1) * (nxv + 1) + 2 * (nyw + 1) * (nv - 1) - (ny + 1) * i - 1,
      2 * (ny + 1) * (nxv + 1) + 2 * (nyw + 1) * (nv - 1) - (ny + 1) * (i + 1) - 1]) ++
  ((List.range (m.nv - 1)).map fun i : ℕ =>
    [(ny + 1) * (nxv + 1) + 2 * (nyw + 1) * (nv - i - 1) - 1,
      (ny + 1) * (nxv + 1) + 2 * (nyw + 1) * (nv - (i + 1) - 1) - 1]) ++
  ((List.range m.nxv).map fun i : ℕ =>
    [(ny + 1) * (nxv + 1 - i) - 1, (ny + 1) * (nxv + 1 - (i + 1)) - 1]) ++
  (List.range m.ny).map fun j : ℕ => [ny - j, ny - (j + 1)]

/-- `GenerateEdges` (SquareAnnulusMesh.h:264-311). -/
def edges (m : HoleMesh K) : Option (List (List ℕ)) :=
  (m.edgeList.mapM fun e : List ℤ => e.mapM number).bind fun es => fill (2 * (m.nx + m.ny)) (counted es)

/-- `GenerateFixedlist` (SquareAnnulusMesh.h:316-357): the same points again, numbered by `nodeid`. -/
def fixedlist (m : HoleMesh K) (ulist : List ℤ) (pred : K × K → Bool) :
    Option (List ((ℕ × ℤ) × K)) :=
  if dofsOk ulist = false ∨ m.nx = 0 ∨ m.ny = 0 then none
  else some ((counted (
    (grid (m.nxv + 1) (m.ny + 1) fun i j => (m.a * i / m.nx, m.b * j / m.ny)) ++
    ((List.range (m.nv - 1)).flatMap fun i : ℕ =>
      ((List.range (m.nyw + 1)).map fun j : ℕ => (m.a * (m.nxv + 1 + i) / m.nx, m.b * j / m.ny)) ++
      ((List.range (m.nyw + 1)).map fun j : ℕ =>
        (m.a * (m.nxv + 1 + i) / m.nx, m.b * (j + m.nyw + m.nw) / m.ny))) ++
    grid (m.nxv + 1) (m.ny + 1) fun i j =>
      (m.a * (m.nxv + m.nv + i) / m.nx, m.b * j / m.ny))).flatMap (fixedAt ulist pred))

end
end HoleMesh

/-! ### GrandStructure2D -/

/-- The members of `GrandStructure2D` (GrandStructure.h:33-34, 39-45). -/
structure GrandStructure (K : Type) where
  x : K
  y : K
  nx : ℕ
  ny : ℕ
  lmax : K

namespace GrandStructure
section
variable {K : Type} [Field K] [LinearOrder K]

/-- `GenerateNodes` (GrandStructure.h:53-61). -/
def nodes (m : GrandStructure K) : Option (List (K × K)) :=
  if m.nx = 0 ∨ m.ny = 0 then none
  else fill ((m.nx + 1) * (m.ny + 1)) (grid (m.nx + 1) (m.ny + 1) fun i j =>
    ((m.ny + 1) * i + j, (m.x * ((i : K) / (m.nx : K)), m.y * ((j : K) / (m.ny : K)))))

/-- The condition in the innermost loop of `GenerateElements` (GrandStructure.h:70). -/
def isBar (m : GrandStructure K) (i j k l : ℕ) : Bool :=
  decide ((m.ny + 1) * i + j > (m.ny + 1) * k + l) &&
    decide ((m.x * (((i : ℤ) - (k : ℤ) : ℤ) : K) / (m.nx : K)) ^ 2 +
      (m.y * (((j : ℤ) - (l : ℤ) : ℤ) : K) / (m.ny : K)) ^ 2 < m.lmax ^ 2)

/-- `GenerateElements` (GrandStructure.h:65-79); without divisions in a direction the only difference
is `0`, and the code would compute `0/0` as soon as the first condition holds. -/
def elements (m : GrandStructure K) : Option (List (List ℕ)) :=
  if m.nx = 0 ∨ m.ny = 0 then none
  else some ((List.range (m.nx + 1)).flatMap fun i : ℕ => (List.range (m.ny + 1)).flatMap fun j : ℕ =>
    (List.range (m.nx + 1)).flatMap fun k : ℕ => (List.range (m.ny + 1)).flatMap fun l : ℕ =>
      if m.isBar i j k l then [[(m.ny + 1) * i + j, (m.ny + 1) * k + l]] else [])

/-- `GenerateFixedlist` (GrandStructure.h:84-97). -/
def fixedlist (m : GrandStructure K) (ulist : List ℤ) (pred : K × K → Bool) :
    Option (List ((ℕ × ℤ) × K)) :=
  if dofsOk ulist = false ∨ m.nx = 0 ∨ m.ny = 0 then none
  else some ((grid (m.nx + 1) (m.ny + 1) fun i j =>
    ((m.ny + 1) * i + j, (m.x * ((i : K) / (m.nx : K)), m.y * ((j : K) / (m.ny : K))))).flatMap
      (fixedAt ulist pred))

end
end GrandStructure

end Pansfem
