/-
The Delaunay mesher: /repo/src/PrePost/Mesher/Delaunay.h.

* Coordinates are pairs over an ordered field; `Node::distance` occurs in comparisons only and is
  replaced by its square (`longer` says what the comparison with a bound becomes).  `getsupertriangle`
  with its sine and cosine is over `ℝ`.
* Numbers of nodes and elements are integers, with -1 for "no neighbour" as in the code.  A subscript
  outside the vector is `none`.
* `angles` (`getangle`, lines 183-188) are written but never read; they are left out.
* Loops without a bound (`swapping`, `laplacesmoothing`, `makefinemesh`) run on a number of rounds; more
  rounds than given is `none` too.
-/
import Verif.Model.Mesh
import Mathlib.Analysis.SpecialFunctions.Sqrt
import Mathlib.Analysis.SpecialFunctions.Trigonometric.Basic
import Mathlib.Data.Fin.VecNotation
import Mathlib.Algebra.Order.Field.Basic

namespace Pansfem

/-- `Node` (Delaunay.h:27-57). -/
structure DNode (K : Type) where
  x : K × K
  isset : Bool
  isonboundary : Bool

/-- `Node::Node` (Delaunay.h:43-57). -/
def DNode.fresh {K : Type} (x : K × K) : DNode K := ⟨x, false, false⟩

/-- `Node::vecpro` (Delaunay.h:66-69): twice the signed area of the triangle `a b c`. -/
def vecpro {K : Type} [Ring K] (a b c : K × K) : K :=
  (b.1 - a.1) * (c.2 - a.2) - (b.2 - a.2) * (c.1 - a.1)

/-- The square of `Node::distance` (Delaunay.h:60-63). -/
def distSq {K : Type} [Ring K] (a b : K × K) : K := (a.1 - b.1) ^ 2 + (a.2 - b.2) ^ 2

/-- `Element` (Delaunay.h:79-138), without the angles. -/
structure DTri where
  nodes : Fin 3 → ℤ
  neighbors : Fin 3 → ℤ
  sides : Fin 3 → Bool
  active : Bool
  check : Bool

/-- `Element::Element` with the nodes (Delaunay.h:122-138); the members `sides` and `neighbors` are
assigned afterwards where the code does it. -/
def DTri.ofNodes (nodes : Fin 3 → ℤ) : DTri := ⟨nodes, fun _ => -1, fun _ => false, true, false⟩

/-- A subscript that is an `int` (for example Delaunay.h:147). -/
def atInt {α : Type} (l : List α) (z : ℤ) : Option α := if z < 0 then none else l[z.toNat]?

/-- `SELFEPS0` and `SELFEPS1` (Delaunay.h:21-22). -/
def selfEps {K : Type} [Field K] : K := 1 / 10 ^ 10

/-- The decisions of `Element::inouton` (Delaunay.h:155-169) for the corners `a b c` and the point `q`. -/
def inoutonAt {K : Type} [Field K] [LinearOrder K] (a b c q : K × K) : ℤ :=
  let v0 := vecpro a b q
  let v1 := vecpro b c q
  let v2 := vecpro c a q
  let v3 := vecpro a c q
  let v4 := vecpro b a q
  let v5 := vecpro c b q
  if 0 < v2 ∧ (v0 < 0 ∨ (|v0| ≤ selfEps ∧ 0 < v5)) then -3
  else if 0 < v0 ∧ (v1 < 0 ∨ (|v1| ≤ selfEps ∧ 0 < v3)) then -1
  else if 0 < v1 ∧ (v2 < 0 ∨ (|v2| ≤ selfEps ∧ 0 < v4)) then -2
  else if |v0| ≤ selfEps then 3
  else if |v1| ≤ selfEps then 1
  else if |v2| ≤ selfEps then 2
  else 0

/-- `Element::inouton` (Delaunay.h:145-170). -/
def DTri.inouton {K : Type} [Field K] [LinearOrder K] (e : DTri) (q : ℤ) (nodes : List (DNode K)) :
    Option ℤ := do
  let a ← atInt nodes (e.nodes 0)
  let b ← atInt nodes (e.nodes 1)
  let c ← atInt nodes (e.nodes 2)
  let x ← atInt nodes q
  return inoutonAt a.x b.x c.x x.x

/-- `Element::oppositenode` (Delaunay.h:172-180); -1 is `none` (its result is used as a subscript). -/
def DTri.oppositenode (e : DTri) (t : ℤ) : Option (Fin 3) :=
  if e.neighbors 0 = t then some 0
  else if e.neighbors 1 = t then some 1
  else if e.neighbors 2 = t then some 2
  else none

/-- `Element::nodeorder` (Delaunay.h:191-199). -/
def DTri.nodeorder (e : DTri) (q : ℤ) : Option (Fin 3) :=
  if e.nodes 0 = q then some 0
  else if e.nodes 1 = q then some 1
  else if e.nodes 2 = q then some 2
  else none

/-- `elements[t].neighbors[elements[t].oppositenode(old)] = new` (Delaunay.h:484, 524, 652 and so on). -/
def relink (els : List DTri) (t : ℕ) (old new : ℤ) : Option (List DTri) := do
  let e ← els[t]?
  let i ← e.oppositenode old
  return els.set t { e with neighbors := Function.update e.neighbors i new }

/-- The same under `if (t >= 0)` (Delaunay.h:481-486, 650-658). -/
def relinkNonneg (els : List DTri) (t old new : ℤ) : Option (List DTri) :=
  if 0 ≤ t then relink els t.toNat old new else some els

/-- The same under `if (t != -1)` (Delaunay.h:527-535, 593-596). -/
def relinkSome (els : List DTri) (t old new : ℤ) : Option (List DTri) :=
  if t = -1 then some els else if t < 0 then none else relink els t.toNat old new

/-- The body of the swap in `swapping` (Delaunay.h:646-673): the triangle `now` with its neighbour `nei`
across the side 0, whose node opposite to that side has the number `j`. -/
def swapAt (els : List DTri) (p1 m1 : ℤ) (now nei : ℕ) (j : Fin 3) : Option (List DTri) := do
  let tmp ← els[nei]?
  let els ← relinkNonneg els (tmp.neighbors (j + 1)) nei now
  let e ← els[now]?
  let els ← relinkNonneg els (e.neighbors 1) now nei
  let e ← els[now]?
  let f ← els[nei]?
  let els := els.set nei
    { f with sides := ![tmp.sides (j + 2), e.sides 1, false],
             nodes := ![e.nodes 0, tmp.nodes j, e.nodes 2],
             neighbors := ![tmp.neighbors (j + 2), e.neighbors 1, (now : ℤ)] }
  let e ← els[now]?
  let els := els.set now
    { e with sides := ![tmp.sides (j + 1), false, e.sides 2],
             nodes := ![e.nodes 0, e.nodes 1, tmp.nodes j],
             neighbors := ![tmp.neighbors (j + 1), (nei : ℤ), e.neighbors 2] }
  if tmp.nodes j = m1 ∨ tmp.nodes j = p1 then
    let e ← els[now]?
    let els := els.set now { e with sides := Function.update e.sides 1 true }
    let f ← els[nei]?
    return els.set nei { f with sides := Function.update f.sides 2 true }
  else return els

/-- The condition of the swap that looks at the geometry (Delaunay.h:637-643). -/
def swapWanted {K : Type} [Field K] [LinearOrder K] (nodes : List (DNode K)) (e f : DTri) (j : Fin 3) :
    Option Bool := do
  let a ← atInt nodes (e.nodes 1)
  let b ← atInt nodes (e.nodes 2)
  let p ← atInt nodes (e.nodes 0)
  let d ← atInt nodes (f.nodes j)
  if distSq p.x d.x < distSq a.x b.x then
    let pos ← e.inouton (f.nodes j) nodes
    if pos = -1 then
      let pos ← f.inouton (e.nodes 0) nodes
      return decide (pos = -((j : ℤ) + 1)) && !e.sides 0
    else return false
  else return false

/-- `swapping` (Delaunay.h:626-678).  The head of the list is the end of the stack. -/
def swapping {K : Type} [Field K] [LinearOrder K] (nodes : List (DNode K)) (p1 m1 : ℤ) :
    ℕ → List ℕ → List DTri → Option (List DTri)
  | _, [], els => some els
  | 0, _ :: _, _ => none
  | n + 1, now :: stack, els => do
    let e ← els[now]?
    if e.neighbors 0 < 0 then swapping nodes p1 m1 n stack els
    else
      let nei := (e.neighbors 0).toNat
      let f ← els[nei]?
      if f.active then
        let j ← f.oppositenode now
        let w ← swapWanted nodes e f j
        if w ∨ f.nodes j = p1 ∨ f.nodes j = m1 then
          let els ← swapAt els p1 m1 now nei j
          swapping nodes p1 m1 n (nei :: now :: stack) els
        else swapping nodes p1 m1 n stack els
      else swapping nodes p1 m1 n stack els

/-- The mesher (Delaunay.h:203-231). -/
structure Delaunay (K : Type) where
  nodes : List (DNode K)
  elements : List DTri

/-- The three triangles of `getelementin` (Delaunay.h:468-477): triangle `i` keeps the side `i` of the
old one, and the sides to a neighbour of the new node on the boundary are marked. -/
def splitIn (e : DTri) (p1 q m1 : ℤ) (i : Fin 3) : DTri :=
  { DTri.ofNodes ![q, e.nodes (i + 1), e.nodes (i + 2)] with
    sides := ![e.sides i, decide (e.nodes (i + 2) = m1 ∨ e.nodes (i + 2) = p1),
      decide (e.nodes (i + 1) = m1 ∨ e.nodes (i + 1) = p1)] }

/-- `getelementin` up to the call of `swapping` (Delaunay.h:463-494): the new list of elements. -/
def getelementinTopo (els : List DTri) (now : ℕ) (p1 q m1 : ℤ) : Option (List DTri) := do
  let e ← els[now]?
  let N : ℤ := els.length
  let t0 : DTri := { splitIn e p1 q m1 0 with neighbors := ![e.neighbors 0, N, N + 1] }
  let t1 : DTri := { splitIn e p1 q m1 1 with neighbors := ![e.neighbors 1, N + 1, (now : ℤ)] }
  let t2 : DTri := { splitIn e p1 q m1 2 with neighbors := ![e.neighbors 2, (now : ℤ), N] }
  let els ← relinkNonneg els (e.neighbors 1) now N
  let e' ← els[now]?
  let els ← relinkNonneg els (e'.neighbors 2) now (N + 1)
  return els.set now t0 ++ [t1, t2]

/-- `getelementin` (Delaunay.h:463-497). -/
def Delaunay.getelementin {K : Type} [Field K] [LinearOrder K] (rounds : ℕ) (d : Delaunay K) (now : ℕ)
    (p1 q m1 : ℤ) : Option (Delaunay K) := do
  let els ← getelementinTopo d.elements now p1 q m1
  let els ← swapping d.nodes p1 m1 rounds [d.elements.length + 1, d.elements.length, now] els
  return { d with elements := els }

/-- `getelementon` with a neighbour, up to the call of `swapping` (Delaunay.h:507-578): the side `k` of
`now`, the neighbour `nei`, whose node opposite to that side has the number `j`. -/
def getelementonTopo2 (els : List DTri) (now : ℕ) (k : Fin 3) (nei : ℕ) (j : Fin 3) (p1 q m1 : ℤ) :
    Option (List DTri) := do
  let e ← els[now]?
  let f ← els[nei]?
  let N : ℤ := els.length
  let on (z : ℤ) : Bool := decide (z = m1 ∨ z = p1)
  let t0 : DTri := { DTri.ofNodes ![q, e.nodes k, e.nodes (k + 1)] with
    neighbors := ![e.neighbors (k + 2), (nei : ℤ), N]
    sides := ![e.sides (k + 2), on (e.nodes (k + 1)) || e.sides k, on (e.nodes k)] }
  let t1 : DTri := { DTri.ofNodes ![q, e.nodes (k + 1), f.nodes j] with
    neighbors := ![f.neighbors (j + 1), N + 1, (now : ℤ)]
    sides := ![f.sides (j + 1), on (f.nodes j), on (e.nodes (k + 1)) || e.sides k] }
  let t2 : DTri := { DTri.ofNodes ![q, e.nodes (k + 2), e.nodes k] with
    neighbors := ![e.neighbors (k + 1), (now : ℤ), N + 1]
    sides := ![e.sides (k + 1), on (e.nodes k), on (e.nodes (k + 2)) || e.sides k] }
  let t3 : DTri := { DTri.ofNodes ![q, f.nodes j, e.nodes (k + 2)] with
    neighbors := ![f.neighbors (j + 2), N, (nei : ℤ)]
    sides := ![f.sides (j + 2), on (e.nodes (k + 2)) || e.sides k, on (f.nodes j)] }
  let els ← relinkSome els (e.neighbors (k + 1)) now N
  let f' ← els[nei]?
  let els ← relinkSome els (f'.neighbors (j + 2)) nei (N + 1)
  return (els.set now t0).set nei t1 ++ [t2, t3]

/-- `getelementon` without a neighbour, up to the call of `swapping` (Delaunay.h:581-619). -/
def getelementonTopo1 (els : List DTri) (now : ℕ) (k : Fin 3) (p1 q m1 : ℤ) : Option (List DTri) := do
  let e ← els[now]?
  let N : ℤ := els.length
  let on (z : ℤ) : Bool := decide (z = m1 ∨ z = p1)
  let t0 : DTri := { DTri.ofNodes ![q, e.nodes k, e.nodes (k + 1)] with
    neighbors := ![e.neighbors (k + 2), -1, N]
    sides := ![e.sides (k + 2), on (e.nodes (k + 1)) || e.sides k, on (e.nodes k)] }
  let t1 : DTri := { DTri.ofNodes ![q, e.nodes (k + 2), e.nodes k] with
    neighbors := ![e.neighbors (k + 1), (now : ℤ), -1]
    sides := ![e.sides (k + 1), on (e.nodes k), on (e.nodes (k + 2)) || e.sides k] }
  let els ← relinkSome els (e.neighbors (k + 1)) now N
  return els.set now t0 ++ [t1]

/-- `nodes[q].isonboundary = true` if the side is on the boundary (Delaunay.h:553-559, 608-612). -/
def markBoundary {K : Type} (nodes : List (DNode K)) (q : ℤ) (b : Bool) : Option (List (DNode K)) :=
  if b then do
    let p ← atInt nodes q
    return nodes.set q.toNat { p with isonboundary := true }
  else some nodes

/-- `getelementon` (Delaunay.h:500-623). -/
def Delaunay.getelementon {K : Type} [Field K] [LinearOrder K] (rounds : ℕ) (d : Delaunay K) (now : ℕ)
    (k : Fin 3) (p1 q m1 : ℤ) : Option (Delaunay K) := do
  let e ← d.elements[now]?
  let nodes ← markBoundary d.nodes q (e.sides k)
  if e.neighbors k = -1 then
    let els ← getelementonTopo1 d.elements now k p1 q m1
    let els ← swapping nodes p1 m1 rounds [d.elements.length, now] els
    return ⟨nodes, els⟩
  else
    let f ← atInt d.elements (e.neighbors k)
    let nei := (e.neighbors k).toNat
    if f.active then
      let j ← f.oppositenode now
      let els ← getelementonTopo2 d.elements now k nei j p1 q m1
      let els ← swapping nodes p1 m1 rounds
        [d.elements.length + 1, d.elements.length, nei, now] els
      return ⟨nodes, els⟩
    else
      let els ← getelementonTopo1 d.elements now k p1 q m1
      let els ← swapping nodes p1 m1 rounds [d.elements.length, now] els
      return ⟨nodes, els⟩

/-! ### The rough mesh -/

/-- `abs(pos) - 1` as a subscript (Delaunay.h:314-315). -/
def posIndex (pos : ℤ) : Option (Fin 3) :=
  if |pos| = 1 then some 0 else if |pos| = 2 then some 1 else if |pos| = 3 then some 2 else none

/-- The search for the element that contains the node (Delaunay.h:310-320, 330): `some none` if the loop
ends without it. -/
def searchTri {K : Type} [Field K] [LinearOrder K] (nodes : List (DNode K)) (els : List DTri) (q : ℤ) :
    ℕ → ℕ → Option (Option (ℕ × ℤ))
  | 0, _ => some none
  | n + 1, now => do
    let e ← els[now]?
    let pos ← e.inouton q nodes
    if pos < 0 ∨ e.active = false then
      let i ← posIndex pos
      if 0 ≤ e.neighbors i then searchTri nodes els q n (e.neighbors i).toNat
      else searchTri nodes els q n now
    else return some (now, pos)

/-- One round of `makeroughmesh` (Delaunay.h:299-341) for the node `q`, whose neighbours on the boundary
are `p1` (its subscript may be out of range) and `m1`. -/
def Delaunay.insert {K : Type} [Field K] [LinearOrder K] (rounds : ℕ) (d : Delaunay K)
    (p1 : Option ℤ) (q m1 : ℤ) : Option (Delaunay K) := do
  let p ← atInt d.nodes q
  if p.isset then return d
  else
    let d : Delaunay K :=
      { d with nodes := d.nodes.set q.toNat { p with isset := true, isonboundary := true } }
    match ← searchTri d.nodes d.elements q d.elements.length (d.elements.length - 1) with
    | none => return d
    | some (now, pos) =>
      let p1 ← p1
      if pos = 0 then d.getelementin rounds now p1 q m1
      else
        let k ← posIndex pos
        d.getelementon rounds now k p1 q m1

/-- `makeroughmesh` (Delaunay.h:296-344). -/
def Delaunay.makeroughmesh {K : Type} [Field K] [LinearOrder K] (rounds : ℕ) (d : Delaunay K)
    (boundary : List ℤ) : Option (Delaunay K) :=
  (List.range boundary.length).foldlM (fun (d : Delaunay K) (i : ℕ) => do
    let q ← boundary[i]?
    if i = 0 then d.insert rounds (boundary[1]?) q (-2)
    else
      let m1 ← boundary[i - 1]?
      if i = boundary.length - 1 then d.insert rounds (boundary[0]?) q m1
      else d.insert rounds (boundary[i + 1]?) q m1) d

/-- `getsupertriangle` (Delaunay.h:276-293). -/
noncomputable def Delaunay.getsupertriangle (d : Delaunay ℝ) : Delaunay ℝ :=
  let rmax := d.nodes.foldl (fun r n =>
    let t := Real.sqrt (distSq n.x (0, 0)); if r < t then t else r) 0
  let corner (i : ℝ) : DNode ℝ := DNode.fresh
    (-2 * rmax * Real.sin (2 * Real.pi * i / 3), 2 * rmax * Real.cos (2 * Real.pi * i / 3))
  let nodes := d.nodes ++ [corner 0, corner 1, corner 2]
  ⟨nodes, d.elements ++ [DTri.ofNodes
    ![(nodes.length : ℤ) - 3, (nodes.length : ℤ) - 2, (nodes.length : ℤ) - 1]]⟩

/-! ### Removal of elements and nodes -/

/-- The place of a node on a boundary, -1 if it is not there (Delaunay.h:352-358). -/
def orderOn (boundary : List ℤ) (q : ℤ) : ℤ :=
  if boundary.idxOf q = boundary.length then -1 else boundary.idxOf q

/-- The three places increase in cyclic order (Delaunay.h:365-367). -/
def cyclicUp (o : Fin 3 → ℤ) : Bool :=
  decide ((o 0 < o 1 ∧ o 1 < o 2) ∨ (o 1 < o 2 ∧ o 2 < o 0) ∨ (o 2 < o 0 ∧ o 0 < o 1))

/-- `deactivateelements` on one element (Delaunay.h:349-391). -/
def deactivate (boundary : List ℤ) (outer : Bool) (e : DTri) : DTri :=
  if e.check then e
  else
    let o : Fin 3 → ℤ := fun i => orderOn boundary (e.nodes i)
    if 0 ≤ o 0 ∧ 0 ≤ o 1 ∧ 0 ≤ o 2 then
      { e with check := true, active := if cyclicUp o then false else e.active }
    else if outer = false ∧ (0 ≤ o 0 ∨ 0 ≤ o 1 ∨ 0 ≤ o 2) then { e with check := true }
    else e

/-- `deactivateelements` (Delaunay.h:347-393). -/
def Delaunay.deactivateelements {K : Type} (d : Delaunay K) (boundary : List ℤ) (outer : Bool) :
    Delaunay K :=
  { d with elements := d.elements.map (deactivate boundary outer) }

/-- `deactivatesupertriangle` (Delaunay.h:396-406). -/
def Delaunay.deactivatesupertriangle {K : Type} (d : Delaunay K) : Delaunay K :=
  let n : ℤ := d.nodes.length
  let far (z : ℤ) : Bool := decide (z = n - 1 ∨ z = n - 2 ∨ z = n - 3)
  { d with elements := d.elements.map fun e : DTri =>
      if far (e.nodes 0) || far (e.nodes 1) || far (e.nodes 2) then { e with active := false } else e }

/-- `deleteelement` (Delaunay.h:409-416): erasing from the end is a filter. -/
def Delaunay.deleteelement {K : Type} (d : Delaunay K) : Delaunay K :=
  { d with elements := d.elements.filter fun e => e.active && e.check }

/-- The test of `sortelement` (Delaunay.h:425-427): the side `j` of `e` is a side of `f` the other way
round. -/
def sideOf (e f : DTri) (j : Fin 3) : Bool :=
  decide ((e.nodes (j + 1) = f.nodes 0 ∧ e.nodes (j + 2) = f.nodes 2) ∨
    (e.nodes (j + 1) = f.nodes 1 ∧ e.nodes (j + 2) = f.nodes 0) ∨
    (e.nodes (j + 1) = f.nodes 2 ∧ e.nodes (j + 2) = f.nodes 1))

/-- The first element other than `i` with the side `j` of `e` (Delaunay.h:423-431). -/
def firstAcross (els : List DTri) (i : ℕ) (e : DTri) (j : Fin 3) : ℤ :=
  match (List.range els.length).find? fun k : ℕ =>
      i ≠ k ∧ ∃ f ∈ els[k]?, sideOf e f j = true with
  | some k => k
  | none => -1

/-- `sortelement` (Delaunay.h:419-434). -/
def Delaunay.sortelement {K : Type} (d : Delaunay K) : Delaunay K :=
  { d with elements := d.elements.mapIdx fun i e =>
      { e with neighbors := fun j => firstAcross d.elements i e j } }

/-- `sortnode`, first part (Delaunay.h:440-450): all numbers above an unused node go down by one, from the
last node to the first. -/
def renumber {K : Type} (nodes : List (DNode K)) (z : ℤ) : ℤ :=
  (List.range nodes.length).foldr (fun (i : ℕ) (z : ℤ) =>
    match nodes[i]? with
    | some p => if p.isset then z else if (i : ℤ) < z then z - 1 else z
    | none => z) z

/-- `sortnode` (Delaunay.h:437-460). -/
def Delaunay.sortnode {K : Type} (d : Delaunay K) : Delaunay K :=
  ⟨d.nodes.filter fun p => p.isset,
    d.elements.map fun e : DTri => { e with nodes := fun i => renumber d.nodes (e.nodes i) }⟩

/-! ### The fine mesh -/

/-- `maxside > _maxside` for the square of `maxside` (Delaunay.h:702). -/
def longer {K : Type} [Field K] [LinearOrder K] (m2 bound : K) : Bool := decide (bound * |bound| < m2)

/-- One side in the search for the longest side (Delaunay.h:689-694). -/
def longestStep {K : Type} [Field K] [LinearOrder K] (d : Delaunay K) (t : ℕ) (m : K × ℕ × Fin 3) (k : Fin 3) :
    Option (K × ℕ × Fin 3) := do
  let e ← d.elements[t]?
  let a ← atInt d.nodes (e.nodes (k + 1))
  let b ← atInt d.nodes (e.nodes (k + 2))
  return if m.1 < distSq a.x b.x ∧ e.active = true then (distSq a.x b.x, t, k) else m

/-- The search for the longest side (Delaunay.h:686-696): its squared length, element and number. -/
def longest {K : Type} [Field K] [LinearOrder K] (d : Delaunay K) : Option (K × ℕ × Fin 3) :=
  (List.range d.elements.length).foldlM (fun (m : K × ℕ × Fin 3) (t : ℕ) =>
    [0, 1, 2].foldlM (longestStep d t) m) (0, 0, 0)

/-- The elements around a node (Delaunay.h:717-722): the `do` loop over the neighbours. -/
def around (els : List DTri) (q : ℤ) (start : ℤ) : ℕ → ℤ → Option (List ℕ)
  | 0, _ => none
  | n + 1, now => do
    let e ← atInt els now
    let next := e.neighbors (match e.nodeorder q with | some i => i + 1 | none => 0)
    if next = start then return [now.toNat]
    else return now.toNat :: (← around els q start n next)

/-- One round of the sum in `laplacesmoothing` (Delaunay.h:725-727), built up in the place of the
coordinates. -/
def smoothAdd {K : Type} [Field K] (els : List DTri) (i : ℕ) (nodes : List (DNode K)) (j : ℕ) :
    Option (List (DNode K)) := do
  let e ← els[j]?
  let a ← atInt nodes (e.nodes (match e.nodeorder i with | some k => k + 1 | none => 0))
  let p ← nodes[i]?
  return nodes.set i { p with x := (p.x.1 + a.x.1, p.x.2 + a.x.2) }

/-- One node of `laplacesmoothing` (Delaunay.h:708-730). -/
def smoothNode {K : Type} [Field K] (rounds : ℕ) (els : List DTri) (nodes : List (DNode K)) (i : ℕ) :
    Option (List (DNode K)) := do
  let p ← nodes[i]?
  if p.isonboundary then return nodes
  else
    let start := match (List.range els.length).find? fun j : ℕ => ∃ e ∈ els[j]?, e.nodeorder i ≠ none with
      | some j => j
      | none => 0
    let ring ← around els i start rounds start
    let nodes := nodes.set i { p with x := (0, 0) }
    let nodes ← ring.foldlM (smoothAdd els i) nodes
    let p ← nodes[i]?
    return nodes.set i { p with x := (p.x.1 / ring.length, p.x.2 / ring.length) }

/-- `laplacesmoothing` (Delaunay.h:706-732). -/
def Delaunay.laplacesmoothing {K : Type} [Field K] (rounds : ℕ) (d : Delaunay K) :
    Option (Delaunay K) := do
  let nodes ← (List.range d.nodes.length).foldlM (fun nodes i => smoothNode rounds d.elements nodes i)
    d.nodes
  return { d with nodes := nodes }

/-- The node put in the middle of the longest side (Delaunay.h:699-700). -/
def Delaunay.refine {K : Type} [Field K] [LinearOrder K] (rounds : ℕ) (d : Delaunay K) (t : ℕ)
    (k : Fin 3) : Option (Delaunay K) := do
  let e ← d.elements[t]?
  let a ← atInt d.nodes (e.nodes (k + 1))
  let b ← atInt d.nodes (e.nodes (k + 2))
  let d' : Delaunay K := { d with nodes := d.nodes ++
    [DNode.fresh (1 / 2 * (a.x.1 + b.x.1), 1 / 2 * (a.x.2 + b.x.2))] }
  d'.getelementon rounds t k (-2) d.nodes.length (-2)

/-- `makefinemesh` (Delaunay.h:681-703). -/
def Delaunay.makefinemesh {K : Type} [Field K] [LinearOrder K] (rounds : ℕ) (bound : K) :
    ℕ → Delaunay K → Option (Delaunay K)
  | 0, _ => none
  | n + 1, d => do
    let m ← longest d
    let d ← d.refine rounds m.2.1 m.2.2
    let d ← d.laplacesmoothing rounds
    if longer m.1 bound then d.makefinemesh rounds bound n else return d

/-- The constructor behind `getsupertriangle` (Delaunay.h:244-272). -/
def Delaunay.build {K : Type} [Field K] [LinearOrder K] (rounds : ℕ) (d : Delaunay K)
    (outer inner : List (List ℤ)) (bound : K) : Option (Delaunay K) := do
  let d ← (outer ++ inner).foldlM (fun d b => Delaunay.makeroughmesh rounds d b) d
  let d := outer.foldl (fun d b => Delaunay.deactivateelements d b true) d
  let d := inner.foldl (fun d b => Delaunay.deactivateelements d b false) d
  let d := d.deactivatesupertriangle.deleteelement.sortelement.sortnode
  let d ← d.makefinemesh rounds bound rounds
  (List.range 10).foldlM (fun d _ => Delaunay.laplacesmoothing rounds d) d

/-- `GenerateNodes` (Delaunay.h:735-742). -/
def Delaunay.generateNodes {K : Type} (d : Delaunay K) : List (K × K) := d.nodes.map fun p => p.x

/-- `GenerateElements` (Delaunay.h:745-754). -/
def Delaunay.generateElements {K : Type} (d : Delaunay K) : List (List ℤ) :=
  (d.elements.filter fun e => e.active).map fun e => [e.nodes 0, e.nodes 1, e.nodes 2]

/-- `GenerateEdges` (Delaunay.h:757-770). -/
def Delaunay.generateEdges {K : Type} (d : Delaunay K) : List (List ℤ) :=
  d.elements.flatMap fun e : DTri =>
    if e.active then
      ([0, 1, 2] : List (Fin 3)).flatMap fun i =>
        if e.sides i then [[e.nodes (i + 1), e.nodes (i + 2)]] else []
    else []

/-- `GenerateFixedlist` (Delaunay.h:773-786). -/
def Delaunay.generateFixedlist {K : Type} [Zero K] (d : Delaunay K) (ulist : List ℤ) (pred : K × K → Bool) :
    Option (List ((ℕ × ℤ) × K)) :=
  if dofsOk ulist = false then none
  else some (d.nodes.mapIdx (fun i p => fixedAt ulist pred (i, p.x))).flatten

end Pansfem
