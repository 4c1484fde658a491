/-
The remaining routines of /repo/src/FEM/Equation/General.h and Numeric.h: weak springs, Lagrange
interpolation, averages between nodes and elements, centre of gravity, integration along a line.

* Lists stand for `std::vector`; reading outside is `none`.
* A division by zero is `none` (the code goes on with an infinity or a NaN).
* Values to be averaged are elements of a module over the scalars: numbers for the first overloads,
  vectors for the second ones.
-/
import Verif.Model.Assembly
import Verif.Model.Element

namespace Pansfem

variable {K : Type} [Field K] [DecidableEq K]

/-! ### Weak springs -/

/-- `_nodetoelement` of `WeakSpring` (General.h:127-132): the local number is `n*i` for every dof of the
node `i`. -/
def springTable (element doulist : List ℕ) : List (List (ℕ × ℕ)) :=
  (List.range element.length).map fun i => doulist.map fun dou => (dou, doulist.length * i)

/-- `WeakSpring` (General.h:124-135). -/
def weakSpring (element doulist : List ℕ) (alpha : K) : Option (Mat K × List (List (ℕ × ℕ))) := do
  let I ← Mat.identity (doulist.length * element.length)
  return (← I.smul alpha, springTable element doulist)

/-! ### Lagrange interpolation -/

/-- One factor of the inner loop of `LagrangeInterpolation` (General.h:144-146). -/
def lagrangeFactor {n : ℕ} (xs : Fin n → K) (x : K) (i j : Fin n) : Option K :=
  if i ≠ j then div? (x - xs j) (xs i - xs j) else some 1

/-- `LagrangeInterpolation` (General.h:140-150). -/
def lagrange {n : ℕ} (xs : Fin n → K) (x : K) : Option (Fin n → K) :=
  allSome fun i => (List.finRange n).foldlM (fun acc j => do return acc * (← lagrangeFactor xs x i j)) 1

/-- One factor of the inner loop of `LagrangeInterpolationDerivative` (General.h:161-165). -/
def lagrangeDFactor {n : ℕ} (xs : Fin n → K) (x : K) (i j k : Fin n) : Option K :=
  if k ≠ j ∧ k ≠ i then div? (x - xs k) (xs i - xs k)
  else if k ≠ i then div? 1 (xs i - xs k) else some 1

/-- One term of `LagrangeInterpolationDerivative` (General.h:158-168). -/
def lagrangeDTerm {n : ℕ} (xs : Fin n → K) (x : K) (i j : Fin n) : Option K :=
  if j ≠ i then
    (List.finRange n).foldlM (fun p k => do return p * (← lagrangeDFactor xs x i j k)) 1
  else some 0

/-- `LagrangeInterpolationDerivative` (General.h:155-173). -/
def lagrangeDerivative {n : ℕ} (xs : Fin n → K) (x : K) : Option (Fin n → K) :=
  allSome fun i => gauss n (lagrangeDTerm xs x i)

/-! ### Averages -/

section
variable (K) {V : Type} [AddCommGroup V] [Module K V]

/-- `v /= (T)n` for a count `n` (General.h:188, 206). -/
def divCount (v : V) (n : ℕ) : Option V := if (n : K) = 0 then none else some ((n : K)⁻¹ • v)

/-- `a[i] += x` (General.h:183-184, 201-202). -/
def addAt {A : Type} [Add A] (a : List A) (i : ℕ) (x : A) : Option (List A) := do
  return a.set i ((← a[i]?) + x)

/-- The body of the accumulating loop (General.h:183-184). -/
def nodalStep (ue : Option V) (k : ℕ) (st : List V × List ℕ) : Option (List V × List ℕ) := do
  let un ← addAt st.1 k (← ue)
  let count ← addAt st.2 k 1
  return (un, count)

/-- The accumulating loops of `InterpolateNodalFromElemental` (General.h:179-186). -/
def nodalSums (nodesize : ℕ) (un0 : V) (ue : List V) (elements : List (List ℕ)) :
    Option (List V × List ℕ) :=
  (List.range elements.length).foldlM (fun st i => do
      (← elements[i]?).foldlM (fun st k => nodalStep ue[i]? k st) st)
    (List.replicate nodesize un0, List.replicate nodesize 0)

/-- `InterpolateNodalFromElemental` (General.h:178-191 and 196-209); the last loop only touches its own
entry. -/
def nodalFromElemental (nodesize : ℕ) (un0 : V) (ue : List V) (elements : List (List ℕ)) :
    Option (List V) := do
  let st ← nodalSums nodesize un0 ue elements
  (List.range nodesize).mapM fun i => do divCount K (← st.1[i]?) (← st.2[i]?)

/-- One entry of `InterpolateElementalFromNodal` (General.h:217-220). -/
def elementAverage (ue0 : V) (un : List V) (element : List ℕ) : Option V := do
  let s ← element.foldlM (fun s k => do return s + (← un[k]?)) ue0
  divCount K s element.length

/-- `InterpolateElementalFromNodal` (General.h:214-223 and 228-237). -/
def elementalFromNodal (ue0 : V) (un : List V) (elements : List (List ℕ)) : Option (List V) :=
  elements.mapM (elementAverage K ue0 un)

/-- `CenterOfGravity` (General.h:71-77); the size is that of the first node, which has to exist. -/
def centerOfGravity (x : List V) (element : List ℕ) : Option V := do
  let _ ← x[0]?
  elementAverage K 0 x element

end

/-! ### Integration along a line -/

/-- The matrix of coordinates as built by `Vstack` (Numeric.h:24-27, General.h:25-28). -/
def stackNodes {K : Type} [Zero K] (c : ℕ) (x : List (Vec K)) (element : List ℕ) : Option (Mat K) :=
  element.foldlM (fun X i => do X.vstack (← (← x[i]?).transpose)) (Mat.zeros 0 c)

/-- `NumericIntegrationOnLine` (Numeric.h:20-44) after the coordinates: `Matrix<T>(0, 1)` admits nodes
with one coordinate only. -/
noncomputable def numericIntegrationOnLine {n : ℕ} (sf : SF ℝ 1 n) (ic : IC ℝ 1)
    (X : Matrix (Fin n) (Fin 1) ℝ) (f : (Fin 1 → ℝ) → ℝ) : ℝ :=
  ∑ g, ic.weights g 0 * f (X.transpose.mulVec (sf.N (ic.points g))) * lineElement sf X (ic.points g)

end Pansfem
