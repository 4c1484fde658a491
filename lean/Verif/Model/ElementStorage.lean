/-
Element routines of /repo/src/FEM/Equation statement by statement, on objects of the classes `Matrix`
and `Vector`: every matrix is a fresh object, filled by assignments to its entries, and every product
is an operator of the class with its assertions.

`Verif/Model/Element.lean` and `Elastic.lean` write the same routines on Mathlib matrices with pairs
as indices and with the scalar factors collected; `Verif/Props/C137_ElementStorage.lean` relates the
two.

* The tables of shape functions and integration rules are those of `Verif/Model/Shape.lean`; what
  `SF<T>::N` and `SF<T>::dNdr` return is handed over as an object of the class.
* A subscript out of range, a failed `assert` and a division by zero are `none`.
-/
import Verif.Model.Elastic
import Verif.Spec.Dense

noncomputable section

namespace Pansfem

variable {K : Type}

/-- A run of assignments `A(i, j) = value`, in the order of the text
(src/FEM/Equation/PlaneStrain.h:38-40, 51-53); an assignment fails if its right side does or if the
subscript is out of range (src/LinearAlgebra/Models/Matrix.h:147-151). -/
def assigns (A : Mat K) (l : List (ℕ × ℕ × Option K)) : Option (Mat K) :=
  l.foldlM (fun A p => do A.put? p.1 p.2.1 (← p.2.2)) A

/-- `X` (src/FEM/Equation/PlaneStrain.h:31-35, Solid.h:32-35, HeatTransfer.h:29-33): a fresh matrix and
a loop of assignments. -/
def coordsS [Zero K] (x : List (Vec K)) (element : List ℕ) (d : ℕ) : Option (Mat K) :=
  (List.range element.length).foldlM (fun X i => assigns X ((List.range d).map fun k =>
    (i, k, do nodal x (← element[i]?) k))) (Mat.zeros element.length d)

/-- `_nodetoelement[i][j] = p` (src/FEM/Equation/PlaneStrain.h:27-28). -/
def tablePut (t : List (List (ℕ × ℕ))) (i j : ℕ) (p : ℕ × ℕ) : Option (List (List (ℕ × ℕ))) := do
  let row ← t[i]?
  if j < row.length then some (t.set i (row.set j p)) else none

/-- `_nodetoelement` (src/FEM/Equation/PlaneStrain.h:22-29, Solid.h:22-30, HeatTransfer.h:21-27): the
assertion on `_doulist`, a table of `_element.size()` rows with `k` pairs each, and the loop that
fills it. -/
def tableS (k : ℕ) (element doulist : List ℕ) : Option (List (List (ℕ × ℕ))) :=
  if doulist.length = k then
    (List.range element.length).foldlM (fun t i => (List.range k).foldlM (fun t j => do
      tablePut t i j (← doulist[j]?, k * i + j)) t)
      (List.replicate element.length (List.replicate k (0, 0)))
  else none

variable [Field K] {n : ℕ}

/-- Factors multiplied to a matrix one after the other, from the right
(src/FEM/Equation/PlaneStrain.h:56). -/
def scaled (A : Mat K) (l : List K) : Option (Mat K) := l.foldlM (fun A a => A.smul a) A

/-- Factors multiplied to a vector one after the other, from the right
(src/FEM/Equation/PlaneStrain.h:450). -/
def scaledV (v : Vec K) (l : List K) : Option (Vec K) := l.foldlM (fun v a => v.smul a) v

/-! ### Strain-displacement matrices -/

/-- `B` (src/FEM/Equation/PlaneStrain.h:49-54, PlaneStress.h:49-54); `m` is `_element.size()`. -/
def planeBS (m : ℕ) (dNdX : Mat K) : Option (Mat K) :=
  (List.range m).foldlM (fun B n => assigns B
    [(0, 2 * n, dNdX.at? 0 n), (0, 2 * n + 1, some 0),
     (1, 2 * n, some 0), (1, 2 * n + 1, dNdX.at? 1 n),
     (2, 2 * n, dNdX.at? 1 n), (2, 2 * n + 1, dNdX.at? 0 n)]) (Mat.zeros 3 (2 * m))

/-- `Bvol` (src/FEM/Equation/PlaneStrain.h:157-162, Homogenization.h:200-205). -/
def planeBvolS (m : ℕ) (dNdX : Mat K) : Option (Mat K) :=
  (List.range m).foldlM (fun B n => assigns B
    [(0, 2 * n, do return 1 / 2 * (← dNdX.at? 0 n)), (0, 2 * n + 1, do return 1 / 2 * (← dNdX.at? 1 n)),
     (1, 2 * n, do return 1 / 2 * (← dNdX.at? 0 n)), (1, 2 * n + 1, do return 1 / 2 * (← dNdX.at? 1 n)),
     (2, 2 * n, some 0), (2, 2 * n + 1, some 0)]) (Mat.zeros 3 (2 * m))

/-- `Bdev` (src/FEM/Equation/PlaneStrain.h:174-179, Homogenization.h:217-222). -/
def planeBdevS (m : ℕ) (dNdX : Mat K) : Option (Mat K) :=
  (List.range m).foldlM (fun B n => assigns B
    [(0, 2 * n, do return 1 / 2 * (← dNdX.at? 0 n)), (0, 2 * n + 1, do return -(1 / 2) * (← dNdX.at? 1 n)),
     (1, 2 * n, do return -(1 / 2) * (← dNdX.at? 0 n)), (1, 2 * n + 1, do return 1 / 2 * (← dNdX.at? 1 n)),
     (2, 2 * n, dNdX.at? 1 n), (2, 2 * n + 1, dNdX.at? 0 n)]) (Mat.zeros 3 (2 * m))

/-- `B` of the mass matrices and loads (src/FEM/Equation/PlaneStrain.h:408-412, 444-448, 526-530). -/
def planeNS (m : ℕ) (N : Vec K) : Option (Mat K) :=
  (List.range m).foldlM (fun B n => assigns B
    [(0, 2 * n, N.at? n), (0, 2 * n + 1, some 0),
     (1, 2 * n, some 0), (1, 2 * n + 1, N.at? n)]) (Mat.zeros 2 (2 * m))

/-- `B` of a solid (src/FEM/Equation/Solid.h:52-60). -/
def solidBS (m : ℕ) (dNdX : Mat K) : Option (Mat K) :=
  (List.range m).foldlM (fun B n => assigns B
    [(0, 3 * n, dNdX.at? 0 n), (0, 3 * n + 1, some 0), (0, 3 * n + 2, some 0),
     (1, 3 * n, some 0), (1, 3 * n + 1, dNdX.at? 1 n), (1, 3 * n + 2, some 0),
     (2, 3 * n, some 0), (2, 3 * n + 1, some 0), (2, 3 * n + 2, dNdX.at? 2 n),
     (3, 3 * n, dNdX.at? 1 n), (3, 3 * n + 1, dNdX.at? 0 n), (3, 3 * n + 2, some 0),
     (4, 3 * n, some 0), (4, 3 * n + 1, dNdX.at? 2 n), (4, 3 * n + 2, dNdX.at? 1 n),
     (5, 3 * n, dNdX.at? 2 n), (5, 3 * n + 1, some 0), (5, 3 * n + 2, dNdX.at? 0 n)])
    (Mat.zeros 6 (3 * m))

/-! ### Constitutive matrices -/

/-- `D` of plane strain (src/FEM/Equation/PlaneStrain.h:37-41). -/
def planeStrainDS [DecidableEq K] (E V : K) : Option (Mat K) := do
  let D ← assigns (Mat.zeros 3 3) [(0, 0, some (1 - V)), (0, 1, some V), (0, 2, some 0)]
  let D ← assigns D [(1, 0, D.at? 0 1), (1, 1, some (1 - V)), (1, 2, some 0)]
  let D ← assigns D [(2, 0, D.at? 0 2), (2, 1, D.at? 1 2), (2, 2, some (1 / 2 * (1 - 2 * V)))]
  D.smul (← div? E ((1 - 2 * V) * (1 + V)))

/-- `D` of plane stress (src/FEM/Equation/PlaneStress.h:37-41). -/
def planeStressDS [DecidableEq K] (E V : K) : Option (Mat K) := do
  let D ← assigns (Mat.zeros 3 3) [(0, 0, some 1), (0, 1, some V), (0, 2, some 0)]
  let D ← assigns D [(1, 0, D.at? 0 1), (1, 1, some 1), (1, 2, some 0)]
  let D ← assigns D [(2, 0, D.at? 0 2), (2, 1, D.at? 1 2), (2, 2, some (1 / 2 * (1 - V)))]
  D.smul (← div? E ((1 - V) * (1 + V)))

/-- `Dvol` (src/FEM/Equation/PlaneStrain.h:80-84). -/
def planeStrainDvolS [DecidableEq K] (E V : K) : Option (Mat K) := do
  let D ← assigns (Mat.zeros 3 3) [(0, 0, some 1), (0, 1, some 1), (0, 2, some 0),
    (1, 0, some 1), (1, 1, some 1), (1, 2, some 0), (2, 0, some 0), (2, 1, some 0), (2, 2, some 0)]
  D.smul (← div? E (3 * (1 - 2 * V)))

/-- `Ddev` (src/FEM/Equation/PlaneStrain.h:103-107). -/
def planeStrainDdevS [DecidableEq K] (E V : K) : Option (Mat K) := do
  let D ← assigns (Mat.zeros 3 3) [(0, 0, some 4), (0, 1, some (-2)), (0, 2, some 0),
    (1, 0, some (-2)), (1, 1, some 4), (1, 2, some 0), (2, 0, some 0), (2, 1, some 0), (2, 2, some 3)]
  D.smul (← div? E (6 * (1 + V)))

/-- `C` of a solid (src/FEM/Equation/Solid.h:37-44). -/
def solidCS [DecidableEq K] (E V : K) : Option (Mat K) := do
  let G : Option K := some (1 / 2 * (1 - 2 * V))
  let C ← assigns (Mat.zeros 6 6)
    [(0, 0, some (1 - V)), (0, 1, some V), (0, 2, some V), (0, 3, some 0), (0, 4, some 0), (0, 5, some 0),
     (1, 0, some V), (1, 1, some (1 - V)), (1, 2, some V), (1, 3, some 0), (1, 4, some 0), (1, 5, some 0),
     (2, 0, some V), (2, 1, some V), (2, 2, some (1 - V)), (2, 3, some 0), (2, 4, some 0), (2, 5, some 0),
     (3, 0, some 0), (3, 1, some 0), (3, 2, some 0), (3, 3, G), (3, 4, some 0), (3, 5, some 0),
     (4, 0, some 0), (4, 1, some 0), (4, 2, some 0), (4, 3, some 0), (4, 4, G), (4, 5, some 0),
     (5, 0, some 0), (5, 1, some 0), (5, 2, some 0), (5, 3, some 0), (5, 4, some 0), (5, 5, G)]
  C.smul (← div? E ((1 + V) * (1 - 2 * V)))

/-! ### Loops over the integration points -/

section Plane
variable [DecidableEq K] (sf : SF K 2 n) (ic icV icD : IC K 2) (element doulist : List ℕ)
  (x : List (Vec K))

/-- The loop `_Ke += B.Transpose()*D*B*J*_t*IC<T>::Weights[g][0]*IC<T>::Weights[g][1]`
(src/FEM/Equation/PlaneStrain.h:43-57, 86-100, 109-123, 150-165, 167-182, PlaneStress.h:43-57,
Homogenization.h:158-172); `build` makes the matrix `B`. -/
def planeLoopS (build : ℕ → Mat K → Option (Mat K)) (X D : Mat K) (t : K) (Ke : Mat K) :
    Option (Mat K) :=
  (List.finRange ic.N).foldlM (fun Ke g => do
    let dNdr := dense (sf.dNdr (ic.points g))
    let dXdr ← dNdr.mul X
    let J ← dXdr.determinant
    let dNdX ← (← dXdr.inverse).mul dNdr
    let B ← build element.length dNdX
    Ke.add (← scaled (← (← (← B.transpose).mul D).mul B) [J, t, ic.weights g 0, ic.weights g 1])) Ke

/-- `PlaneStrainStiffness` (src/FEM/Equation/PlaneStrain.h:20-58). -/
def planeStrainStiffnessS (E V t : K) : Option (Mat K × List (List (ℕ × ℕ))) := do
  let Ke := Mat.zeros (2 * element.length) (2 * element.length)
  let nte ← tableS 2 element doulist
  let X ← coordsS x element 2
  let D ← planeStrainDS E V
  return (← planeLoopS sf ic element planeBS X D t Ke, nte)

/-- `PlaneStressStiffness` (src/FEM/Equation/PlaneStress.h:20-58). -/
def planeStressStiffnessS (E V t : K) : Option (Mat K × List (List (ℕ × ℕ))) := do
  let Ke := Mat.zeros (2 * element.length) (2 * element.length)
  let nte ← tableS 2 element doulist
  let X ← coordsS x element 2
  let D ← planeStressDS E V
  return (← planeLoopS sf ic element planeBS X D t Ke, nte)

/-- `PlaneStiffness` (src/FEM/Equation/Homogenization.h:141-173); the matrix `D` is an argument. -/
def planeStiffnessS (D : Mat K) (t : K) : Option (Mat K × List (List (ℕ × ℕ))) :=
  if D.row = 3 ∧ D.col = 3 then do
    let Ke := Mat.zeros (2 * element.length) (2 * element.length)
    let nte ← tableS 2 element doulist
    let X ← coordsS x element 2
    return (← planeLoopS sf ic element planeBS X D t Ke, nte)
  else none

/-- `PlaneStrainStiffnessSRI` (src/FEM/Equation/PlaneStrain.h:62-124): the second loop goes on adding
to the matrix of the first. -/
def planeStrainStiffnessSRIS (E V t : K) : Option (Mat K × List (List (ℕ × ℕ))) := do
  let Ke := Mat.zeros (2 * element.length) (2 * element.length)
  let nte ← tableS 2 element doulist
  let X ← coordsS x element 2
  let Dvol ← planeStrainDvolS E V
  let Ke ← planeLoopS sf icV element planeBS X Dvol t Ke
  let Ddev ← planeStrainDdevS E V
  return (← planeLoopS sf icD element planeBS X Ddev t Ke, nte)

/-- `PlaneStrainStiffnessBbar` (src/FEM/Equation/PlaneStrain.h:128-184). -/
def planeStrainStiffnessBbarS (E V t : K) : Option (Mat K × List (List (ℕ × ℕ))) := do
  let Ke := Mat.zeros (2 * element.length) (2 * element.length)
  let nte ← tableS 2 element doulist
  let X ← coordsS x element 2
  let D ← planeStrainDS E V
  let Ke ← planeLoopS sf icV element planeBvolS X D t Ke
  return (← planeLoopS sf icD element planeBdevS X D t Ke, nte)

/-- `dPdr` (src/FEM/Equation/PlaneStrain.h:226-229). -/
def dPdrS (r : Vec K) : Option (Mat K) :=
  assigns (Mat.zeros 2 2) [(0, 0, do return -2 * (← r.at? 0)), (0, 1, some 0),
    (1, 0, some 0), (1, 1, do return -2 * (← r.at? 1))]

/-- `G` (src/FEM/Equation/PlaneStrain.h:232-235). -/
def planeGS (dPdX : Mat K) : Option (Mat K) :=
  assigns (Mat.zeros 3 4)
    [(0, 0, dPdX.at? 0 0), (0, 1, some 0), (0, 2, dPdX.at? 0 1), (0, 3, some 0),
     (1, 0, some 0), (1, 1, dPdX.at? 1 0), (1, 2, some 0), (1, 3, dPdX.at? 1 1),
     (2, 0, dPdX.at? 1 0), (2, 1, dPdX.at? 0 0), (2, 2, dPdX.at? 1 1), (2, 3, dPdX.at? 0 1)]

/-- One pass of the loop of `PlaneStrainStiffnessWilsonTaylor`
(src/FEM/Equation/PlaneStrain.h:213-240), which adds to `_Ke`, `Keaa` and `Kead`. -/
def wilsonTaylorStepS (X D : Mat K) (t : K) (s : Mat K × Mat K × Mat K) (g : Fin ic.N) :
    Option (Mat K × Mat K × Mat K) := do
  let dNdr := dense (sf.dNdr (ic.points g))
  let dXdr ← dNdr.mul X
  let J ← dXdr.determinant
  let dNdX ← (← dXdr.inverse).mul dNdr
  let B ← planeBS element.length dNdX
  let dPdr ← dPdrS (densev (ic.points g))
  let dPdX ← (← dXdr.inverse).mul dPdr
  let G ← planeGS dPdX
  let f := [J, t, ic.weights g 0, ic.weights g 1]
  let Ke ← s.1.add (← scaled (← (← (← B.transpose).mul D).mul B) f)
  let Keaa ← s.2.1.add (← scaled (← (← (← G.transpose).mul D).mul G) f)
  let Kead ← s.2.2.add (← scaled (← (← (← G.transpose).mul D).mul B) f)
  return (Ke, Keaa, Kead)

/-- The loop of `PlaneStrainStiffnessWilsonTaylor` (src/FEM/Equation/PlaneStrain.h:213-240). -/
def wilsonTaylorLoopS (X D : Mat K) (t : K) (K0 : Mat K × Mat K × Mat K) :
    Option (Mat K × Mat K × Mat K) :=
  (List.finRange ic.N).foldlM (wilsonTaylorStepS sf ic element X D t) K0

/-- `PlaneStrainStiffnessWilsonTaylor` (src/FEM/Equation/PlaneStrain.h:188-243). -/
def planeStrainStiffnessWilsonTaylorS (E V t : K) : Option (Mat K × List (List (ℕ × ℕ))) := do
  let Ke := Mat.zeros (2 * element.length) (2 * element.length)
  let Keaa := Mat.zeros 4 4
  let Kead := Mat.zeros 4 (2 * element.length)
  let nte ← tableS 2 element doulist
  let X ← coordsS x element 2
  let D ← planeStrainDS E V
  let (Ke, Keaa, Kead) ← wilsonTaylorLoopS sf ic element X D t (Ke, Keaa, Kead)
  return (← Ke.sub (← (← (← Kead.transpose).mul (← Keaa.inverse)).mul Kead), nte)

/-- `PlaneStrainMass` (src/FEM/Equation/PlaneStrain.h:385-416) and `PlaneStressMass`
(PlaneStress.h:62-93). -/
def planeMassS (rho t : K) : Option (Mat K × List (List (ℕ × ℕ))) := do
  let Me := Mat.zeros (2 * element.length) (2 * element.length)
  let nte ← tableS 2 element doulist
  let X ← coordsS x element 2
  let Me ← (List.finRange ic.N).foldlM (fun Me g => do
    let N := densev (sf.N (ic.points g))
    let dNdr := dense (sf.dNdr (ic.points g))
    let dXdr ← dNdr.mul X
    let J ← dXdr.determinant
    let B ← planeNS element.length N
    Me.add (← scaled (← (← B.transpose).mul B) [J, rho, t, ic.weights g 0, ic.weights g 1])) Me
  return (Me, nte)

/-- `PlaneStrainBodyForce` (src/FEM/Equation/PlaneStrain.h:502-534) and `PlaneStressBodyForce`
(PlaneStress.h:133-165). -/
def planeBodyForceS (f : Vec K → Vec K) (t : K) : Option (Vec K × List (List (ℕ × ℕ))) := do
  let Fe := Vec.zeros (2 * element.length)
  let nte ← tableS 2 element doulist
  let X ← coordsS x element 2
  let Fe ← (List.finRange ic.N).foldlM (fun Fe g => do
    let N := densev (sf.N (ic.points g))
    let dNdr := dense (sf.dNdr (ic.points g))
    let xg ← (← X.transpose).mulVec N
    let dXdr ← dNdr.mul X
    let J ← dXdr.determinant
    let B ← planeNS element.length N
    Fe.add (← scaledV (← (← B.transpose).mulVec (f xg)) [J, t, ic.weights g 0, ic.weights g 1])) Fe
  return (Fe, nte)

/-- `HeatTransfer` (src/FEM/Equation/HeatTransfer.h:19-43). -/
def heatTransferS (alpha t : K) : Option (Mat K × List (List (ℕ × ℕ))) := do
  let Ke := Mat.zeros element.length element.length
  let nte ← tableS 1 element doulist
  let X ← coordsS x element 2
  let Ke ← (List.finRange ic.N).foldlM (fun Ke g => do
    let dNdr := dense (sf.dNdr (ic.points g))
    let dXdr ← dNdr.mul X
    let J ← dXdr.determinant
    let B ← (← dXdr.inverse).mul dNdr
    Ke.add (← scaled (← (← B.transpose).mul B) [J, alpha, t, ic.weights g 0, ic.weights g 1])) Ke
  return (Ke, nte)

/-- `HeatCapacity` (src/FEM/Equation/HeatTransfer.h:47-71). -/
def heatCapacityS (rho c t : K) : Option (Mat K × List (List (ℕ × ℕ))) := do
  let Ce := Mat.zeros element.length element.length
  let nte ← tableS 1 element doulist
  let X ← coordsS x element 2
  let Ce ← (List.finRange ic.N).foldlM (fun Ce g => do
    let N := densev (sf.N (ic.points g))
    let dNdr := dense (sf.dNdr (ic.points g))
    let dXdr ← dNdr.mul X
    let J ← dXdr.determinant
    Ce.add (← scaled (← N.outer (← N.transpose)) [J, rho, c, t, ic.weights g 0, ic.weights g 1])) Ce
  return (Ce, nte)

end Plane

/-- `SolidLinearIsotropicElastic` (src/FEM/Equation/Solid.h:20-64). -/
def solidStiffnessS [DecidableEq K] (sf : SF K 3 n) (ic : IC K 3) (element doulist : List ℕ)
    (x : List (Vec K)) (E V : K) : Option (Mat K × List (List (ℕ × ℕ))) := do
  let Ke := Mat.zeros (3 * element.length) (3 * element.length)
  let nte ← tableS 3 element doulist
  let X ← coordsS x element 3
  let C ← solidCS E V
  let Ke ← (List.finRange ic.N).foldlM (fun Ke g => do
    let dNdr := dense (sf.dNdr (ic.points g))
    let dXdr ← dNdr.mul X
    let J ← dXdr.determinant
    let dNdX ← (← dXdr.inverse).mul dNdr
    let B ← solidBS element.length dNdX
    Ke.add (← scaled (← (← (← B.transpose).mul C).mul B)
      [J, ic.weights g 0, ic.weights g 1, ic.weights g 2])) Ke
  return (Ke, nte)

/-- `PlaneStrainSurfaceForce` (src/FEM/Equation/PlaneStrain.h:420-452) and `PlaneStressSurfaceForce`
(PlaneStress.h:97-129). -/
def planeSurfaceForceS (sf : SF ℝ 1 n) (ic : IC ℝ 1) (element doulist : List ℕ) (x : List (Vec ℝ))
    (f : Vec ℝ → Vec ℝ) (t : ℝ) : Option (Vec ℝ × List (List (ℕ × ℕ))) := do
  let Fe := Vec.zeros (2 * element.length)
  let nte ← tableS 2 element doulist
  let X ← coordsS x element 2
  let Fe ← (List.finRange ic.N).foldlM (fun Fe g => do
    let N := densev (sf.N (ic.points g))
    let dNdr := dense (sf.dNdr (ic.points g))
    let xg ← (← X.transpose).mulVec N
    let dXdr ← dNdr.mul X
    let dl := Real.sqrt (← (← dXdr.mul (← dXdr.transpose)).at? 0 0)
    let B ← planeNS element.length N
    Fe.add (← scaledV (← (← B.transpose).mulVec (f xg)) [dl, t, ic.weights g 0])) Fe
  return (Fe, nte)

/-- `HeatTransferSurfaceFlux` (src/FEM/Equation/HeatTransfer.h:75-99); `N` is made a one-column matrix
(src/LinearAlgebra/Models/Matrix.h:124-132) and the products are made vectors again
(src/LinearAlgebra/Models/Vector.h:132-140). -/
def heatSurfaceFluxS (sf : SF ℝ 1 n) (ic : IC ℝ 1) (element doulist : List ℕ) (x : List (Vec ℝ))
    (f : Vec ℝ → ℝ) (t : ℝ) : Option (Vec ℝ × List (List (ℕ × ℕ))) := do
  let Fe := Vec.zeros element.length
  let nte ← tableS 1 element doulist
  let X ← coordsS x element 2
  let Fe ← (List.finRange ic.N).foldlM (fun Fe g => do
    let N ← Mat.ofVec (densev (sf.N (ic.points g)))
    let dNdr := dense (sf.dNdr (ic.points g))
    let xg ← Vec.ofMat (← (← X.transpose).mul N)
    let dXdr ← dNdr.mul X
    let dl := Real.sqrt (← (← dXdr.mul (← dXdr.transpose)).at? 0 0)
    Fe.add (← Vec.ofMat (← scaled N [f xg, dl, t, ic.weights g 0]))) Fe
  return (Fe, nte)

end Pansfem
