/-
The routines of /repo/src/FEM/Equation/ReactionDiffusion.h, Advection.h and Homogenization.h statement
by statement, on objects of the classes `Matrix` and `Vector`.  Conventions as in
`Verif/Model/ElementStorage.lean`; `Verif/Props/C140_ScalarStorage.lean` relates them to the routines of
`Verif/Model/Elastic.lean` and `Fluid.lean`.

* `alpha` of the stabilised routines is `none` for `_k = 0.0`, as in `Verif/Model/Fluid.lean`: the
  comparison with `3.0` is then false.
-/
import Verif.Model.ElementStorage
import Verif.Model.Fluid

noncomputable section

namespace Pansfem

variable {K : Type}

/-- `U(i) = _u[_element[i]](0)` (src/FEM/Equation/ReactionDiffusion.h:115-118). -/
def nodalS [Zero K] (u : List (Vec K)) (element : List ℕ) : Option (Vec K) :=
  (List.range element.length).foldlM (fun U (i : ℕ) => do U.put? (i : ℕ) (← nodal u (← element[(i : ℕ)]?) 0))
    (Vec.zeros element.length)

/-- `CHI` (src/FEM/Equation/Homogenization.h:70-74, 114-118). -/
def chiS [Zero K] (chi0 chi1 chi2 : List (Vec K)) (element : List ℕ) : Option (Mat K) :=
  (List.range element.length).foldlM (fun CHI i => assigns CHI
    [(2 * i, 0, do nodal chi0 (← element[i]?) 0), (2 * i, 1, do nodal chi1 (← element[i]?) 0),
     (2 * i, 2, do nodal chi2 (← element[i]?) 0),
     (2 * i + 1, 0, do nodal chi0 (← element[i]?) 1), (2 * i + 1, 1, do nodal chi1 (← element[i]?) 1),
     (2 * i + 1, 2, do nodal chi2 (← element[i]?) 1)]) (Mat.zeros (2 * element.length) 3)

variable [Field K] {n : ℕ}

section Plane
variable [DecidableEq K] (sf : SF K 2 n) (ic icV icD : IC K 2) (element doulist : List ℕ)
  (x : List (Vec K))

/-- `ReactionDiffusionConsistentMass` (src/FEM/Equation/ReactionDiffusion.h:20-43). -/
def rdConsistentMassS : Option (Mat K × List (List (ℕ × ℕ))) := do
  let Me := Mat.zeros element.length element.length
  let nte ← tableS 1 element doulist
  let X ← coordsS x element 2
  let Me ← (List.finRange ic.N).foldlM (fun Me g => do
    let N := densev (sf.N (ic.points g))
    let dNdr := dense (sf.dNdr (ic.points g))
    let dXdr ← dNdr.mul X
    let J ← dXdr.determinant
    let _dNdX ← (← dXdr.inverse).mul dNdr
    Me.add (← scaled (← N.outer (← N.transpose)) [J, ic.weights g 0, ic.weights g 1])) Me
  return (Me, nte)

/-- `ReactionDiffusionLumpedMass` (src/FEM/Equation/ReactionDiffusion.h:47-70). -/
def rdLumpedMassS : Option (Mat K × List (List (ℕ × ℕ))) := do
  let Me ← Mat.identity element.length
  let nte ← tableS 1 element doulist
  let X ← coordsS x element 2
  let Area ← (List.finRange ic.N).foldlM (fun Area g => do
    let dNdr := dense (sf.dNdr (ic.points g))
    let dXdr ← dNdr.mul X
    let J ← dXdr.determinant
    return Area + J * ic.weights g 0 * ic.weights g 1) 0
  return (← Me.smul (← div? Area (element.length : K)), nte)

/-- `ReactionDiffusionStiffness` (src/FEM/Equation/ReactionDiffusion.h:74-96) and `Diffusion`
(Advection.h:135-158): the factor `_D` stands in front of the product. -/
def rdStiffnessS (D : K) : Option (Mat K × List (List (ℕ × ℕ))) := do
  let Ke := Mat.zeros element.length element.length
  let nte ← tableS 1 element doulist
  let X ← coordsS x element 2
  let Ke ← (List.finRange ic.N).foldlM (fun Ke g => do
    let dNdr := dense (sf.dNdr (ic.points g))
    let dXdr ← dNdr.mul X
    let J ← dXdr.determinant
    let dNdX ← (← dXdr.inverse).mul dNdr
    Ke.add (← scaled (← (← (← dNdX.transpose).smul D).mul dNdX) [J, ic.weights g 0, ic.weights g 1])) Ke
  return (Ke, nte)

/-- `ReactionDiffusionReaction` (src/FEM/Equation/ReactionDiffusion.h:100-132). -/
def rdReactionS (u : List (Vec K)) (f : K → Vec K → K) : Option (Vec K × List (List (ℕ × ℕ))) := do
  let Fe := Vec.zeros element.length
  let nte ← tableS 1 element doulist
  let X ← coordsS x element 2
  let U ← nodalS u element
  let Fe ← (List.finRange ic.N).foldlM (fun Fe g => do
    let N := densev (sf.N (ic.points g))
    let dNdr := dense (sf.dNdr (ic.points g))
    let dXdr ← dNdr.mul X
    let J ← dXdr.determinant
    let dNdX ← (← dXdr.inverse).mul dNdr
    let u ← N.dot U
    let dudX ← dNdX.mulVec U
    Fe.add (← scaledV N [f u dudX, J, ic.weights g 0, ic.weights g 1])) Fe
  return (Fe, nte)

/-- `Advection` (src/FEM/Equation/Advection.h:19-45). -/
def advectionS (cx cy : K) : Option (Mat K × List (List (ℕ × ℕ))) := do
  let Ke := Mat.zeros element.length element.length
  let nte ← tableS 1 element doulist
  let X ← coordsS x element 2
  let Ke ← (List.finRange ic.N).foldlM (fun Ke g => do
    let N := densev (sf.N (ic.points g))
    let dNdr := dense (sf.dNdr (ic.points g))
    let dXdr ← dNdr.mul X
    let J ← dXdr.determinant
    let dNdX ← (← dXdr.inverse).mul dNdr
    let c := Vec.ofList [cx, cy]
    Ke.add (← scaled (← (← N.outer (← c.transpose)).mul dNdX) [J, ic.weights g 0, ic.weights g 1])) Ke
  return (Ke, nte)

/-- `Mass` (src/FEM/Equation/Advection.h:162-185). -/
def advectionMassS : Option (Mat K × List (List (ℕ × ℕ))) := do
  let Ce := Mat.zeros element.length element.length
  let nte ← tableS 1 element doulist
  let X ← coordsS x element 2
  let Ce ← (List.finRange ic.N).foldlM (fun Ce g => do
    let N := densev (sf.N (ic.points g))
    let dNdr := dense (sf.dNdr (ic.points g))
    let dXdr ← dNdr.mul X
    let J ← dXdr.determinant
    Ce.add (← scaled (← N.outer (← N.transpose)) [J, ic.weights g 0, ic.weights g 1])) Ce
  return (Ce, nte)

/-! ### Homogenisation -/

/-- `PlaneStiffnessBbar` (src/FEM/Equation/Homogenization.h:177-227); nothing is asserted about the
matrix `D`. -/
def planeStiffnessBbarS (D : Mat K) (t : K) : Option (Mat K × List (List (ℕ × ℕ))) := do
  let Ke := Mat.zeros (2 * element.length) (2 * element.length)
  let nte ← tableS 2 element doulist
  let X ← coordsS x element 2
  let Ke ← planeLoopS sf icV element planeBvolS X D t Ke
  return (← planeLoopS sf icD element planeBdevS X D t Ke, nte)

/-- `PlaneStiffnessWilsonTaylor` (src/FEM/Equation/Homogenization.h:231-280). -/
def planeStiffnessWilsonTaylorS (D : Mat K) (t : K) : Option (Mat K × List (List (ℕ × ℕ))) := do
  let Ke := Mat.zeros (2 * element.length) (2 * element.length)
  let Keaa := Mat.zeros 4 4
  let Kead := Mat.zeros 4 (2 * element.length)
  let nte ← tableS 2 element doulist
  let X ← coordsS x element 2
  let (Ke, Keaa, Kead) ← wilsonTaylorLoopS sf ic element X D t (Ke, Keaa, Kead)
  return (← Ke.sub (← (← (← Kead.transpose).mul (← Keaa.inverse)).mul Kead), nte)

/-- `HomogenizePlaneStrainBodyForce` (src/FEM/Equation/Homogenization.h:20-57). -/
def homogenizeBodyForceS (E V t : K) : Option (Mat K × List (List (ℕ × ℕ))) := do
  let Fes := Mat.zeros (2 * element.length) 3
  let nte ← tableS 2 element doulist
  let X ← coordsS x element 2
  let D ← planeStrainDS E V
  let Fes ← (List.finRange ic.N).foldlM (fun Fes g => do
    let dNdr := dense (sf.dNdr (ic.points g))
    let dXdr ← dNdr.mul X
    let J ← dXdr.determinant
    let dNdX ← (← dXdr.inverse).mul dNdr
    let B ← planeBS element.length dNdX
    Fes.add (← scaled (← (← B.transpose).mul D) [J, t, ic.weights g 0, ic.weights g 1])) Fes
  return (Fes, nte)

/-- `HomogenizePlaneStrainConstitutive` (src/FEM/Equation/Homogenization.h:61-101). -/
def homogenizeConstitutiveS (chi0 chi1 chi2 : List (Vec K)) (E V t : K) : Option (Mat K) := do
  let C := Mat.zeros 3 3
  let X ← coordsS x element 2
  let CHI ← chiS chi0 chi1 chi2 element
  let D ← planeStrainDS E V
  let I ← Mat.identity 3
  (List.finRange ic.N).foldlM (fun C g => do
    let dNdr := dense (sf.dNdr (ic.points g))
    let dXdr ← dNdr.mul X
    let J ← dXdr.determinant
    let dNdX ← (← dXdr.inverse).mul dNdr
    let B ← planeBS element.length dNdX
    C.add (← scaled (← D.mul (← I.sub (← B.mul CHI))) [J, t, ic.weights g 0, ic.weights g 1])) C

/-- `HomogenizePlaneStrainCheck` (src/FEM/Equation/Homogenization.h:105-137). -/
def homogenizeCheckS (chi0 chi1 chi2 : List (Vec K)) (t : K) : Option (Mat K) := do
  let C := Mat.zeros 3 3
  let X ← coordsS x element 2
  let CHI ← chiS chi0 chi1 chi2 element
  (List.finRange ic.N).foldlM (fun C g => do
    let dNdr := dense (sf.dNdr (ic.points g))
    let dXdr ← dNdr.mul X
    let J ← dXdr.determinant
    let dNdX ← (← dXdr.inverse).mul dNdr
    let B ← planeBS element.length dNdX
    C.add (← scaled (← (← B.neg).mul CHI) [J, t, ic.weights g 0, ic.weights g 1])) C

end Plane

/-! ### Stabilised advection -/

section Stabilised
variable (sf : SF ℝ 2 n) (ic : IC ℝ 2) (element doulist : List ℕ) (x : List (Vec ℝ))

/-- `Norm()` (src/LinearAlgebra/Models/Vector.h:296-303). -/
def normS (v : Vec ℝ) : Option ℝ := do return Real.sqrt (← v.normSq)

/-- `dNdXa`, `sum`, `he`, `alpha` (src/FEM/Equation/Advection.h:72-78, 115-121, 213-219). -/
def advScaleS (a : Vec ℝ) (k : ℝ) (dNdX : Mat ℝ) : Option (ℝ × Option ℝ) := do
  let dNdXa ← (← dNdX.transpose).mulVec a
  let sum ← (List.range element.length).foldlM (fun sum (i : ℕ) => do
    return sum + (← div? |(← dNdXa.at? (i : ℕ))| (← normS a))) 0
  let he ← div? 2 sum
  return (he, div? (1 / 2 * (← normS a) * he) k)

/-- `tau` (src/FEM/Equation/Advection.h:79-84, 220-225). -/
def advTauS (a : Vec ℝ) (k : ℝ) (dNdX : Mat ℝ) : Option ℝ := do
  let s ← advScaleS element a k dNdX
  let tau ← div? (1 / 2 * s.1) (← normS a)
  return advLimit tau s.2

/-- `tau` of the shock capturing term (src/FEM/Equation/Advection.h:122-127). -/
def shockTauS (a : Vec ℝ) (k : ℝ) (dNdX : Mat ℝ) : Option ℝ := do
  let s ← advScaleS element a k dNdX
  return advLimit (1 / 2 * (← normS a) * s.1) s.2

/-- `AdvectionSUPG` (src/FEM/Equation/Advection.h:49-88). -/
def advectionSUPGS (ax ay k : ℝ) : Option (Mat ℝ × List (List (ℕ × ℕ))) := do
  let Ke := Mat.zeros element.length element.length
  let nte ← tableS 1 element doulist
  let X ← coordsS x element 2
  let a := Vec.ofList [ax, ay]
  let Ke ← (List.finRange ic.N).foldlM (fun Ke g => do
    let dNdr := dense (sf.dNdr (ic.points g))
    let dXdr ← dNdr.mul X
    let J ← dXdr.determinant
    let dNdX ← (← dXdr.inverse).mul dNdr
    let tau ← advTauS element a k dNdX
    let v ← (← (← dNdX.transpose).smul tau).mulVec a
    Ke.add (← scaled (← (← v.outer (← a.transpose)).mul dNdX) [J, ic.weights g 0, ic.weights g 1])) Ke
  return (Ke, nte)

/-- `AdvectionShockCapturing` (src/FEM/Equation/Advection.h:92-131). -/
def shockCapturingS (ax ay k : ℝ) : Option (Mat ℝ × List (List (ℕ × ℕ))) := do
  let Ke := Mat.zeros element.length element.length
  let nte ← tableS 1 element doulist
  let X ← coordsS x element 2
  let a := Vec.ofList [ax, ay]
  let Ke ← (List.finRange ic.N).foldlM (fun Ke g => do
    let dNdr := dense (sf.dNdr (ic.points g))
    let dXdr ← dNdr.mul X
    let J ← dXdr.determinant
    let dNdX ← (← dXdr.inverse).mul dNdr
    let tau ← shockTauS element a k dNdX
    Ke.add (← scaled (← (← (← dNdX.transpose).smul tau).mul dNdX) [J, ic.weights g 0, ic.weights g 1])) Ke
  return (Ke, nte)

/-- `MassSUPG` (src/FEM/Equation/Advection.h:189-229). -/
def massSUPGS (ax ay k : ℝ) : Option (Mat ℝ × List (List (ℕ × ℕ))) := do
  let Ce := Mat.zeros element.length element.length
  let nte ← tableS 1 element doulist
  let X ← coordsS x element 2
  let a := Vec.ofList [ax, ay]
  let Ce ← (List.finRange ic.N).foldlM (fun Ce g => do
    let N := densev (sf.N (ic.points g))
    let dNdr := dense (sf.dNdr (ic.points g))
    let dXdr ← dNdr.mul X
    let J ← dXdr.determinant
    let dNdX ← (← dXdr.inverse).mul dNdr
    let tau ← advTauS element a k dNdX
    let v ← (← (← dNdX.transpose).smul tau).mulVec a
    Ce.add (← scaled (← v.outer (← N.transpose)) [J, ic.weights g 0, ic.weights g 1])) Ce
  return (Ce, nte)

end Stabilised

end Pansfem
