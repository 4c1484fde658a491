/-
The routines of /repo/src/FEM/Equation/Truss.h, Beam.h and Shell.h statement by statement, on objects of the
classes `Matrix` and `Vector`.  Conventions as in `Verif/Model/ElementStorage.lean`;
`Verif/Props/C143_ShellStorage.lean` relates them to the routines of `Verif/Model/Elastic.lean` and `Shell.lean`.

* The entries a run of assignments reads are read before the first assignment of the run.
* The square root of the norm is the exact one.
* The four assignments to `_nodetoelement` of the truss are those of the loop of the other routines.
-/
import Verif.Model.ElementStorageNonlinear
import Verif.Model.Shell

noncomputable section

namespace Pansfem

variable {n : ℕ}

/-- `Normal` (src/LinearAlgebra/Models/Vector.h:341-344) with `Norm` (Vector.h:296-303). -/
def normalS (v : Vec ℝ) : Option (Vec ℝ) := do v.sdiv (Real.sqrt (← v.normSq))

/-- `A.Vstack(v.Transpose())` (src/FEM/Equation/Beam.h:43-44, Shell.h:46-50). -/
def rowS (A : Mat ℝ) (v : Vec ℝ) : Option (Mat ℝ) := do A.vstack (← v.transpose)

/-! ### Truss -/

/-- `Truss2D` (src/FEM/Equation/Truss.h:21-40). -/
def trussS (element doulist : List ℕ) (x : List (Vec ℝ)) (E A : ℝ) : Option (Mat ℝ × List (List (ℕ × ℕ))) := do
  if element.length = 2 then
    let nte ← tableS 2 element doulist
    let dx ← (← x[← element[1]?]?).sub (← x[← element[0]?]?)
    let l := Real.sqrt (← dx.normSq)
    let c ← div? (← dx.at? 0) l
    let s ← div? (← dx.at? 1) l
    let k ← div? (E * A) l
    let Ke ← assigns (Mat.zeros 4 4)
      [(0, 0, some (k * c * c)), (0, 1, some (k * c * s)), (0, 2, some (-k * c * c)), (0, 3, some (-k * c * s)),
       (1, 0, some (k * c * s)), (1, 1, some (k * s * s)), (1, 2, some (-k * c * s)), (1, 3, some (-k * s * s)),
       (2, 0, some (-k * c * c)), (2, 1, some (-k * c * s)), (2, 2, some (k * c * c)), (2, 3, some (k * c * s)),
       (3, 0, some (-k * c * s)), (3, 1, some (-k * s * s)), (3, 2, some (k * c * s)), (3, 3, some (k * s * s))]
    return (Ke, nte)
  else none

/-! ### Beam -/

/-- `v1` and `v2` (src/FEM/Equation/Beam.h:40-45). -/
def beamRowsS (d1 d2 : List (Vec ℝ)) (element : List ℕ) : Option (Mat ℝ × Mat ℝ) :=
  element.foldlM (fun s i => do
    let v1 ← rowS s.1 (← normalS (← d1[i]?))
    let v2 ← rowS s.2 (← normalS (← d2[i]?))
    return (v1, v2)) (Mat.zeros 0 3, Mat.zeros 0 3)

/-- `D0` (src/FEM/Equation/Beam.h:47-51). -/
def beamD0S (E V : ℝ) : Option (Mat ℝ) := do
  let G ← div? (1 / 2 * E) (1 + V)
  assigns (Mat.zeros 3 3) [(0, 0, some E), (0, 1, some 0), (0, 2, some 0),
    (1, 0, some 0), (1, 1, some (G / (6 / 5))), (1, 2, some 0),
    (2, 0, some 0), (2, 1, some 0), (2, 2, some (G / (6 / 5)))]

/-- `J` (src/FEM/Equation/Beam.h:59). -/
def beamJS (X v1 v2 : Mat ℝ) (N : Vec ℝ) (dNdr : Mat ℝ) (s : Vec ℝ) (a b : ℝ) : Option (Mat ℝ) := do
  let s0 ← s.at? 0
  let s1 ← s.at? 1
  let A ← dNdr.mul (← (← X.add (← v1.smul (1 / 2 * a * s0))).add (← v2.smul (1 / 2 * b * s1)))
  let R1 ← (← (← N.transpose).smul (1 / 2 * a)).mul v1
  let R2 ← (← (← N.transpose).smul (1 / 2 * b)).mul v2
  A.vstack (← R1.vstack R2)

/-- `dNydx`, `dNzdx` (src/FEM/Equation/Beam.h:63-64, Shell.h:72, 157); `c` is the column of `invJ`. -/
def layerS (dNdx invJ : Mat ℝ) (N : Vec ℝ) (s : ℝ) (c : ℕ) : Option (Mat ℝ) := do
  (← dNdx.smul s).add (← (← invJ.block 0 c 3 1).mul (← N.transpose))

/-- `B` (src/FEM/Equation/Beam.h:66-74). -/
def beamBS (m : ℕ) (dNdx dNydx dNzdx v1 v2 : Mat ℝ) (a b : ℝ) : Option (Mat ℝ) :=
  nodeFillS 6 6 m fun i => do
    let d0 ← dNdx.at? 0 i
    let d1 ← dNdx.at? 1 i
    let d2 ← dNdx.at? 2 i
    let y0 ← dNydx.at? 0 i
    let y1 ← dNydx.at? 1 i
    let y2 ← dNydx.at? 2 i
    let z0 ← dNzdx.at? 0 i
    let z1 ← dNzdx.at? 1 i
    let z2 ← dNzdx.at? 2 i
    let p0 ← v1.at? i 0
    let p1 ← v1.at? i 1
    let p2 ← v1.at? i 2
    let q0 ← v2.at? i 0
    let q1 ← v2.at? i 1
    let q2 ← v2.at? i 2
    return [(0, 6 * i, d0), (0, 6 * i + 1, 0), (0, 6 * i + 2, 0), (0, 6 * i + 3, 0),
      (0, 6 * i + 4, 1 / 2 * a * y0 * p2 + 1 / 2 * b * z0 * q2),
      (0, 6 * i + 5, -(1 / 2) * a * y0 * p1 - 1 / 2 * b * z0 * q1),
      (1, 6 * i, 0), (1, 6 * i + 1, d1), (1, 6 * i + 2, 0),
      (1, 6 * i + 3, -(1 / 2) * a * y1 * p2 - 1 / 2 * b * z1 * q2), (1, 6 * i + 4, 0),
      (1, 6 * i + 5, 1 / 2 * a * y1 * p0 + 1 / 2 * b * z1 * q0),
      (2, 6 * i, 0), (2, 6 * i + 1, 0), (2, 6 * i + 2, d2),
      (2, 6 * i + 3, 1 / 2 * a * y2 * p1 + 1 / 2 * b * z2 * q1),
      (2, 6 * i + 4, -(1 / 2) * a * y2 * p0 - 1 / 2 * b * z2 * q0), (2, 6 * i + 5, 0),
      (3, 6 * i, d1), (3, 6 * i + 1, d0), (3, 6 * i + 2, 0),
      (3, 6 * i + 3, -(1 / 2) * a * y0 * p2 - 1 / 2 * b * z0 * q2),
      (3, 6 * i + 4, 1 / 2 * a * y1 * p2 + 1 / 2 * b * z1 * q2),
      (3, 6 * i + 5, -(1 / 2) * a * y1 * p1 - 1 / 2 * b * z1 * q1 + 1 / 2 * a * y0 * p0 + 1 / 2 * b * z0 * q0),
      (4, 6 * i, d2), (4, 6 * i + 1, 0), (4, 6 * i + 2, d0),
      (4, 6 * i + 3, 1 / 2 * a * y0 * p1 + 1 / 2 * b * z0 * q1),
      (4, 6 * i + 4, -(1 / 2) * a * y0 * p0 - 1 / 2 * b * z0 * q0 + 1 / 2 * a * y2 * p2 + 1 / 2 * b * z2 * q2),
      (4, 6 * i + 5, -(1 / 2) * a * y2 * p1 - 1 / 2 * b * z2 * q1),
      (5, 6 * i, 0), (5, 6 * i + 1, d2), (5, 6 * i + 2, d1),
      (5, 6 * i + 3, -(1 / 2) * a * y2 * p2 - 1 / 2 * b * z2 * q2 + 1 / 2 * a * y1 * p1 + 1 / 2 * b * z1 * q1),
      (5, 6 * i + 4, -(1 / 2) * a * y1 * p0 - 1 / 2 * b * z1 * q0),
      (5, 6 * i + 5, 1 / 2 * a * y2 * p0 + 1 / 2 * b * z2 * q0)]

/-- `P` (src/FEM/Equation/Beam.h:79-82). -/
def beamPS (P0 P1 P2 : Vec ℝ) : Option (Mat ℝ) := do
  let a0 ← P0.at? 0
  let a1 ← P0.at? 1
  let a2 ← P0.at? 2
  let b0 ← P1.at? 0
  let b1 ← P1.at? 1
  let b2 ← P1.at? 2
  let c0 ← P2.at? 0
  let c1 ← P2.at? 1
  let c2 ← P2.at? 2
  assigns (Mat.zeros 3 6)
    [(0, 0, some (a0 * a0)), (0, 1, some (a1 * a1)), (0, 2, some (a2 * a2)),
     (0, 3, some (a0 * a1)), (0, 4, some (a0 * a2)), (0, 5, some (a1 * a2)),
     (1, 0, some (2 * a0 * b0)), (1, 1, some (2 * a1 * b1)), (1, 2, some (2 * a2 * b2)),
     (1, 3, some (a0 * b1 + a1 * b0)), (1, 4, some (a0 * b2 + a2 * b0)), (1, 5, some (a1 * b2 + a2 * b1)),
     (2, 0, some (2 * a0 * c0)), (2, 1, some (2 * a1 * c1)), (2, 2, some (2 * a2 * c2)),
     (2, 3, some (a0 * c1 + a1 * c0)), (2, 4, some (a0 * c2 + a2 * c0)), (2, 5, some (a1 * c2 + a2 * c1))]

/-- `D = P.Transpose()*D0*P` and `_Ke += B.Transpose()*D*B*…` (src/FEM/Equation/Beam.h:83-85, Shell.h:95-97,
180-182). -/
def rotatedAddS (B P D0 : Mat ℝ) (w : List ℝ) (Ke : Mat ℝ) : Option (Mat ℝ) := do
  let D ← (← (← P.transpose).mul D0).mul P
  Ke.add (← scaled (← (← (← B.transpose).mul D).mul B) w)

/-- The body of the inner loop (src/FEM/Equation/Beam.h:55-85); `w` are the weights. -/
def beamBodyS (m : ℕ) (X v1 v2 D0 : Mat ℝ) (N : Vec ℝ) (dNdr : Mat ℝ) (s : Vec ℝ) (a b : ℝ) (w : List ℝ)
    (Ke : Mat ℝ) : Option (Mat ℝ) := do
  let J ← beamJS X v1 v2 N dNdr s a b
  let detJ ← J.determinant
  let invJ ← J.inverse
  let dNdx ← (← invJ.block 0 0 3 1).mul dNdr
  let dNydx ← layerS dNdx invJ N (← s.at? 0) 1
  let dNzdx ← layerS dNdx invJ N (← s.at? 1) 2
  let B ← beamBS m dNdx dNydx dNzdx v1 v2 a b
  let P1 ← normalS (← (← v1.transpose).mulVec N)
  let P2 ← normalS (← (← v2.transpose).mulVec N)
  let P0 ← normalS (← P1.cross P2)
  let P ← beamPS P0 P1 P2
  rotatedAddS B P D0 (detJ :: w) Ke

/-- `BeamLinearIsotropicElastic` (src/FEM/Equation/Beam.h:21-88); `d1` and `d2` are `_v1` and `_v2`. -/
def beamS (sf : SF ℝ 1 n) (ic0 : IC ℝ 1) (ic12 : IC ℝ 2) (element doulist : List ℕ) (x d1 d2 : List (Vec ℝ))
    (E V a b : ℝ) : Option (Mat ℝ × List (List (ℕ × ℕ))) := do
  let nte ← tableS 6 element doulist
  let X ← coordsS x element 3
  let v ← beamRowsS d1 d2 element
  let D0 ← beamD0S E V
  let Ke ← (List.finRange ic0.N).foldlM (fun Ke g => (List.finRange ic12.N).foldlM (fun Ke h =>
    beamBodyS element.length X v.1 v.2 D0 (densev (sf.N (ic0.points g))) (dense (sf.dNdr (ic0.points g)))
      (densev (ic12.points h)) a b [ic0.weights g 0, ic12.weights h 0, ic12.weights h 1] Ke) Ke)
    (Mat.zeros (6 * element.length) (6 * element.length))
  return (Ke, nte)

/-! ### Shell -/

/-- `v3i`, `v1i`, `v2i` (src/FEM/Equation/Shell.h:44-49, 129-134), in the order `v1i`, `v2i`, `v3i`. -/
def frameS (sf : SF ℝ 2 n) (X : Mat ℝ) (l : Vec ℝ) (i : ℕ) : Option (Vec ℝ × Vec ℝ × Vec ℝ) := do
  let p ← sf.points[i]?
  let dXdr ← (← (dense (sf.dNdr p)).mul X).transpose
  let v3 ← normalS (← (← Vec.ofMat (← dXdr.block 0 0 3 1)).cross (← Vec.ofMat (← dXdr.block 0 1 3 1)))
  let v1 ← normalS (← l.cross v3)
  let v2 ← normalS (← v3.cross v1)
  return (v1, v2, v3)

/-- `v1`, `v2`, `v3` (src/FEM/Equation/Shell.h:40-51, 125-136). -/
def shellRowsS (sf : SF ℝ 2 n) (X : Mat ℝ) (l : Vec ℝ) (m : ℕ) : Option (Mat ℝ × Mat ℝ × Mat ℝ) :=
  (List.range m).foldlM (fun s i => do
    let f ← frameS sf X l i
    let v3 ← rowS s.2.2 f.2.2
    let v1 ← rowS s.1 f.1
    let v2 ← rowS s.2.1 f.2.1
    return (v1, v2, v3)) (Mat.zeros 0 3, Mat.zeros 0 3, Mat.zeros 0 3)

/-- `D0` (src/FEM/Equation/Shell.h:53-60, 138-145). -/
def shellD0S (E V : ℝ) : Option (Mat ℝ) := do
  let D ← assigns (Mat.zeros 5 5)
    [(0, 0, some 1), (0, 1, some V), (0, 2, some 0), (0, 3, some 0), (0, 4, some 0),
     (1, 0, some V), (1, 1, some 1), (1, 2, some 0), (1, 3, some 0), (1, 4, some 0),
     (2, 0, some 0), (2, 1, some 0), (2, 2, some (1 / 2 * (1 - V))), (2, 3, some 0), (2, 4, some 0),
     (3, 0, some 0), (3, 1, some 0), (3, 2, some 0), (3, 3, some (1 / 2 * (1 - V) / (6 / 5))), (3, 4, some 0),
     (4, 0, some 0), (4, 1, some 0), (4, 2, some 0), (4, 3, some 0), (4, 4, some (1 / 2 * (1 - V) / (6 / 5)))]
  D.smul (← div? E (1 - V * V))

/-- `J` (src/FEM/Equation/Shell.h:68, 153). -/
def shellJS (X v3 : Mat ℝ) (N : Vec ℝ) (dNdr : Mat ℝ) (z t : ℝ) : Option (Mat ℝ) := do
  let A ← dNdr.mul (← X.add (← v3.smul (1 / 2 * t * z)))
  A.vstack (← (← (← N.transpose).smul (1 / 2 * t)).mul v3)

/-- `B` (src/FEM/Equation/Shell.h:74-82). -/
def shellBS (m : ℕ) (dNdx dNzdx v1 v2 : Mat ℝ) (t : ℝ) : Option (Mat ℝ) :=
  nodeFillS 6 5 m fun i => do
    let d0 ← dNdx.at? 0 i
    let d1 ← dNdx.at? 1 i
    let d2 ← dNdx.at? 2 i
    let z0 ← dNzdx.at? 0 i
    let z1 ← dNzdx.at? 1 i
    let z2 ← dNzdx.at? 2 i
    let p0 ← v1.at? i 0
    let p1 ← v1.at? i 1
    let p2 ← v1.at? i 2
    let q0 ← v2.at? i 0
    let q1 ← v2.at? i 1
    let q2 ← v2.at? i 2
    return [(0, 5 * i, d0), (0, 5 * i + 1, 0), (0, 5 * i + 2, 0),
      (0, 5 * i + 3, -(1 / 2) * t * z0 * q0), (0, 5 * i + 4, 1 / 2 * t * z0 * p0),
      (1, 5 * i, 0), (1, 5 * i + 1, d1), (1, 5 * i + 2, 0),
      (1, 5 * i + 3, -(1 / 2) * t * z1 * q1), (1, 5 * i + 4, 1 / 2 * t * z1 * p1),
      (2, 5 * i, 0), (2, 5 * i + 1, 0), (2, 5 * i + 2, d2),
      (2, 5 * i + 3, -(1 / 2) * t * z2 * q2), (2, 5 * i + 4, 1 / 2 * t * z2 * p2),
      (3, 5 * i, d1), (3, 5 * i + 1, d0), (3, 5 * i + 2, 0),
      (3, 5 * i + 3, -(1 / 2) * t * (z1 * q0 + z0 * q1)), (3, 5 * i + 4, 1 / 2 * t * (z1 * p0 + z0 * p1)),
      (4, 5 * i, d2), (4, 5 * i + 1, 0), (4, 5 * i + 2, d0),
      (4, 5 * i + 3, -(1 / 2) * t * (z0 * q2 + z2 * q0)), (4, 5 * i + 4, 1 / 2 * t * (z0 * p2 + z2 * p0)),
      (5, 5 * i, 0), (5, 5 * i + 1, d2), (5, 5 * i + 2, d1),
      (5, 5 * i + 3, -(1 / 2) * t * (z2 * q1 + z1 * q2)), (5, 5 * i + 4, 1 / 2 * t * (z2 * p1 + z1 * p2))]

/-- `B` (src/FEM/Equation/Shell.h:159-167). -/
def shellB2S (m : ℕ) (dNdx dNzdx v1 v2 : Mat ℝ) (t : ℝ) : Option (Mat ℝ) :=
  nodeFillS 6 6 m fun i => do
    let d0 ← dNdx.at? 0 i
    let d1 ← dNdx.at? 1 i
    let d2 ← dNdx.at? 2 i
    let z0 ← dNzdx.at? 0 i
    let z1 ← dNzdx.at? 1 i
    let z2 ← dNzdx.at? 2 i
    let p0 ← v1.at? i 0
    let p1 ← v1.at? i 1
    let p2 ← v1.at? i 2
    let q0 ← v2.at? i 0
    let q1 ← v2.at? i 1
    let q2 ← v2.at? i 2
    return [(0, 6 * i, d0), (0, 6 * i + 1, 0), (0, 6 * i + 2, 0),
      (0, 6 * i + 3, -(1 / 2) * t * z0 * q0 * p0 + 1 / 2 * t * z0 * p0 * q0),
      (0, 6 * i + 4, -(1 / 2) * t * z0 * q0 * p1 + 1 / 2 * t * z0 * p0 * q1),
      (0, 6 * i + 5, -(1 / 2) * t * z0 * q0 * p2 + 1 / 2 * t * z0 * p0 * q2),
      (1, 6 * i, 0), (1, 6 * i + 1, d1), (1, 6 * i + 2, 0),
      (1, 6 * i + 3, -(1 / 2) * t * z1 * q1 * p0 + 1 / 2 * t * z1 * p1 * q0),
      (1, 6 * i + 4, -(1 / 2) * t * z1 * q1 * p1 + 1 / 2 * t * z1 * p1 * q1),
      (1, 6 * i + 5, -(1 / 2) * t * z1 * q1 * p2 + 1 / 2 * t * z1 * p1 * q2),
      (2, 6 * i, 0), (2, 6 * i + 1, 0), (2, 6 * i + 2, d2),
      (2, 6 * i + 3, -(1 / 2) * t * z2 * q2 * p0 + 1 / 2 * t * z2 * p2 * q0),
      (2, 6 * i + 4, -(1 / 2) * t * z2 * q2 * p1 + 1 / 2 * t * z2 * p2 * q1),
      (2, 6 * i + 5, -(1 / 2) * t * z2 * q2 * p2 + 1 / 2 * t * z2 * p2 * q2),
      (3, 6 * i, d1), (3, 6 * i + 1, d0), (3, 6 * i + 2, 0),
      (3, 6 * i + 3, -(1 / 2) * t * (z1 * q0 + z0 * q1) * p0 + 1 / 2 * t * (z1 * p0 + z0 * p1) * q0),
      (3, 6 * i + 4, -(1 / 2) * t * (z1 * q0 + z0 * q1) * p1 + 1 / 2 * t * (z1 * p0 + z0 * p1) * q1),
      (3, 6 * i + 5, -(1 / 2) * t * (z1 * q0 + z0 * q1) * p2 + 1 / 2 * t * (z1 * p0 + z0 * p1) * q2),
      (4, 6 * i, d2), (4, 6 * i + 1, 0), (4, 6 * i + 2, d0),
      (4, 6 * i + 3, -(1 / 2) * t * (z0 * q2 + z2 * q0) * p0 + 1 / 2 * t * (z0 * p2 + z2 * p0) * q0),
      (4, 6 * i + 4, -(1 / 2) * t * (z0 * q2 + z2 * q0) * p1 + 1 / 2 * t * (z0 * p2 + z2 * p0) * q1),
      (4, 6 * i + 5, -(1 / 2) * t * (z0 * q2 + z2 * q0) * p2 + 1 / 2 * t * (z0 * p2 + z2 * p0) * q2),
      (5, 6 * i, 0), (5, 6 * i + 1, d2), (5, 6 * i + 2, d1),
      (5, 6 * i + 3, -(1 / 2) * t * (z2 * q1 + z1 * q2) * p0 + 1 / 2 * t * (z2 * p1 + z1 * p2) * q0),
      (5, 6 * i + 4, -(1 / 2) * t * (z2 * q1 + z1 * q2) * p1 + 1 / 2 * t * (z2 * p1 + z1 * p2) * q1),
      (5, 6 * i + 5, -(1 / 2) * t * (z2 * q1 + z1 * q2) * p2 + 1 / 2 * t * (z2 * p1 + z1 * p2) * q2)]

/-- `P` (src/FEM/Equation/Shell.h:89-94, 174-179). -/
def shellPS (P0 P1 P2 : Vec ℝ) : Option (Mat ℝ) := do
  let a0 ← P0.at? 0
  let a1 ← P0.at? 1
  let a2 ← P0.at? 2
  let b0 ← P1.at? 0
  let b1 ← P1.at? 1
  let b2 ← P1.at? 2
  let c0 ← P2.at? 0
  let c1 ← P2.at? 1
  let c2 ← P2.at? 2
  assigns (Mat.zeros 5 6)
    [(0, 0, some (a0 * a0)), (0, 1, some (a1 * a1)), (0, 2, some (a2 * a2)),
     (0, 3, some (a0 * a1)), (0, 4, some (a0 * a2)), (0, 5, some (a1 * a2)),
     (1, 0, some (b0 * b0)), (1, 1, some (b1 * b1)), (1, 2, some (b2 * b2)),
     (1, 3, some (b0 * b1)), (1, 4, some (b0 * b2)), (1, 5, some (b1 * b2)),
     (2, 0, some (2 * a0 * b0)), (2, 1, some (2 * a1 * b1)), (2, 2, some (2 * a2 * b2)),
     (2, 3, some (a0 * b1 + a1 * b0)), (2, 4, some (a0 * b2 + a2 * b0)), (2, 5, some (a1 * b2 + a2 * b1)),
     (3, 0, some (2 * a0 * c0)), (3, 1, some (2 * a1 * c1)), (3, 2, some (2 * a2 * c2)),
     (3, 3, some (a0 * c1 + a1 * c0)), (3, 4, some (a0 * c2 + a2 * c0)), (3, 5, some (a1 * c2 + a2 * c1)),
     (4, 0, some (2 * b0 * c0)), (4, 1, some (2 * b1 * c1)), (4, 2, some (2 * b2 * c2)),
     (4, 3, some (b0 * c1 + b1 * c0)), (4, 4, some (b0 * c2 + b2 * c0)), (4, 5, some (b1 * c2 + b2 * c1))]

/-- The body of the inner loop (src/FEM/Equation/Shell.h:64-97, 149-182); `build` makes `B` from `dNdx` and
`dNzdx`, and `w` are the weights. -/
def shellBodyS (build : Mat ℝ → Mat ℝ → Option (Mat ℝ)) (X v3 D0 : Mat ℝ) (l N : Vec ℝ) (dNdr : Mat ℝ)
    (zeta : Vec ℝ) (t : ℝ) (w : List ℝ) (Ke : Mat ℝ) : Option (Mat ℝ) := do
  let z ← zeta.at? 0
  let J ← shellJS X v3 N dNdr z t
  let detJ ← J.determinant
  let invJ ← J.inverse
  let dNdx ← (← invJ.block 0 0 3 2).mul dNdr
  let dNzdx ← layerS dNdx invJ N z 2
  let B ← build dNdx dNzdx
  let J0 ← Vec.ofMat (← (← J.block 0 0 1 3).transpose)
  let J1 ← Vec.ofMat (← (← J.block 1 0 1 3).transpose)
  let P2 ← normalS (← J0.cross J1)
  let P0 ← normalS (← l.cross P2)
  let P1 ← normalS (← P2.cross P0)
  let P ← shellPS P0 P1 P2
  rotatedAddS B P D0 (detJ :: w) Ke

/-- The two routines (src/FEM/Equation/Shell.h:21-100, 105-185): `k` unknowns per node. -/
def shellWithS (k : ℕ) (build : ℕ → Mat ℝ → Mat ℝ → Mat ℝ → Mat ℝ → ℝ → Option (Mat ℝ)) (sf : SF ℝ 2 n)
    (ic01 : IC ℝ 2) (ic2 : IC ℝ 1) (element doulist : List ℕ) (x : List (Vec ℝ)) (E V t : ℝ) :
    Option (Mat ℝ × List (List (ℕ × ℕ))) := do
  let nte ← tableS k element doulist
  let X ← coordsS x element 3
  let l ← (← x[← element[1]?]?).sub (← x[← element[0]?]?)
  let v ← shellRowsS sf X l element.length
  let D0 ← shellD0S E V
  let Ke ← (List.finRange ic01.N).foldlM (fun Ke g => (List.finRange ic2.N).foldlM (fun Ke h =>
    shellBodyS (fun dNdx dNzdx => build element.length dNdx dNzdx v.1 v.2.1 t) X v.2.2 D0 l
      (densev (sf.N (ic01.points g))) (dense (sf.dNdr (ic01.points g))) (densev (ic2.points h)) t
      [ic01.weights g 0, ic01.weights g 1, ic2.weights h 0] Ke) Ke)
    (Mat.zeros (k * element.length) (k * element.length))
  return (Ke, nte)

/-- `ShellLinearIsotropicElastic` (src/FEM/Equation/Shell.h:21-100). -/
def shellS (sf : SF ℝ 2 n) (ic01 : IC ℝ 2) (ic2 : IC ℝ 1) (element doulist : List ℕ) (x : List (Vec ℝ))
    (E V t : ℝ) : Option (Mat ℝ × List (List (ℕ × ℕ))) :=
  shellWithS 5 shellBS sf ic01 ic2 element doulist x E V t

/-- `ShellLinearIsotropicElastic2` (src/FEM/Equation/Shell.h:105-185). -/
def shell2S (sf : SF ℝ 2 n) (ic01 : IC ℝ 2) (ic2 : IC ℝ 1) (element doulist : List ℕ) (x : List (Vec ℝ))
    (E V t : ℝ) : Option (Mat ℝ × List (List (ℕ × ℕ))) :=
  shellWithS 6 shellB2S sf ic01 ic2 element doulist x E V t

end Pansfem
