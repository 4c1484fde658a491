/-
The geometrically nonlinear routines of /repo/src/FEM/Equation/PlaneStrain.h and Solid.h statement by statement,
on objects of the classes `Matrix` and `Vector`.  Conventions as in `Verif/Model/ElementStorage.lean`;
`Verif/Props/C142_NonlinearStorage.lean` relates them to the routines of `Verif/Model/Nonlinear.lean`.

* The entries a run of assignments reads are read before the first assignment of the run.
* The statements that make `S` and `BNL` come before the first `_Ke +=`; they do not use `_Ke`.
* The loop of the pressure routine that fills `K` and `F` together is a loop for each.
* `log` of a number that is not positive is `none`.
-/
import Verif.Model.ElementStorageFluid
import Verif.Model.Nonlinear

noncomputable section

namespace Pansfem

variable {K : Type} [Field K] {n : ℕ}

/-- A fresh `R × k*m` matrix filled by a loop over the `m` nodes (src/FEM/Equation/PlaneStrain.h:283-288, 296-302,
Solid.h:108-116, 124-135). -/
def nodeFillS (R k m : ℕ) (a : ℕ → Option (List (ℕ × ℕ × K))) : Option (Mat K) :=
  (List.range m).foldlM (fun B (n : ℕ) => do putsS B (← a n)) (Mat.zeros R (k * m))

/-- `BL` (src/FEM/Equation/PlaneStrain.h:283-288). -/
def planeBLS (m : ℕ) (F dNdX : Mat K) : Option (Mat K) :=
  nodeFillS 3 2 m fun n => do
    let F00 ← F.at? 0 0
    let F01 ← F.at? 0 1
    let F10 ← F.at? 1 0
    let F11 ← F.at? 1 1
    let d0 ← dNdX.at? 0 n
    let d1 ← dNdX.at? 1 n
    return [(0, 2 * n, F00 * d0), (0, 2 * n + 1, F10 * d0),
      (1, 2 * n, F01 * d1), (1, 2 * n + 1, F11 * d1),
      (2, 2 * n, F01 * d0 + F00 * d1), (2, 2 * n + 1, F11 * d0 + F10 * d1)]

/-- `BL` (src/FEM/Equation/Solid.h:108-116). -/
def solidBLS (m : ℕ) (F dNdX : Mat K) : Option (Mat K) :=
  nodeFillS 6 3 m fun n => do
    let F00 ← F.at? 0 0
    let F01 ← F.at? 0 1
    let F02 ← F.at? 0 2
    let F10 ← F.at? 1 0
    let F11 ← F.at? 1 1
    let F12 ← F.at? 1 2
    let F20 ← F.at? 2 0
    let F21 ← F.at? 2 1
    let F22 ← F.at? 2 2
    let d0 ← dNdX.at? 0 n
    let d1 ← dNdX.at? 1 n
    let d2 ← dNdX.at? 2 n
    return [(0, 3 * n, F00 * d0), (0, 3 * n + 1, F10 * d0), (0, 3 * n + 2, F20 * d0),
      (1, 3 * n, F01 * d1), (1, 3 * n + 1, F11 * d1), (1, 3 * n + 2, F21 * d1),
      (2, 3 * n, F02 * d2), (2, 3 * n + 1, F12 * d2), (2, 3 * n + 2, F22 * d2),
      (3, 3 * n, F01 * d0 + F00 * d1), (3, 3 * n + 1, F11 * d0 + F10 * d1), (3, 3 * n + 2, F21 * d0 + F20 * d1),
      (4, 3 * n, F02 * d1 + F01 * d2), (4, 3 * n + 1, F12 * d1 + F11 * d2), (4, 3 * n + 2, F22 * d1 + F21 * d2),
      (5, 3 * n, F00 * d2 + F02 * d0), (5, 3 * n + 1, F10 * d2 + F12 * d0), (5, 3 * n + 2, F20 * d2 + F22 * d0)]

/-- `BL` of the updated Lagrange solid (src/FEM/Equation/Solid.h:195-203). -/
def solidBUS (m : ℕ) (dNdx : Mat K) : Option (Mat K) :=
  nodeFillS 6 3 m fun n => do
    let d0 ← dNdx.at? 0 n
    let d1 ← dNdx.at? 1 n
    let d2 ← dNdx.at? 2 n
    return [(0, 3 * n, d0), (0, 3 * n + 1, 0), (0, 3 * n + 2, 0),
      (1, 3 * n, 0), (1, 3 * n + 1, d1), (1, 3 * n + 2, 0),
      (2, 3 * n, 0), (2, 3 * n + 1, 0), (2, 3 * n + 2, d2),
      (3, 3 * n, d1), (3, 3 * n + 1, d0), (3, 3 * n + 2, 0),
      (4, 3 * n, d2), (4, 3 * n + 1, 0), (4, 3 * n + 2, d0),
      (5, 3 * n, 0), (5, 3 * n + 1, d2), (5, 3 * n + 2, d1)]

/-- `BNL` (src/FEM/Equation/PlaneStrain.h:296-302, 366-372). -/
def planeBNLS (m : ℕ) (dNdX : Mat K) : Option (Mat K) :=
  nodeFillS 4 2 m fun n => do
    let d0 ← dNdX.at? 0 n
    let d1 ← dNdX.at? 1 n
    return [(0, 2 * n, d0), (0, 2 * n + 1, 0), (1, 2 * n, 0), (1, 2 * n + 1, d0),
      (2, 2 * n, d1), (2, 2 * n + 1, 0), (3, 2 * n, 0), (3, 2 * n + 1, d1)]

/-- `BNL` (src/FEM/Equation/Solid.h:124-135, 207-218). -/
def solidBNLS (m : ℕ) (dNdX : Mat K) : Option (Mat K) :=
  nodeFillS 9 3 m fun n => do
    let d0 ← dNdX.at? 0 n
    let d1 ← dNdX.at? 1 n
    let d2 ← dNdX.at? 2 n
    return [(0, 3 * n, d0), (0, 3 * n + 1, 0), (0, 3 * n + 2, 0),
      (1, 3 * n, 0), (1, 3 * n + 1, d0), (1, 3 * n + 2, 0),
      (2, 3 * n, 0), (2, 3 * n + 1, 0), (2, 3 * n + 2, d0),
      (3, 3 * n, d1), (3, 3 * n + 1, 0), (3, 3 * n + 2, 0),
      (4, 3 * n, 0), (4, 3 * n + 1, d1), (4, 3 * n + 2, 0),
      (5, 3 * n, 0), (5, 3 * n + 1, 0), (5, 3 * n + 2, d1),
      (6, 3 * n, d2), (6, 3 * n + 1, 0), (6, 3 * n + 2, 0),
      (7, 3 * n, 0), (7, 3 * n + 1, d2), (7, 3 * n + 2, 0),
      (8, 3 * n, 0), (8, 3 * n + 1, 0), (8, 3 * n + 2, d2)]

/-- `S00`, …, `S11` and the stack of them (src/FEM/Equation/PlaneStrain.h:304-306, 373-375). -/
def stackS2 (s00 s01 s10 s11 : K) : Option (Mat K) := do
  let S00 ← (← Mat.identity 2).smul s00
  let S01 ← (← Mat.identity 2).smul s01
  let S10 ← (← Mat.identity 2).smul s10
  let S11 ← (← Mat.identity 2).smul s11
  (← S00.hstack S01).vstack (← S10.hstack S11)

/-- `S00`, …, `S22` and the stack of them (src/FEM/Equation/Solid.h:137-140, 219-222). -/
def stackS3 (s00 s01 s02 s10 s11 s12 s20 s21 s22 : K) : Option (Mat K) := do
  let S00 ← (← Mat.identity 3).smul s00
  let S01 ← (← Mat.identity 3).smul s01
  let S02 ← (← Mat.identity 3).smul s02
  let S10 ← (← Mat.identity 3).smul s10
  let S11 ← (← Mat.identity 3).smul s11
  let S12 ← (← Mat.identity 3).smul s12
  let S20 ← (← Mat.identity 3).smul s20
  let S21 ← (← Mat.identity 3).smul s21
  let S22 ← (← Mat.identity 3).smul s22
  (← S00.hstack (← S01.hstack S02)).vstack (← (← S10.hstack (← S11.hstack S12)).vstack (← S20.hstack (← S21.hstack S22)))

/-- The three accumulations of a point (src/FEM/Equation/PlaneStrain.h:290, 308, 310 and 364, 376, 379, Solid.h:118,
142, 144 and 204, 223, 226); `w` are the factors after the product. -/
def nlAddS (BL C : Mat K) (Sv : Vec K) (BNL S : Mat K) (w : List K) (s : Mat K × Vec K) : Option (Mat K × Vec K) := do
  let Ke ← s.1.add (← scaled (← (← (← BL.transpose).mul C).mul BL) w)
  let Ke ← Ke.add (← scaled (← (← (← BNL.transpose).mul S).mul BNL) w)
  let Fe ← s.2.sub (← scaledV (← (← BL.transpose).mulVec Sv) w)
  return (Ke, Fe)

section TotalLagrange
variable [DecidableEq K]

/-- `Z`, `F` and `E` (src/FEM/Equation/PlaneStrain.h:281-282, 292, Solid.h:106-107, 120). -/
def strainS (d : ℕ) (dNdX U : Mat K) : Option (Mat K × Mat K) := do
  let Z ← (← dNdX.mul U).transpose
  let F ← (← Mat.identity d).add Z
  let E ← (← (← Z.add (← Z.transpose)).add (← (← Z.transpose).mul Z)).sdiv 2
  return (F, E)

/-- The part of the loop after `dNdX` (src/FEM/Equation/PlaneStrain.h:281-310). -/
def planeTLBodyS (m : ℕ) (D U dNdX : Mat K) (w : List K) (s : Mat K × Vec K) : Option (Mat K × Vec K) := do
  let (F, E) ← strainS 2 dNdX U
  let BL ← planeBLS m F dNdX
  let E00 ← E.at? 0 0
  let E01 ← E.at? 0 1
  let E10 ← E.at? 1 0
  let E11 ← E.at? 1 1
  let Sv ← D.mulVec ⟨[E00, E11, E01 + E10]⟩
  let BNL ← planeBNLS m dNdX
  let S0 ← Sv.at? 0
  let S1 ← Sv.at? 1
  let S2 ← Sv.at? 2
  let S ← stackS2 S0 S2 S2 S1
  nlAddS BL D Sv BNL S w s

/-- `PlaneStrainStiffnessTotalLagrange` (src/FEM/Equation/PlaneStrain.h:248-312). -/
def planeTLS (sf : SF K 2 n) (ic : IC K 2) (element doulist : List ℕ) (x u : List (Vec K)) (E V _t : K) :
    Option ((Mat K × Vec K) × List (List (ℕ × ℕ))) := do
  let Ke := Mat.zeros (2 * element.length) (2 * element.length)
  let Fe := Vec.zeros (2 * element.length)
  let nte ← tableS 2 element doulist
  let X ← coordsS x element 2
  let U ← coordsS u element 2
  let D ← planeStrainDS E V
  let s ← (List.finRange ic.N).foldlM (fun s g => do
    let dNdr := dense (sf.dNdr (ic.points g))
    let dXdr ← dNdr.mul X
    let J ← dXdr.determinant
    let dNdX ← (← dXdr.inverse).mul dNdr
    planeTLBodyS element.length D U dNdX [J, ic.weights g 0, ic.weights g 1] s) (Ke, Fe)
  return (s, nte)

/-- The part of the loop after `dNdX` (src/FEM/Equation/Solid.h:106-144). -/
def solidTLBodyS (m : ℕ) (C U dNdX : Mat K) (w : List K) (s : Mat K × Vec K) : Option (Mat K × Vec K) := do
  let (F, E) ← strainS 3 dNdX U
  let BL ← solidBLS m F dNdX
  let E00 ← E.at? 0 0
  let E11 ← E.at? 1 1
  let E22 ← E.at? 2 2
  let E01 ← E.at? 0 1
  let E10 ← E.at? 1 0
  let E12 ← E.at? 1 2
  let E21 ← E.at? 2 1
  let E20 ← E.at? 2 0
  let E02 ← E.at? 0 2
  let Sv ← C.mulVec ⟨[E00, E11, E22, E01 + E10, E12 + E21, E20 + E02]⟩
  let BNL ← solidBNLS m dNdX
  let S0 ← Sv.at? 0
  let S1 ← Sv.at? 1
  let S2 ← Sv.at? 2
  let S3 ← Sv.at? 3
  let S4 ← Sv.at? 4
  let S5 ← Sv.at? 5
  let S ← stackS3 S0 S3 S5 S3 S1 S4 S5 S4 S2
  nlAddS BL C Sv BNL S w s

/-- `SolidTotalLagrange` (src/FEM/Equation/Solid.h:69-146). -/
def solidTLS (sf : SF K 3 n) (ic : IC K 3) (element doulist : List ℕ) (x u : List (Vec K)) (E V : K) :
    Option ((Mat K × Vec K) × List (List (ℕ × ℕ))) := do
  let Ke := Mat.zeros (3 * element.length) (3 * element.length)
  let Fe := Vec.zeros (3 * element.length)
  let nte ← tableS 3 element doulist
  let X ← coordsS x element 3
  let U ← coordsS u element 3
  let C ← solidCS E V
  let s ← (List.finRange ic.N).foldlM (fun s g => do
    let dNdr := dense (sf.dNdr (ic.points g))
    let dXdr ← dNdr.mul X
    let J ← dXdr.determinant
    let dNdX ← (← dXdr.inverse).mul dNdr
    solidTLBodyS element.length C U dNdX [J, ic.weights g 0, ic.weights g 1, ic.weights g 2] s) (Ke, Fe)
  return (s, nte)

end TotalLagrange

/-! ### Updated Lagrange -/

/-- `F` and `detF` (src/FEM/Equation/PlaneStrain.h:348-350, Solid.h:183-185); `log(detF)` follows. -/
def deformationS (dNdr X x : Mat ℝ) : Option (Mat ℝ × ℝ) := do
  let F ← (← (← (← (← dNdr.mul X).inverse).mul dNdr).mul x).transpose
  let detF ← F.determinant
  if 0 < detF then some (F, detF) else none

/-- `S` (src/FEM/Equation/PlaneStrain.h:365, Solid.h:206). -/
def cauchyS (d : ℕ) (mu0 lambda0 : ℝ) (F : Mat ℝ) (detF : ℝ) : Option (Mat ℝ) := do
  let A ← (← (← F.mul (← F.transpose)).sub (← Mat.identity d)).smul (mu0 / detF)
  A.add (← (← Mat.identity d).smul (lambda0 * Real.log detF / detF))

/-- `C` (src/FEM/Equation/PlaneStrain.h:353-356). -/
def spatialC2S (l mu : ℝ) : Option (Mat ℝ) :=
  assigns (Mat.zeros 3 3) [(0, 0, some (l + 2 * mu)), (0, 1, some l), (0, 2, some 0),
    (1, 0, some l), (1, 1, some (l + 2 * mu)), (1, 2, some 0), (2, 0, some 0), (2, 1, some 0), (2, 2, some mu)]

/-- `C` (src/FEM/Equation/Solid.h:188-194). -/
def spatialC3S (l mu : ℝ) : Option (Mat ℝ) :=
  assigns (Mat.zeros 6 6)
    [(0, 0, some (l + 2 * mu)), (0, 1, some l), (0, 2, some l), (0, 3, some 0), (0, 4, some 0), (0, 5, some 0),
     (1, 0, some l), (1, 1, some (l + 2 * mu)), (1, 2, some l), (1, 3, some 0), (1, 4, some 0), (1, 5, some 0),
     (2, 0, some l), (2, 1, some l), (2, 2, some (l + 2 * mu)), (2, 3, some 0), (2, 4, some 0), (2, 5, some 0),
     (3, 0, some 0), (3, 1, some 0), (3, 2, some 0), (3, 3, some mu), (3, 4, some 0), (3, 5, some 0),
     (4, 0, some 0), (4, 1, some 0), (4, 2, some 0), (4, 3, some 0), (4, 4, some mu), (4, 5, some 0),
     (5, 0, some 0), (5, 1, some 0), (5, 2, some 0), (5, 3, some 0), (5, 4, some 0), (5, 5, some mu)]

/-- The part of the loop after `dNdx` (src/FEM/Equation/PlaneStrain.h:348-379). -/
def planeULBodyS (m : ℕ) (mu0 lambda0 : ℝ) (dNdr X x dNdx : Mat ℝ) (w : List ℝ) (s : Mat ℝ × Vec ℝ) :
    Option (Mat ℝ × Vec ℝ) := do
  let (F, detF) ← deformationS dNdr X x
  let C ← spatialC2S (lambda0 / detF) ((mu0 - lambda0 * Real.log detF) / detF)
  let BL ← planeBS m dNdx
  let S ← cauchyS 2 mu0 lambda0 F detF
  let BNL ← planeBNLS m dNdx
  let S00 ← S.at? 0 0
  let S01 ← S.at? 0 1
  let S10 ← S.at? 1 0
  let S11 ← S.at? 1 1
  let Sm ← stackS2 S00 S01 S10 S11
  nlAddS BL C ⟨[S00, S11, S01]⟩ BNL Sm w s

/-- `PlaneStrainStiffnessUpdatedLagrange` (src/FEM/Equation/PlaneStrain.h:317-381). -/
def planeULS (sf : SF ℝ 2 n) (ic : IC ℝ 2) (element doulist : List ℕ) (x u : List (Vec ℝ)) (E V _t : ℝ) :
    Option ((Mat ℝ × Vec ℝ) × List (List (ℕ × ℕ))) := do
  let Ke := Mat.zeros (2 * element.length) (2 * element.length)
  let Fe := Vec.zeros (2 * element.length)
  let nte ← tableS 2 element doulist
  let X ← coordsS x element 2
  let U ← coordsS u element 2
  let y ← X.add U
  let mu0 ← div? (1 / 2 * E) (1 + V)
  let lambda0 ← div? (2 * mu0 * V) (1 - 2 * V)
  let s ← (List.finRange ic.N).foldlM (fun s g => do
    let dNdr := dense (sf.dNdr (ic.points g))
    let dxdr ← dNdr.mul y
    let J ← dxdr.determinant
    let dNdx ← (← dxdr.inverse).mul dNdr
    planeULBodyS element.length mu0 lambda0 dNdr X y dNdx [J, ic.weights g 0, ic.weights g 1] s) (Ke, Fe)
  return (s, nte)

/-- The part of the loop after `dNdx` (src/FEM/Equation/Solid.h:183-226). -/
def solidULBodyS (m : ℕ) (mu0 lambda0 : ℝ) (dNdr X x dNdx : Mat ℝ) (w : List ℝ) (s : Mat ℝ × Vec ℝ) :
    Option (Mat ℝ × Vec ℝ) := do
  let (F, detF) ← deformationS dNdr X x
  let C ← spatialC3S (lambda0 / detF) ((mu0 - lambda0 * Real.log detF) / detF)
  let BL ← solidBUS m dNdx
  let S ← cauchyS 3 mu0 lambda0 F detF
  let BNL ← solidBNLS m dNdx
  let S00 ← S.at? 0 0
  let S01 ← S.at? 0 1
  let S02 ← S.at? 0 2
  let S10 ← S.at? 1 0
  let S11 ← S.at? 1 1
  let S12 ← S.at? 1 2
  let S20 ← S.at? 2 0
  let S21 ← S.at? 2 1
  let S22 ← S.at? 2 2
  let Sm ← stackS3 S00 S01 S02 S10 S11 S12 S20 S21 S22
  nlAddS BL C ⟨[S00, S11, S22, S01, S02, S12]⟩ BNL Sm w s

/-- `SolidUpdatedLagrange` (src/FEM/Equation/Solid.h:151-228). -/
def solidULS (sf : SF ℝ 3 n) (ic : IC ℝ 3) (element doulist : List ℕ) (x u : List (Vec ℝ)) (E V : ℝ) :
    Option ((Mat ℝ × Vec ℝ) × List (List (ℕ × ℕ))) := do
  let Ke := Mat.zeros (3 * element.length) (3 * element.length)
  let Fe := Vec.zeros (3 * element.length)
  let nte ← tableS 3 element doulist
  let X ← coordsS x element 3
  let U ← coordsS u element 3
  let y ← X.add U
  let mu0 ← div? (1 / 2 * E) (1 + V)
  let lambda0 ← div? (2 * mu0 * V) (1 - 2 * V)
  let s ← (List.finRange ic.N).foldlM (fun s g => do
    let dNdr := dense (sf.dNdr (ic.points g))
    let dxdr ← dNdr.mul y
    let J ← dxdr.determinant
    let dNdx ← (← dxdr.inverse).mul dNdr
    solidULBodyS element.length mu0 lambda0 dNdr X y dNdx [J, ic.weights g 0, ic.weights g 1, ic.weights g 2] s)
    (Ke, Fe)
  return (s, nte)

/-! ### Pressure that follows the boundary -/

/-- `K` (src/FEM/Equation/PlaneStrain.h:485, 487-491). -/
def pressureKS (m : ℕ) (N : Vec K) (dNdr : Mat K) : Option (Mat K) :=
  fillS (2 * m) (2 * m) m m 0
    (fun i j => do
      let Ni ← N.at? i
      let Nj ← N.at? j
      let di ← dNdr.at? 0 i
      let dj ← dNdr.at? 0 j
      return [(2 * i, 2 * j, 0), (2 * i, 2 * j + 1, di * Nj - Ni * dj), (2 * i + 1, 2 * j, -di * Nj + Ni * dj),
        (2 * i + 1, 2 * j + 1, 0)])
    (fun _ _ => some [])

/-- `F` (src/FEM/Equation/PlaneStrain.h:486, 492-493). -/
def pressureFS (m : ℕ) (N : Vec K) (dxdr : Mat K) : Option (Vec K) :=
  fillVS (2 * m) m 0
    (fun i => do
      let Ni ← N.at? i
      let x0 ← dxdr.at? 0 0
      let x1 ← dxdr.at? 0 1
      return [(2 * i, -Ni * x1), (2 * i + 1, Ni * x0)])
    (fun _ => some [])

/-- `PlaneStrainSurfacePressureUpdatedLagrange` (src/FEM/Equation/PlaneStrain.h:455-498). -/
def pressureULS (sf : SF K 1 n) (ic : IC K 1) (element doulist : List ℕ) (x u : List (Vec K)) (P t : K) :
    Option ((Mat K × Vec K) × List (List (ℕ × ℕ))) := do
  let Ke := Mat.zeros (2 * element.length) (2 * element.length)
  let Fe := Vec.zeros (2 * element.length)
  let nte ← tableS 2 element doulist
  let X ← coordsS x element 2
  let U ← coordsS u element 2
  let y ← X.add U
  let s ← (List.finRange ic.N).foldlM (fun (s : Mat K × Vec K) g => do
    let N := densev (sf.N (ic.points g))
    let dNdr := dense (sf.dNdr (ic.points g))
    let dxdr ← dNdr.mul y
    let A ← pressureKS element.length N dNdr
    let F ← pressureFS element.length N dxdr
    let Ke ← s.1.sub (← scaled A [1 / 2 * P, t, ic.weights g 0])
    let Fe ← s.2.add (← scaledV F [P, t, ic.weights g 0])
    return (Ke, Fe)) (Ke, Fe)
  return (s, nte)

end Pansfem
