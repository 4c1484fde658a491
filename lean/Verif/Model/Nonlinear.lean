/-
Geometrically nonlinear elements: /repo/src/FEM/Equation/PlaneStrain.h:246-381 and 455-498,
Solid.h:66-228.  Conventions as in `Verif/Model/Element.lean`; in addition a row `d*k + a` of `BNL`
(derivative `k`, component `a`) is the pair `(k, a)`.  A routine returns the pair of its `_Ke` and `_Fe`.
`log` is the real logarithm; `log` of a number that is not positive is `none`.
-/
import Verif.Model.Elastic
import Mathlib.Analysis.SpecialFunctions.Log.Basic
import Mathlib.Algebra.Module.Prod

noncomputable section

namespace Pansfem

open Matrix

variable {K : Type} [Field K] {n d : ℕ}

/-- `BL` of `PlaneStrainStiffnessTotalLagrange` (src/FEM/Equation/PlaneStrain.h:283-288). -/
def planeBL (F : Matrix (Fin 2) (Fin 2) K) (dNdX : Matrix (Fin 2) (Fin n) K) :
    Matrix (Fin 3) (Fin n × Fin 2) K :=
  Matrix.of fun r c => ![![F 0 0 * dNdX 0 c.1, F 1 0 * dNdX 0 c.1],
    ![F 0 1 * dNdX 1 c.1, F 1 1 * dNdX 1 c.1],
    ![F 0 1 * dNdX 0 c.1 + F 0 0 * dNdX 1 c.1, F 1 1 * dNdX 0 c.1 + F 1 0 * dNdX 1 c.1]] r c.2

/-- `BL` of `SolidTotalLagrange` (src/FEM/Equation/Solid.h:108-116). -/
def solidBL (F : Matrix (Fin 3) (Fin 3) K) (dNdX : Matrix (Fin 3) (Fin n) K) :
    Matrix (Fin 6) (Fin n × Fin 3) K :=
  Matrix.of fun r c => ![
    ![F 0 0 * dNdX 0 c.1, F 1 0 * dNdX 0 c.1, F 2 0 * dNdX 0 c.1],
    ![F 0 1 * dNdX 1 c.1, F 1 1 * dNdX 1 c.1, F 2 1 * dNdX 1 c.1],
    ![F 0 2 * dNdX 2 c.1, F 1 2 * dNdX 2 c.1, F 2 2 * dNdX 2 c.1],
    ![F 0 1 * dNdX 0 c.1 + F 0 0 * dNdX 1 c.1, F 1 1 * dNdX 0 c.1 + F 1 0 * dNdX 1 c.1,
      F 2 1 * dNdX 0 c.1 + F 2 0 * dNdX 1 c.1],
    ![F 0 2 * dNdX 1 c.1 + F 0 1 * dNdX 2 c.1, F 1 2 * dNdX 1 c.1 + F 1 1 * dNdX 2 c.1,
      F 2 2 * dNdX 1 c.1 + F 2 1 * dNdX 2 c.1],
    ![F 0 0 * dNdX 2 c.1 + F 0 2 * dNdX 0 c.1, F 1 0 * dNdX 2 c.1 + F 1 2 * dNdX 0 c.1,
      F 2 0 * dNdX 2 c.1 + F 2 2 * dNdX 0 c.1]] r c.2

/-- `BL` of `SolidUpdatedLagrange` (src/FEM/Equation/Solid.h:195-203). -/
def solidBU (dNdx : Matrix (Fin 3) (Fin n) K) : Matrix (Fin 6) (Fin n × Fin 3) K :=
  Matrix.of fun r c => ![![dNdx 0 c.1, 0, 0],
    ![0, dNdx 1 c.1, 0],
    ![0, 0, dNdx 2 c.1],
    ![dNdx 1 c.1, dNdx 0 c.1, 0],
    ![dNdx 2 c.1, 0, dNdx 0 c.1],
    ![0, dNdx 2 c.1, dNdx 1 c.1]] r c.2

/-- `BNL` (src/FEM/Equation/PlaneStrain.h:296-302 and 366-372, Solid.h:124-135 and 207-218): row
`d*k + a` holds the derivative `k` in the columns of component `a`. -/
def geoB (dNdX : Matrix (Fin d) (Fin n) K) : Matrix (Fin d × Fin d) (Fin n × Fin d) K :=
  Matrix.of fun r c => if r.2 = c.2 then dNdX r.1 c.1 else 0

/-- The stress matrix built from blocks `S(k, l)*Identity(d)` (src/FEM/Equation/PlaneStrain.h:304-306
and 373-375, Solid.h:137-140 and 219-222). -/
def geoS (S : Matrix (Fin d) (Fin d) K) : Matrix (Fin d × Fin d) (Fin d × Fin d) K :=
  Matrix.of fun r c => S r.1 c.1 * (1 : Matrix (Fin d) (Fin d) K) r.2 c.2

/-- `Z` (src/FEM/Equation/PlaneStrain.h:281, Solid.h:106). -/
def dispGrad (dNdX : Matrix (Fin d) (Fin n) K) (U : Matrix (Fin n) (Fin d) K) :
    Matrix (Fin d) (Fin d) K :=
  (dNdX * U)ᵀ

/-- `E` (src/FEM/Equation/PlaneStrain.h:292, Solid.h:120). -/
def green (Z : Matrix (Fin d) (Fin d) K) : Matrix (Fin d) (Fin d) K :=
  (1 / 2 : K) • (Z + Zᵀ + Zᵀ * Z)

/-- `Ev` (src/FEM/Equation/PlaneStrain.h:293). -/
def voigt2 (E : Matrix (Fin 2) (Fin 2) K) : Fin 3 → K := ![E 0 0, E 1 1, E 0 1 + E 1 0]

/-- `Ev` (src/FEM/Equation/Solid.h:121). -/
def voigt3 (E : Matrix (Fin 3) (Fin 3) K) : Fin 6 → K :=
  ![E 0 0, E 1 1, E 2 2, E 0 1 + E 1 0, E 1 2 + E 2 1, E 2 0 + E 0 2]

/-- The blocks of `S` (src/FEM/Equation/PlaneStrain.h:304-305). -/
def stress2 (Sv : Fin 3 → K) : Matrix (Fin 2) (Fin 2) K :=
  Matrix.of ![![Sv 0, Sv 2], ![Sv 2, Sv 1]]

/-- The blocks of `S` (src/FEM/Equation/Solid.h:137-139). -/
def stress3 (Sv : Fin 6 → K) : Matrix (Fin 3) (Fin 3) K :=
  Matrix.of ![![Sv 0, Sv 3, Sv 5], ![Sv 3, Sv 1, Sv 4], ![Sv 5, Sv 4, Sv 2]]

section TotalLagrange
variable [DecidableEq K]

/-- `PlaneStrainStiffnessTotalLagrange` (src/FEM/Equation/PlaneStrain.h:246-312).  The thickness `_t`
is not used. -/
def planeTL (sf : SF K 2 n) (ic : IC K 2) (X U : Matrix (Fin n) (Fin 2) K) (E V _t : K) :
    Option (Matrix (Fin n × Fin 2) (Fin n × Fin 2) K × (Fin n × Fin 2 → K)) := do
  let D ← planeStrainD E V
  loop2 sf ic X fun _ dNdX =>
    let Z := dispGrad dNdX U
    let BL := planeBL (1 + Z) dNdX
    let Sv := D *ᵥ voigt2 (green Z)
    some (BLᵀ * D * BL + (geoB dNdX)ᵀ * geoS (stress2 Sv) * geoB dNdX, -(BLᵀ *ᵥ Sv))

/-- `SolidTotalLagrange` (src/FEM/Equation/Solid.h:67-146). -/
def solidTL (sf : SF K 3 n) (ic : IC K 3) (X U : Matrix (Fin n) (Fin 3) K) (E V : K) :
    Option (Matrix (Fin n × Fin 3) (Fin n × Fin 3) K × (Fin n × Fin 3 → K)) := do
  let C ← solidC E V
  loop3 sf ic X fun _ dNdX =>
    let Z := dispGrad dNdX U
    let BL := solidBL (1 + Z) dNdX
    let Sv := C *ᵥ voigt3 (green Z)
    some (BLᵀ * C * BL + (geoB dNdX)ᵀ * geoS (stress3 Sv) * geoB dNdX, -(BLᵀ *ᵥ Sv))

end TotalLagrange

/-! ### Updated Lagrange -/

/-- `mu0` and `lambda0` (src/FEM/Equation/PlaneStrain.h:340-341, Solid.h:175-176). -/
def lame (E V : ℝ) : Option (ℝ × ℝ) := do
  let mu0 ← div? (1 / 2 * E) (1 + V)
  return (mu0, ← div? (2 * mu0 * V) (1 - 2 * V))

/-- `F` (src/FEM/Equation/PlaneStrain.h:348, Solid.h:183); `x` is `X + U`.  `none` also when `detF` is
not positive (350-352). -/
def deformation (sf : SF ℝ d n) (X x : Matrix (Fin n) (Fin d) ℝ) (r : Fin d → ℝ) :
    Option (Matrix (Fin d) (Fin d) ℝ) := do
  let F := ((← inv? (jac sf X r)) * sf.dNdr r * x)ᵀ
  if 0 < F.det then some F else none

/-- `S` (src/FEM/Equation/PlaneStrain.h:365, Solid.h:206). -/
def cauchy (mu0 lambda0 : ℝ) (F : Matrix (Fin d) (Fin d) ℝ) : Matrix (Fin d) (Fin d) ℝ :=
  (mu0 / F.det) • (F * Fᵀ - 1) + (lambda0 * Real.log F.det / F.det) • 1

/-- `mu` (src/FEM/Equation/PlaneStrain.h:351, Solid.h:186). -/
def spatialMu (mu0 lambda0 : ℝ) (F : Matrix (Fin d) (Fin d) ℝ) : ℝ :=
  (mu0 - lambda0 * Real.log F.det) / F.det

/-- `lambda` (src/FEM/Equation/PlaneStrain.h:352, Solid.h:187). -/
def spatialLambda (lambda0 : ℝ) (F : Matrix (Fin d) (Fin d) ℝ) : ℝ := lambda0 / F.det

/-- `C` (src/FEM/Equation/PlaneStrain.h:353-356). -/
def spatialC2 (lambda mu : ℝ) : Matrix (Fin 3) (Fin 3) ℝ :=
  Matrix.of ![![lambda + 2 * mu, lambda, 0], ![lambda, lambda + 2 * mu, 0], ![0, 0, mu]]

/-- `C` (src/FEM/Equation/Solid.h:188-194). -/
def spatialC3 (lambda mu : ℝ) : Matrix (Fin 6) (Fin 6) ℝ :=
  Matrix.of ![![lambda + 2 * mu, lambda, lambda, 0, 0, 0],
    ![lambda, lambda + 2 * mu, lambda, 0, 0, 0],
    ![lambda, lambda, lambda + 2 * mu, 0, 0, 0],
    ![0, 0, 0, mu, 0, 0],
    ![0, 0, 0, 0, mu, 0],
    ![0, 0, 0, 0, 0, mu]]

/-- `PlaneStrainStiffnessUpdatedLagrange` (src/FEM/Equation/PlaneStrain.h:315-381).  The thickness `_t`
is not used. -/
def planeUL (sf : SF ℝ 2 n) (ic : IC ℝ 2) (X U : Matrix (Fin n) (Fin 2) ℝ) (E V _t : ℝ) :
    Option (Matrix (Fin n × Fin 2) (Fin n × Fin 2) ℝ × (Fin n × Fin 2 → ℝ)) := do
  let (mu0, lambda0) ← lame E V
  loop2 sf ic (X + U) fun r dNdx => do
    let F ← deformation sf X (X + U) r
    let C := spatialC2 (spatialLambda lambda0 F) (spatialMu mu0 lambda0 F)
    let S := cauchy mu0 lambda0 F
    some ((planeB dNdx)ᵀ * C * planeB dNdx + (geoB dNdx)ᵀ * geoS S * geoB dNdx,
      -((planeB dNdx)ᵀ *ᵥ ![S 0 0, S 1 1, S 0 1]))

/-- `SolidUpdatedLagrange` (src/FEM/Equation/Solid.h:149-228). -/
def solidUL (sf : SF ℝ 3 n) (ic : IC ℝ 3) (X U : Matrix (Fin n) (Fin 3) ℝ) (E V : ℝ) :
    Option (Matrix (Fin n × Fin 3) (Fin n × Fin 3) ℝ × (Fin n × Fin 3 → ℝ)) := do
  let (mu0, lambda0) ← lame E V
  loop3 sf ic (X + U) fun r dNdx => do
    let F ← deformation sf X (X + U) r
    let C := spatialC3 (spatialLambda lambda0 F) (spatialMu mu0 lambda0 F)
    let S := cauchy mu0 lambda0 F
    some ((solidBU dNdx)ᵀ * C * solidBU dNdx + (geoB dNdx)ᵀ * geoS S * geoB dNdx,
      -((solidBU dNdx)ᵀ *ᵥ ![S 0 0, S 1 1, S 2 2, S 0 1, S 0 2, S 1 2]))

/-! ### Pressure that follows the boundary -/

/-- `K` (src/FEM/Equation/PlaneStrain.h:485-491). -/
def pressureM (N : Fin n → K) (dNdr : Matrix (Fin 1) (Fin n) K) :
    Matrix (Fin n × Fin 2) (Fin n × Fin 2) K :=
  Matrix.of fun r c => ![![0, dNdr 0 r.1 * N c.1 - N r.1 * dNdr 0 c.1],
    ![-dNdr 0 r.1 * N c.1 + N r.1 * dNdr 0 c.1, 0]] r.2 c.2

/-- `F` (src/FEM/Equation/PlaneStrain.h:486-494). -/
def pressureV (N : Fin n → K) (dxdr : Matrix (Fin 1) (Fin 2) K) : Fin n × Fin 2 → K :=
  fun r => ![-N r.1 * dxdr 0 1, N r.1 * dxdr 0 0] r.2

/-- `PlaneStrainSurfacePressureUpdatedLagrange` (src/FEM/Equation/PlaneStrain.h:455-498). -/
def pressureUL (sf : SF K 1 n) (ic : IC K 1) (X U : Matrix (Fin n) (Fin 2) K) (P t : K) :
    Option (Matrix (Fin n × Fin 2) (Fin n × Fin 2) K × (Fin n × Fin 2 → K)) :=
  gauss ic.N fun g =>
    let N := sf.N (ic.points g)
    let dNdr := sf.dNdr (ic.points g)
    some (-((1 / 2 * P * t * ic.weights g 0) • pressureM N dNdr),
      (P * t * ic.weights g 0) • pressureV N (dNdr * (X + U)))

end Pansfem
