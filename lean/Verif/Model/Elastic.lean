/-
Linear elasticity, conduction and diffusion elements: /repo/src/FEM/Equation/PlaneStrain.h,
PlaneStress.h, Homogenization.h, Solid.h, Truss.h, HeatTransfer.h, ReactionDiffusion.h.
Conventions as in `Verif/Model/Element.lean`.
-/
import Verif.Model.Element

noncomputable section

namespace Pansfem

open Matrix

variable {K : Type} [Field K] {n : ℕ}

/-! ### Strain-displacement matrices and constitutive matrices -/

/-- `B` of a plane element (src/FEM/Equation/PlaneStrain.h:49-54, and wherever the same lines
occur). -/
def planeB (dNdX : Matrix (Fin 2) (Fin n) K) : Matrix (Fin 3) (Fin n × Fin 2) K :=
  Matrix.of fun r c => ![![dNdX 0 c.1, 0], ![0, dNdX 1 c.1], ![dNdX 1 c.1, dNdX 0 c.1]] r c.2

/-- `Bvol` (src/FEM/Equation/PlaneStrain.h:157-162, Homogenization.h:200-205). -/
def planeBvol (dNdX : Matrix (Fin 2) (Fin n) K) : Matrix (Fin 3) (Fin n × Fin 2) K :=
  Matrix.of fun r c => ![![1 / 2 * dNdX 0 c.1, 1 / 2 * dNdX 1 c.1],
    ![1 / 2 * dNdX 0 c.1, 1 / 2 * dNdX 1 c.1], ![0, 0]] r c.2

/-- `Bdev` (src/FEM/Equation/PlaneStrain.h:174-179, Homogenization.h:217-222). -/
def planeBdev (dNdX : Matrix (Fin 2) (Fin n) K) : Matrix (Fin 3) (Fin n × Fin 2) K :=
  Matrix.of fun r c => ![![1 / 2 * dNdX 0 c.1, -(1 / 2) * dNdX 1 c.1],
    ![-(1 / 2) * dNdX 0 c.1, 1 / 2 * dNdX 1 c.1], ![dNdX 1 c.1, dNdX 0 c.1]] r c.2

/-- The matrix `B` of shape functions of a plane element (src/FEM/Equation/PlaneStrain.h:408-412). -/
def planeN (N : Fin n → K) : Matrix (Fin 2) (Fin n × Fin 2) K :=
  Matrix.of fun r c => ![![N c.1, 0], ![0, N c.1]] r c.2

/-- `B` of a solid element (src/FEM/Equation/Solid.h:52-60). -/
def solidB (dNdX : Matrix (Fin 3) (Fin n) K) : Matrix (Fin 6) (Fin n × Fin 3) K :=
  Matrix.of fun r c => ![![dNdX 0 c.1, 0, 0],
    ![0, dNdX 1 c.1, 0],
    ![0, 0, dNdX 2 c.1],
    ![dNdX 1 c.1, dNdX 0 c.1, 0],
    ![0, dNdX 2 c.1, dNdX 1 c.1],
    ![dNdX 2 c.1, 0, dNdX 0 c.1]] r c.2

/-- `D` before scaling (src/FEM/Equation/PlaneStrain.h:37-40). -/
def planeStrainD0 (V : K) : Matrix (Fin 3) (Fin 3) K :=
  Matrix.of ![![1 - V, V, 0], ![V, 1 - V, 0], ![0, 0, 1 / 2 * (1 - 2 * V)]]

/-- `D` of plane strain (src/FEM/Equation/PlaneStrain.h:37-41). -/
def planeStrainD [DecidableEq K] (E V : K) : Option (Matrix (Fin 3) (Fin 3) K) := do
  return (← div? E ((1 - 2 * V) * (1 + V))) • planeStrainD0 V

/-- `Dvol` (src/FEM/Equation/PlaneStrain.h:80-84). -/
def planeStrainDvol [DecidableEq K] (E V : K) : Option (Matrix (Fin 3) (Fin 3) K) := do
  return (← div? E (3 * (1 - 2 * V))) • Matrix.of ![![1, 1, 0], ![1, 1, 0], ![0, 0, 0]]

/-- `Ddev` (src/FEM/Equation/PlaneStrain.h:103-107). -/
def planeStrainDdev [DecidableEq K] (E V : K) : Option (Matrix (Fin 3) (Fin 3) K) := do
  return (← div? E (6 * (1 + V))) • Matrix.of ![![4, -2, 0], ![-2, 4, 0], ![0, 0, 3]]

/-- `D` before scaling (src/FEM/Equation/PlaneStress.h:37-40). -/
def planeStressD0 (V : K) : Matrix (Fin 3) (Fin 3) K :=
  Matrix.of ![![1, V, 0], ![V, 1, 0], ![0, 0, 1 / 2 * (1 - V)]]

/-- `D` of plane stress (src/FEM/Equation/PlaneStress.h:37-41). -/
def planeStressD [DecidableEq K] (E V : K) : Option (Matrix (Fin 3) (Fin 3) K) := do
  return (← div? E ((1 - V) * (1 + V))) • planeStressD0 V

/-- `C` before scaling (src/FEM/Equation/Solid.h:37-43). -/
def solidC0 (V : K) : Matrix (Fin 6) (Fin 6) K :=
  Matrix.of ![![1 - V, V, V, 0, 0, 0],
    ![V, 1 - V, V, 0, 0, 0],
    ![V, V, 1 - V, 0, 0, 0],
    ![0, 0, 0, 1 / 2 * (1 - 2 * V), 0, 0],
    ![0, 0, 0, 0, 1 / 2 * (1 - 2 * V), 0],
    ![0, 0, 0, 0, 0, 1 / 2 * (1 - 2 * V)]]

/-- `C` of a solid (src/FEM/Equation/Solid.h:37-44). -/
def solidC [DecidableEq K] (E V : K) : Option (Matrix (Fin 6) (Fin 6) K) := do
  return (← div? E ((1 + V) * (1 - 2 * V))) • solidC0 V

/-! ### Stiffness matrices -/

section Plane
variable [DecidableEq K] (sf : SF K 2 n) (ic icV icD : IC K 2) (X : Matrix (Fin n) (Fin 2) K)

/-- `PlaneStiffness` (src/FEM/Equation/Homogenization.h:142-173); the loops of
`PlaneStrainStiffness` (PlaneStrain.h:43-57) and `PlaneStressStiffness` (PlaneStress.h:43-57) are the
same. -/
def planeStiffness (D : Matrix (Fin 3) (Fin 3) K) (t : K) :
    Option (Matrix (Fin n × Fin 2) (Fin n × Fin 2) K) :=
  loop2 sf ic X fun _ dNdX => some (t • ((planeB dNdX)ᵀ * D * planeB dNdX))

/-- `PlaneStrainStiffness` (src/FEM/Equation/PlaneStrain.h:21-58). -/
def planeStrainStiffness (E V t : K) : Option (Matrix (Fin n × Fin 2) (Fin n × Fin 2) K) := do
  planeStiffness sf ic X (← planeStrainD E V) t

/-- `PlaneStressStiffness` (src/FEM/Equation/PlaneStress.h:21-58). -/
def planeStressStiffness (E V t : K) : Option (Matrix (Fin n × Fin 2) (Fin n × Fin 2) K) := do
  planeStiffness sf ic X (← planeStressD E V) t

/-- `PlaneStrainStiffnessSRI` (src/FEM/Equation/PlaneStrain.h:63-124). -/
def planeStrainStiffnessSRI (E V t : K) : Option (Matrix (Fin n × Fin 2) (Fin n × Fin 2) K) := do
  let Dvol ← planeStrainDvol E V
  let Kvol ← loop2 sf icV X fun _ dNdX => some (t • ((planeB dNdX)ᵀ * Dvol * planeB dNdX))
  let Ddev ← planeStrainDdev E V
  let Kdev ← loop2 sf icD X fun _ dNdX => some (t • ((planeB dNdX)ᵀ * Ddev * planeB dNdX))
  return Kvol + Kdev

/-- `PlaneStiffnessBbar` (src/FEM/Equation/Homogenization.h:178-227). -/
def planeStiffnessBbar (D : Matrix (Fin 3) (Fin 3) K) (t : K) :
    Option (Matrix (Fin n × Fin 2) (Fin n × Fin 2) K) := do
  let Kvol ← loop2 sf icV X fun _ dNdX => some (t • ((planeBvol dNdX)ᵀ * D * planeBvol dNdX))
  let Kdev ← loop2 sf icD X fun _ dNdX => some (t • ((planeBdev dNdX)ᵀ * D * planeBdev dNdX))
  return Kvol + Kdev

/-- `PlaneStrainStiffnessBbar` (src/FEM/Equation/PlaneStrain.h:129-184). -/
def planeStrainStiffnessBbar (E V t : K) : Option (Matrix (Fin n × Fin 2) (Fin n × Fin 2) K) := do
  planeStiffnessBbar sf icV icD X (← planeStrainD E V) t

/-- `G` of the incompatible modes (src/FEM/Equation/PlaneStrain.h:227-234, Homogenization.h:264-271)
at the point `r`, from the inverse Jacobian. -/
def planeG (r : Fin 2 → K) (dXdrInv : Matrix (Fin 2) (Fin 2) K) : Matrix (Fin 3) (Fin 4) K :=
  let dPdX := dXdrInv * Matrix.of ![![-2 * r 0, 0], ![0, -2 * r 1]]
  Matrix.of ![![dPdX 0 0, 0, dPdX 0 1, 0],
    ![0, dPdX 1 0, 0, dPdX 1 1],
    ![dPdX 1 0, dPdX 0 0, dPdX 1 1, dPdX 0 1]]

/-- `PlaneStiffnessWilsonTaylor` (src/FEM/Equation/Homogenization.h:232-280). -/
def planeStiffnessWilsonTaylor (D : Matrix (Fin 3) (Fin 3) K) (t : K) :
    Option (Matrix (Fin n × Fin 2) (Fin n × Fin 2) K) := do
  let Ke ← loop2 sf ic X fun _ dNdX => some (t • ((planeB dNdX)ᵀ * D * planeB dNdX))
  let Keaa ← loop2 sf ic X fun r _ => do
    let G := planeG r (← inv? (jac sf X r))
    return t • (Gᵀ * D * G)
  let Kead ← loop2 sf ic X fun r dNdX => do
    let G := planeG r (← inv? (jac sf X r))
    return t • (Gᵀ * D * planeB dNdX)
  return Ke - Keadᵀ * (← inv? Keaa) * Kead

/-- `PlaneStrainStiffnessWilsonTaylor` (src/FEM/Equation/PlaneStrain.h:189-243). -/
def planeStrainStiffnessWilsonTaylor (E V t : K) :
    Option (Matrix (Fin n × Fin 2) (Fin n × Fin 2) K) := do
  planeStiffnessWilsonTaylor sf ic X (← planeStrainD E V) t

/-- `HomogenizePlaneStrainBodyForce` (src/FEM/Equation/Homogenization.h:21-57). -/
def homogenizeBodyForce (E V t : K) : Option (Matrix (Fin n × Fin 2) (Fin 3) K) := do
  let D ← planeStrainD E V
  loop2 sf ic X fun _ dNdX => some (t • ((planeB dNdX)ᵀ * D))

/-- `HomogenizePlaneStrainConstitutive` (src/FEM/Equation/Homogenization.h:62-101); `CHI` holds the
three characteristic displacements as columns. -/
def homogenizeConstitutive (CHI : Matrix (Fin n × Fin 2) (Fin 3) K) (E V t : K) :
    Option (Matrix (Fin 3) (Fin 3) K) := do
  let D ← planeStrainD E V
  loop2 sf ic X fun _ dNdX => some (t • (D * (1 - planeB dNdX * CHI)))

/-- `HomogenizePlaneStrainCheck` (src/FEM/Equation/Homogenization.h:106-137). -/
def homogenizeCheck (CHI : Matrix (Fin n × Fin 2) (Fin 3) K) (t : K) :
    Option (Matrix (Fin 3) (Fin 3) K) :=
  loop2 sf ic X fun _ dNdX => some (t • (-planeB dNdX * CHI))

end Plane

/-- `SolidLinearIsotropicElastic` (src/FEM/Equation/Solid.h:21-64). -/
def solidStiffness [DecidableEq K] (sf : SF K 3 n) (ic : IC K 3) (X : Matrix (Fin n) (Fin 3) K)
    (E V : K) : Option (Matrix (Fin n × Fin 3) (Fin n × Fin 3) K) := do
  let C ← solidC E V
  loop3 sf ic X fun _ dNdX => some ((solidB dNdX)ᵀ * C * solidB dNdX)

/-- `Truss2D` (src/FEM/Equation/Truss.h:21-40) for the coordinates `X` of its two nodes; rows and
columns are `x1, y1, x2, y2`. -/
def truss2D (X : Matrix (Fin 2) (Fin 2) ℝ) (E A : ℝ) :
    Option (Matrix (Fin 4) (Fin 4) ℝ) := do
  let dx := X 1 0 - X 0 0
  let dy := X 1 1 - X 0 1
  let l := Real.sqrt (dx ^ 2 + dy ^ 2)
  let c ← div? dx l
  let s ← div? dy l
  let k ← div? (E * A) l
  return Matrix.of ![![k * c * c, k * c * s, -k * c * c, -k * c * s],
    ![k * c * s, k * s * s, -k * c * s, -k * s * s],
    ![-k * c * c, -k * c * s, k * c * c, k * c * s],
    ![-k * c * s, -k * s * s, k * c * s, k * s * s]]

/-! ### Mass matrices and loads -/

/-- `PlaneStrainMass` (src/FEM/Equation/PlaneStrain.h:386-416) and `PlaneStressMass`
(PlaneStress.h:63-93). -/
def planeMass (sf : SF K 2 n) (ic : IC K 2) (X : Matrix (Fin n) (Fin 2) K) (rho t : K) :
    Option (Matrix (Fin n × Fin 2) (Fin n × Fin 2) K) :=
  loop2J sf ic X fun r => (rho * t) • ((planeN (sf.N r))ᵀ * planeN (sf.N r))

/-- `PlaneStrainBodyForce` (src/FEM/Equation/PlaneStrain.h:503-534) and `PlaneStressBodyForce`
(PlaneStress.h:134-165). -/
def planeBodyForce (sf : SF K 2 n) (ic : IC K 2) (X : Matrix (Fin n) (Fin 2) K)
    (f : (Fin 2 → K) → Fin 2 → K) (t : K) : Option (Fin n × Fin 2 → K) :=
  loop2J sf ic X fun r => t • ((planeN (sf.N r))ᵀ *ᵥ f (Xᵀ *ᵥ sf.N r))

/-- `PlaneStrainSurfaceForce` (src/FEM/Equation/PlaneStrain.h:421-452) and `PlaneStressSurfaceForce`
(PlaneStress.h:98-129). -/
def planeSurfaceForce (sf : SF ℝ 1 n) (ic : IC ℝ 1) (X : Matrix (Fin n) (Fin 2) ℝ)
    (f : (Fin 2 → ℝ) → Fin 2 → ℝ) (t : ℝ) : Option (Fin n × Fin 2 → ℝ) :=
  loop1 sf ic X fun r => t • ((planeN (sf.N r))ᵀ *ᵥ f (Xᵀ *ᵥ sf.N r))

/-! ### Conduction and diffusion -/

section Scalar
variable (sf : SF K 2 n) (ic : IC K 2) (X : Matrix (Fin n) (Fin 2) K)

/-- `HeatTransfer` (src/FEM/Equation/HeatTransfer.h:20-43). -/
def heatTransfer [DecidableEq K] (alpha t : K) : Option (Matrix (Fin n) (Fin n) K) :=
  loop2 sf ic X fun _ B => some ((alpha * t) • (Bᵀ * B))

/-- `HeatCapacity` (src/FEM/Equation/HeatTransfer.h:48-71). -/
def heatCapacity (rho c t : K) : Option (Matrix (Fin n) (Fin n) K) :=
  loop2J sf ic X fun r => (rho * c * t) • vecMulVec (sf.N r) (sf.N r)

/-- `HeatTransferSurfaceFlux` (src/FEM/Equation/HeatTransfer.h:76-99). -/
def heatSurfaceFlux (sf : SF ℝ 1 n) (ic : IC ℝ 1) (X : Matrix (Fin n) (Fin 2) ℝ)
    (f : (Fin 2 → ℝ) → ℝ) (t : ℝ) : Option (Fin n → ℝ) :=
  loop1 sf ic X fun r => (f (Xᵀ *ᵥ sf.N r) * t) • sf.N r

/-- `ReactionDiffusionConsistentMass` (src/FEM/Equation/ReactionDiffusion.h:21-43).  The gradient is
computed although it is not used. -/
def rdConsistentMass [DecidableEq K] : Option (Matrix (Fin n) (Fin n) K) :=
  loop2 sf ic X fun r _ => some (vecMulVec (sf.N r) (sf.N r))

/-- `ReactionDiffusionLumpedMass` (src/FEM/Equation/ReactionDiffusion.h:48-70). -/
def rdLumpedMass [DecidableEq K] : Option (Matrix (Fin n) (Fin n) K) := do
  return (← div? (area sf ic X) (n : K)) • (1 : Matrix (Fin n) (Fin n) K)

/-- `ReactionDiffusionStiffness` (src/FEM/Equation/ReactionDiffusion.h:75-96) and `Diffusion`
(Advection.h:136-158). -/
def rdStiffness [DecidableEq K] (D : K) : Option (Matrix (Fin n) (Fin n) K) :=
  loop2 sf ic X fun _ dNdX => some (D • (dNdXᵀ * dNdX))

/-- `ReactionDiffusionReaction` (src/FEM/Equation/ReactionDiffusion.h:101-132). -/
def rdReaction [DecidableEq K] (U : Fin n → K) (f : K → (Fin 2 → K) → K) : Option (Fin n → K) :=
  loop2 sf ic X fun r dNdX => some (f (sf.N r ⬝ᵥ U) (dNdX *ᵥ U) • sf.N r)

end Scalar

end Pansfem
