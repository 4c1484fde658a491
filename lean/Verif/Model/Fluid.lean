/-
Fluids: /repo/src/FEM/Equation/Stokes.h, NavierStokes.h, Advection.h.  Conventions as in
`Verif/Model/Element.lean`.

* The local unknowns of a mixed element are `u` of the `m` velocity nodes, `v` of the velocity nodes and
  `p` of the `n` pressure nodes, in this order (`i`, `m + i`, `2*m + j` in the code).
* `Xu` (gathered by some routines) is never used for the geometry: the Jacobian is that of the pressure
  nodes `Xp`.
* Entries of `K` which the code leaves untouched are zero (src/LinearAlgebra/Models/Matrix.h:105-109).
-/
import Verif.Model.Elastic

noncomputable section

namespace Pansfem

open Matrix

variable {K : Type} [Field K] {m n : ℕ}

/-- The local unknowns of a mixed element (src/FEM/Equation/Stokes.h:28-36). -/
abbrev Flu (m n : ℕ) : Type := (Fin m ⊕ Fin m) ⊕ Fin n

/-- A matrix over the local unknowns from the tables the code fills entry by entry: rows and columns
`i`, `i + m`, `j + 2*m` (src/FEM/Equation/NavierStokes.h:81-95). -/
def fluM (uu uv vu vv : Fin m → Fin m → K) (up vp : Fin m → Fin n → K) (pu pv : Fin n → Fin m → K)
    (pp : Fin n → Fin n → K) : Matrix (Flu m n) (Flu m n) K :=
  Matrix.of fun r c => match r, c with
    | .inl (.inl i), .inl (.inl j) => uu i j
    | .inl (.inl i), .inl (.inr j) => uv i j
    | .inl (.inr i), .inl (.inl j) => vu i j
    | .inl (.inr i), .inl (.inr j) => vv i j
    | .inl (.inl i), .inr j => up i j
    | .inl (.inr i), .inr j => vp i j
    | .inr i, .inl (.inl j) => pu i j
    | .inr i, .inl (.inr j) => pv i j
    | .inr i, .inr j => pp i j

/-- A vector over the local unknowns (src/FEM/Equation/NavierStokes.h:98-105). -/
def fluV (u v : Fin m → K) (p : Fin n → K) : Flu m n → K
  | .inl (.inl i) => u i
  | .inl (.inr i) => v i
  | .inr j => p j

/-- Number of a local unknown (src/FEM/Equation/Stokes.h:28-36). -/
def fluIdx : Flu m n → ℕ
  | .inl (.inl i) => i
  | .inl (.inr i) => m + i
  | .inr j => 2 * m + j

variable {M : Type} [AddCommMonoid M] [Module K M]

/-- The loop over the integration points of a mixed element with gradients (src/FEM/Equation/
Stokes.h:48-73, NavierStokes.h:62-108): `f` is given `M`, `dMdX`, `N`, `dNdX`. -/
def loopF [DecidableEq K] (sfu : SF K 2 m) (sfp : SF K 2 n) (ic : IC K 2) (Xp : Matrix (Fin n) (Fin 2) K)
    (f : (Fin m → K) → Matrix (Fin 2) (Fin m) K → (Fin n → K) → Matrix (Fin 2) (Fin n) K → Option M) :
    Option M :=
  gauss ic.N fun g => do
    let r := ic.points g
    let I ← inv? (jac sfp Xp r)
    return ((jac sfp Xp r).det * ic.weights g 0 * ic.weights g 1) •
      (← f (sfu.N r) (I * sfu.dNdr r) (sfp.N r) (I * sfp.dNdr r))

variable (sfu : SF K 2 m) (sfp : SF K 2 n) (ic : IC K 2) (Xp : Matrix (Fin n) (Fin 2) K)

/-! ### Stokes -/

/-- `StokesStiffness` (src/FEM/Equation/Stokes.h:20-74). -/
def stokesStiffness [DecidableEq K] (mu : K) : Option (Matrix (Flu m n) (Flu m n) K) :=
  loopF sfu sfp ic Xp fun _ dM N _ => some (fluM
    (fun i j => 2 * mu * dM 0 i * dM 0 j + mu * dM 1 i * dM 1 j)
    (fun i j => mu * dM 0 i * dM 1 j)
    (fun i j => mu * dM 1 i * dM 0 j)
    (fun i j => mu * dM 0 i * dM 0 j + 2 * mu * dM 1 i * dM 1 j)
    (fun i j => -N j * dM 0 i)
    (fun i j => -N j * dM 1 i)
    (fun j i => -N j * dM 0 i)
    (fun j i => -N j * dM 1 i)
    (fun _ _ => 0))

/-- `StokesMass` (src/FEM/Equation/Stokes.h:79-123) and `NavierStokesConsistentMass`
(NavierStokes.h:167-205). -/
def stokesMass (rho : K) : Option (Matrix (Flu m n) (Flu m n) K) :=
  loop2J sfp ic Xp fun r => fluM (fun i j => rho * sfu.N r i * sfu.N r j) (fun _ _ => 0) (fun _ _ => 0)
    (fun i j => rho * sfu.N r i * sfu.N r j) (fun _ _ => 0) (fun _ _ => 0) (fun _ _ => 0) (fun _ _ => 0)
    (fun _ _ => 0)

/-- `StokesBodyForce` (src/FEM/Equation/Stokes.h:177-215) and `NavierStokesBodyForce`
(NavierStokes.h:491-529). -/
def stokesBodyForce (f : (Fin 2 → K) → Fin 2 → K) : Option (Flu m n → K) :=
  loop2J sfp ic Xp fun r => fluV (fun i => f (Xpᵀ *ᵥ sfp.N r) 0 * sfu.N r i)
    (fun i => f (Xpᵀ *ᵥ sfp.N r) 1 * sfu.N r i) (fun _ => 0)

/-- `StokesSurfaceForce` (src/FEM/Equation/Stokes.h:128-172). -/
def stokesSurfaceForce (sfu : SF ℝ 1 m) (sfp : SF ℝ 1 n) (ic : IC ℝ 1) (Xp : Matrix (Fin n) (Fin 2) ℝ)
    (f : (Fin 2 → ℝ) → Fin 2 → ℝ) : Option (Flu m n → ℝ) :=
  loop1 sfp ic Xp fun r => fluV (fun i => sfu.N r i * f (Xpᵀ *ᵥ sfp.N r) 0)
    (fun i => sfu.N r i * f (Xpᵀ *ᵥ sfp.N r) 1) (fun _ => 0)

/-- `BrinkmanBodyForce` (src/FEM/Equation/Stokes.h:220-258) and `NavierStokesBrinkmanBodyForce`
(NavierStokes.h:835-872). -/
def brinkman (k : Matrix (Fin 2) (Fin 2) K) : Option (Matrix (Flu m n) (Flu m n) K) :=
  loop2J sfp ic Xp fun r => fluM (fun i j => sfu.N r i * k 0 0 * sfu.N r j)
    (fun i j => sfu.N r i * k 0 1 * sfu.N r j) (fun i j => sfu.N r i * k 1 0 * sfu.N r j)
    (fun i j => sfu.N r i * k 1 1 * sfu.N r j) (fun _ _ => 0) (fun _ _ => 0) (fun _ _ => 0)
    (fun _ _ => 0) (fun _ _ => 0)

/-! ### Navier-Stokes -/

/-- `K` of `NavierStokesTangent` at an integration point (src/FEM/Equation/NavierStokes.h:81-95); `U`
and `dU` are velocity and velocity gradient there (75-76). -/
def nsTangentK (rho mu : K) (U : Fin 2 → K) (dU : Matrix (Fin 2) (Fin 2) K) (M : Fin m → K)
    (dM : Matrix (Fin 2) (Fin m) K) (N : Fin n → K) : Matrix (Flu m n) (Flu m n) K :=
  fluM
    (fun i j => rho * M i * M j * dU 0 0 + rho * M i * dM 0 j * U 0 + rho * M i * dM 1 j * U 1
      + 2 * mu * dM 0 i * dM 0 j + mu * dM 1 i * dM 1 j + mu * dM 1 i * dM 0 j)
    (fun i j => rho * M i * M j * dU 1 0)
    (fun i j => rho * M i * M j * dU 0 1)
    (fun i j => rho * M i * M j * dU 1 1 + rho * M i * dM 1 j * U 1 + rho * M i * dM 0 j * U 0
      + mu * dM 0 i * dM 1 j + mu * dM 0 i * dM 0 j + 2 * mu * dM 1 i * dM 1 j)
    (fun i j => -dM 0 i * N j)
    (fun i j => -dM 1 i * N j)
    (fun j i => N j * dM 0 i)
    (fun j i => N j * dM 1 i)
    (fun _ _ => 0)

/-- `F` of `NavierStokesTangent` at an integration point (src/FEM/Equation/NavierStokes.h:98-105); `P`
is the pressure there. -/
def nsTangentF (rho mu : K) (U : Fin 2 → K) (dU : Matrix (Fin 2) (Fin 2) K) (P : K) (M : Fin m → K)
    (dM : Matrix (Fin 2) (Fin m) K) (N : Fin n → K) : Flu m n → K :=
  fluV
    (fun i => rho * M i * U 0 * dU 0 0 + rho * M i * U 1 * dU 1 0 + 2 * mu * dM 0 i * dU 0 0
      + mu * dM 1 i * dU 1 0 + mu * dM 1 i * dU 0 1 - dM 0 i * P)
    (fun i => rho * M i * U 0 * dU 0 1 + rho * M i * U 1 * dU 1 1 + mu * dM 0 i * dU 1 0
      + mu * dM 0 i * dU 0 1 + 2 * mu * dM 1 i * dU 1 1 - dM 1 i * P)
    (fun i => N i * dU 0 0 + N i * dU 1 1)

/-- `_Ke` of `NavierStokesTangent` (src/FEM/Equation/NavierStokes.h:26-108) for the nodal velocities
`u`. -/
def nsTangent [DecidableEq K] (u : Matrix (Fin m) (Fin 2) K) (rho mu : K) :
    Option (Matrix (Flu m n) (Flu m n) K) :=
  loopF sfu sfp ic Xp fun M dM N _ => some (nsTangentK rho mu (uᵀ *ᵥ M) (dM * u) M dM N)

/-- `_Fe` of `NavierStokesTangent` (src/FEM/Equation/NavierStokes.h:26-108) for the nodal velocities
`u` and pressures `p`; the code subtracts `F*J*w*w`. -/
def nsTangentForce [DecidableEq K] (u : Matrix (Fin m) (Fin 2) K) (p : Fin n → K) (rho mu : K) :
    Option (Flu m n → K) :=
  loopF sfu sfp ic Xp fun M dM N _ => some (-nsTangentF rho mu (uᵀ *ᵥ M) (dM * u) (p ⬝ᵥ N) M dM N)

/-- `NavierStokesStiffness` (src/FEM/Equation/NavierStokes.h:113-162) for the advection velocities
`ubar`. -/
def nsStiffness [DecidableEq K] (ubar : Matrix (Fin m) (Fin 2) K) (rho mu : K) :
    Option (Matrix (Flu m n) (Flu m n) K) :=
  loopF sfu sfp ic Xp fun M dM _ _ =>
    let U := ubarᵀ *ᵥ M
    some (fluM
      (fun i j => rho * (M i * dM 0 j * U 0 + M i * dM 1 j * U 1)
        + mu * (2 * dM 0 i * dM 0 j + dM 1 i * dM 1 j))
      (fun i j => mu * dM 1 i * dM 0 j)
      (fun i j => mu * dM 0 i * dM 1 j)
      (fun i j => rho * (M i * dM 1 j * U 1 + M i * dM 0 j * U 0)
        + mu * (dM 0 i * dM 0 j + 2 * dM 1 i * dM 1 j))
      (fun _ _ => 0) (fun _ _ => 0) (fun _ _ => 0) (fun _ _ => 0) (fun _ _ => 0))

/-- `ContinuityStiffness` (src/FEM/Equation/NavierStokes.h:210-252). -/
def continuity [DecidableEq K] : Option (Matrix (Flu m n) (Flu m n) K) :=
  loopF sfu sfp ic Xp fun _ dM N _ => some (fluM (fun _ _ => 0) (fun _ _ => 0) (fun _ _ => 0)
    (fun _ _ => 0) (fun i j => -dM 0 i * N j) (fun i j => -dM 1 i * N j) (fun j i => N j * dM 0 i)
    (fun j i => N j * dM 1 i) (fun _ _ => 0))

/-- `NavierStokesAdjoint` (src/FEM/Equation/NavierStokes.h:758-830). -/
def nsAdjoint [DecidableEq K] (u : Matrix (Fin m) (Fin 2) K) (rho mu : K) :
    Option (Matrix (Flu m n) (Flu m n) K) :=
  loopF sfu sfp ic Xp fun M dM N _ =>
    let U := uᵀ *ᵥ M
    let dU := dM * u
    some (fluM
      (fun i j => rho * (M i * M j * dU 0 0 + dM 0 i * U 0 * M j + dM 1 i * U 1 * M j)
        + mu * (2 * dM 0 i * dM 0 j + dM 1 i * dM 1 j))
      (fun i j => rho * M i * M j * dU 0 1 + mu * dM 1 i * dM 0 j)
      (fun i j => rho * M i * M j * dU 1 0 + mu * dM 0 i * dM 1 j)
      (fun i j => rho * (dM 0 i * U 0 * M j + M i * M j * dU 1 1 + dM 1 i * U 1 * M j)
        + mu * (dM 0 i * dM 0 j + 2 * dM 1 i * dM 1 j))
      (fun i j => -dM 0 i * N j)
      (fun i j => -dM 1 i * N j)
      (fun j i => N j * dM 0 i)
      (fun j i => N j * dM 1 i)
      (fun _ _ => 0))

/-! ### SUPG and PSPG -/

/-- The element length `he` (src/FEM/Equation/NavierStokes.h:304-314, 382-392, 461-471). -/
def supgLength (U : Fin 2 → ℝ) (dM : Matrix (Fin 2) (Fin m) ℝ) (area : ℝ) : Option ℝ :=
  if 1.0e-10 < Real.sqrt (U ⬝ᵥ U) then div? (2 * Real.sqrt (U ⬝ᵥ U)) (∑ i, |(dMᵀ *ᵥ U) i|)
  else some (Real.sqrt area)

/-- The parameter `tau` (src/FEM/Equation/NavierStokes.h:304-315, 382-393, 461-472) for the advection
velocity `U` and the area of the element; a division by zero is `none` (also for a negative area, where
the code has NaN and `Real.sqrt` is zero). -/
def supgTau (U : Fin 2 → ℝ) (dM : Matrix (Fin 2) (Fin m) ℝ) (area rho mu dt : ℝ) : Option ℝ := do
  let UNorm := Real.sqrt (U ⬝ᵥ U)
  let he ← supgLength U dM area
  let a ← div? 2 dt
  let b ← div? (2 * UNorm) he
  let c ← div? (4 * mu) (rho * he ^ 2)
  div? 1 (Real.sqrt (a ^ 2 + b ^ 2 + c ^ 2))

section SUPG
variable (sfu : SF ℝ 2 m) (sfp : SF ℝ 2 n) (ic : IC ℝ 2) (Xp : Matrix (Fin n) (Fin 2) ℝ)
  (ubar : Matrix (Fin m) (Fin 2) ℝ) (rho mu dt : ℝ)

/-- `NavierStokesSUPGPSPGStiffness` (src/FEM/Equation/NavierStokes.h:257-330). -/
def supgStiffness : Option (Matrix (Flu m n) (Flu m n) ℝ) :=
  loopF sfu sfp ic Xp fun M dM _ dN => do
    let U := ubarᵀ *ᵥ M
    let tau ← supgTau U dM (area sfp ic Xp) rho mu dt
    return tau • fluM
      (fun i j => rho * (U 0 * U 0 * dM 0 i * dM 0 j + U 1 * U 0 * dM 1 i * dM 0 j
        + U 0 * U 1 * dM 0 i * dM 1 j + U 1 * U 1 * dM 1 i * dM 1 j))
      (fun _ _ => 0) (fun _ _ => 0)
      (fun i j => rho * (U 0 * U 0 * dM 0 i * dM 0 j + U 1 * U 0 * dM 1 i * dM 0 j
        + U 0 * U 1 * dM 0 i * dM 1 j + U 1 * U 1 * dM 1 i * dM 1 j))
      (fun _ _ => 0) (fun _ _ => 0)
      (fun j i => rho * (U 0 * dN 0 j * dM 0 i + U 1 * dN 0 j * dM 1 i))
      (fun j i => rho * (U 0 * dN 1 j * dM 0 i + U 1 * dN 1 j * dM 1 i))
      (fun _ _ => 0)

/-- `NavierStokesSUPGPSPGConsistentMass` (src/FEM/Equation/NavierStokes.h:335-408). -/
def supgMass : Option (Matrix (Flu m n) (Flu m n) ℝ) :=
  loopF sfu sfp ic Xp fun M dM _ dN => do
    let U := ubarᵀ *ᵥ M
    let tau ← supgTau U dM (area sfp ic Xp) rho mu dt
    return tau • fluM
      (fun i j => rho * (U 0 * dM 0 i * M j + U 1 * dM 1 i * M j))
      (fun _ _ => 0) (fun _ _ => 0)
      (fun i j => rho * (U 0 * dM 0 i * M j + U 1 * dM 1 i * M j))
      (fun _ _ => 0) (fun _ _ => 0)
      (fun j i => rho * dN 0 j * M i)
      (fun j i => rho * dN 1 j * M i)
      (fun _ _ => 0)

/-- `ContinuitySUPGPSPGStiffness` (src/FEM/Equation/NavierStokes.h:413-486). -/
def supgContinuity : Option (Matrix (Flu m n) (Flu m n) ℝ) :=
  loopF sfu sfp ic Xp fun M dM _ dN => do
    let U := ubarᵀ *ᵥ M
    let tau ← supgTau U dM (area sfp ic Xp) rho mu dt
    return tau • fluM (fun _ _ => 0) (fun _ _ => 0) (fun _ _ => 0) (fun _ _ => 0)
      (fun j i => U 0 * dM 0 j * dN 0 i + U 1 * dM 1 j * dN 0 i)
      (fun j i => U 0 * dM 0 j * dN 1 i + U 1 * dM 1 j * dN 1 i)
      (fun _ _ => 0) (fun _ _ => 0)
      (fun i j => dN 0 i * dN 0 j + dN 1 i * dN 1 j)

end SUPG

/-! ### Decoupled method -/

section Decoupled
variable (sf : SF K 2 m) (ic : IC K 2) (X : Matrix (Fin m) (Fin 2) K)

/-- `NavierStokesDecoupledConsistentMass` (src/FEM/Equation/NavierStokes.h:539-572); the gradient is
computed although it is not used. -/
def decoupledMass [DecidableEq K] (rho : K) : Option (Matrix (Fin m ⊕ Fin m) (Fin m ⊕ Fin m) K) :=
  loop2 sf ic X fun r _ => some (Matrix.fromBlocks (Matrix.of fun i j => rho * sf.N r i * sf.N r j) 0 0
    (Matrix.of fun i j => rho * sf.N r i * sf.N r j))

/-- `NavierStokesDecoupledLumpedMass` (src/FEM/Equation/NavierStokes.h:577-606). -/
def decoupledLumped [DecidableEq K] (rho : K) : Option (Matrix (Fin m ⊕ Fin m) (Fin m ⊕ Fin m) K) := do
  return (← div? (rho * area sf ic X) (m : K)) • (1 : Matrix (Fin m ⊕ Fin m) (Fin m ⊕ Fin m) K)

/-- `NavierStokesAuxiliaryVelocity` (src/FEM/Equation/NavierStokes.h:611-650). -/
def auxiliaryVelocity [DecidableEq K] (u : Matrix (Fin m) (Fin 2) K) (rho mu : K) :
    Option (Fin m ⊕ Fin m → K) :=
  loop2 sf ic X fun r dN =>
    let U := uᵀ *ᵥ sf.N r
    let dU := dN * u
    some (-Sum.elim
      (fun i => rho * sf.N r i * (U 0 * dU 0 0 + U 1 * dU 1 0) + mu * (dN 0 i * dU 0 0 + dN 1 i * dU 1 0))
      (fun i => rho * sf.N r i * (U 0 * dU 0 1 + U 1 * dU 1 1) + mu * (dN 0 i * dU 0 1 + dN 1 i * dU 1 1)))

/-- `_Ke` of `NavierStokesPressurePoisson` (src/FEM/Equation/NavierStokes.h:655-700). -/
def pressurePoissonK [DecidableEq K] : Option (Matrix (Fin m) (Fin m) K) :=
  loop2 sf ic X fun _ dN => some (Matrix.of fun i j => dN 0 i * dN 0 j + dN 1 i * dN 1 j)

/-- `_Fe` of `NavierStokesPressurePoisson` (src/FEM/Equation/NavierStokes.h:655-700). -/
def pressurePoissonF [DecidableEq K] (u : Matrix (Fin m) (Fin 2) K) (rho dt : K) :
    Option (Fin m → K) :=
  loop2 sf ic X fun r dN => do
    let c ← div? (-rho) dt
    return fun i => c * sf.N r i * ((dN * u) 0 0 + (dN * u) 1 1)

/-- `NavierStokesNextstepVelocity` (src/FEM/Equation/NavierStokes.h:705-749); `_u` and `_rho` are not
used. -/
def nextstepVelocity [DecidableEq K] (p : Fin m → K) : Option (Fin m ⊕ Fin m → K) :=
  loop2 sf ic X fun r dN => some (-Sum.elim (fun i => sf.N r i * (dN *ᵥ p) 0)
    (fun i => sf.N r i * (dN *ᵥ p) 1))

end Decoupled

/-! ### Advection -/

/-- `Advection` (src/FEM/Equation/Advection.h:20-45). -/
def advection [DecidableEq K] (sf : SF K 2 m) (ic : IC K 2) (X : Matrix (Fin m) (Fin 2) K)
    (c : Fin 2 → K) : Option (Matrix (Fin m) (Fin m) K) :=
  loop2 sf ic X fun r dN => some (vecMulVec (sf.N r) (c ᵥ* dN))

/-- `Mass` (src/FEM/Equation/Advection.h:163-185). -/
def advectionMass (sf : SF K 2 m) (ic : IC K 2) (X : Matrix (Fin m) (Fin 2) K) :
    Option (Matrix (Fin m) (Fin m) K) :=
  loop2J sf ic X fun r => vecMulVec (sf.N r) (sf.N r)

/-- `he` and `alpha` (src/FEM/Equation/Advection.h:71-77, 114-120, 210-216).  `alpha` is `none` for `k = 0.0`, the
value in sample_advectiondiffusion_dynamic.cpp:43: the quotient is then infinite or not a number. -/
def advScale (dN : Matrix (Fin 2) (Fin m) ℝ) (a : Fin 2 → ℝ) (k : ℝ) : Option (ℝ × Option ℝ) := do
  let nrm := Real.sqrt (a ⬝ᵥ a)
  let terms ← allSome fun i => div? |(dNᵀ *ᵥ a) i| nrm
  let he ← div? 2 (∑ i, terms i)
  return (he, div? (1 / 2 * nrm * he) k)

/-- `if(alpha <= 3.0) tau *= alpha/3.0; else tau *= 1.0` (src/FEM/Equation/Advection.h:79-83, 122-126, 218-222).
The comparison is false for the quotient by zero, in IEEE arithmetic with a numerator that is not negative. -/
def advLimit (tau : ℝ) : Option ℝ → ℝ
  | some alpha => if alpha ≤ 3 then tau * (alpha / 3) else tau * 1
  | none => tau * 1

/-- `tau` of `AdvectionSUPG` and `MassSUPG` (src/FEM/Equation/Advection.h:78-83, 217-222). -/
def advTau (dN : Matrix (Fin 2) (Fin m) ℝ) (a : Fin 2 → ℝ) (k : ℝ) : Option ℝ := do
  let s ← advScale dN a k
  let tau ← div? (1 / 2 * s.1) (Real.sqrt (a ⬝ᵥ a))
  return advLimit tau s.2

/-- `tau` of `AdvectionShockCapturing` (src/FEM/Equation/Advection.h:121-126). -/
def shockTau (dN : Matrix (Fin 2) (Fin m) ℝ) (a : Fin 2 → ℝ) (k : ℝ) : Option ℝ := do
  let s ← advScale dN a k
  return advLimit (1 / 2 * Real.sqrt (a ⬝ᵥ a) * s.1) s.2

section AdvSUPG
variable (sf : SF ℝ 2 m) (ic : IC ℝ 2) (X : Matrix (Fin m) (Fin 2) ℝ) (a : Fin 2 → ℝ) (k : ℝ)

/-- `AdvectionSUPG` (src/FEM/Equation/Advection.h:50-88). -/
def advectionSUPG : Option (Matrix (Fin m) (Fin m) ℝ) :=
  loop2 sf ic X fun _ dN => do
    return (← advTau dN a k) • vecMulVec (dNᵀ *ᵥ a) (a ᵥ* dN)

/-- `AdvectionShockCapturing` (src/FEM/Equation/Advection.h:93-131). -/
def shockCapturing : Option (Matrix (Fin m) (Fin m) ℝ) :=
  loop2 sf ic X fun _ dN => do
    return (← shockTau dN a k) • (dNᵀ * dN)

/-- `MassSUPG` (src/FEM/Equation/Advection.h:190-229). -/
def massSUPG : Option (Matrix (Fin m) (Fin m) ℝ) :=
  loop2 sf ic X fun r dN => do
    return (← advTau dN a k) • vecMulVec (dNᵀ *ᵥ a) (sf.N r)

end AdvSUPG

end Pansfem
