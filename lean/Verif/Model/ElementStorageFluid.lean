/-
The routines of /repo/src/FEM/Equation/Stokes.h and NavierStokes.h statement by statement, on objects of
the classes `Matrix` and `Vector`.  Conventions as in `Verif/Model/ElementStorage.lean`;
`Verif/Props/C141_FluidStorage.lean` relates them to the routines of `Verif/Model/Fluid.lean`.

* The numbers of nodes are those of the lists `_elementu`, `_elementp`, as in the code, and not those of the
  shape functions.
* The entries a run of assignments reads are read before the first assignment of the run.
* `dNdX` is made where only `dMdX` is used, too: both need the same inverse.
* The unused `P` and `dpdX` (NavierStokes.h:79, 802-803) are left out, where they are not defined nothing
  else is.
-/
import Verif.Model.ElementStorageScalar
import Verif.Model.ProgramFlow

noncomputable section

namespace Pansfem

variable {K : Type}

/-! ### Tables -/

/-- `_nodetoelementu` (src/FEM/Equation/Stokes.h:27-31, NavierStokes.h:546-549): two pairs for every node. -/
def velocityTableS (m : ℕ) (doulist : List ℕ) : Option (List (List (ℕ × ℕ))) :=
  (List.range m).foldlM (fun t i => do
    let t ← tablePut t i 0 (← doulist[0]?, i)
    tablePut t i 1 (← doulist[1]?, m + i)) (List.replicate m (List.replicate 2 (0, 0)))

/-- `_nodetoelementp` (src/FEM/Equation/Stokes.h:32-35): one pair for every node. -/
def pressureTableS (m n : ℕ) (doulist : List ℕ) : Option (List (List (ℕ × ℕ))) :=
  (List.range n).foldlM (fun t i => do tablePut t i 0 (← doulist[2]?, 2 * m + i))
    (List.replicate n (List.replicate 1 (0, 0)))

/-- The assertion on `_doulist` and the two tables (src/FEM/Equation/Stokes.h:21-35). -/
def mixTablesS (m n : ℕ) (doulist : List ℕ) : Option (List (List (ℕ × ℕ)) × List (List (ℕ × ℕ))) :=
  if doulist.length = 3 then do return (← velocityTableS m doulist, ← pressureTableS m n doulist) else none

/-- The assertion on `_doulist` and the table of the decoupled routines (src/FEM/Equation/
NavierStokes.h:540-549). -/
def decoupledTableS (m : ℕ) (doulist : List ℕ) : Option (List (List (ℕ × ℕ))) :=
  if doulist.length = 2 then velocityTableS m doulist else none

/-! ### Runs of assignments -/

/-- A run of assignments `A(i, j) = value` (src/FEM/Equation/Stokes.h:61-62). -/
def putsS (A : Mat K) (l : List (ℕ × ℕ × K)) : Option (Mat K) :=
  l.foldlM (fun A p => A.put? p.1 p.2.1 p.2.2) A

/-- A run of assignments `F(i) = value` (src/FEM/Equation/Stokes.h:209). -/
def putsVS (v : Vec K) (l : List (ℕ × K)) : Option (Vec K) :=
  l.foldlM (fun v p => v.put? p.1 p.2) v

variable [Field K]

/-- A fresh `R × C` matrix filled by a loop over `p` rows with two loops over `q` and over `r` columns in it
(src/FEM/Equation/Stokes.h:58-70). -/
def fillS (R C p q r : ℕ) (a b : ℕ → ℕ → Option (List (ℕ × ℕ × K))) : Option (Mat K) :=
  (List.range p).foldlM (fun A i => do
    let A ← (List.range q).foldlM (fun A j => do putsS A (← a i j)) A
    (List.range r).foldlM (fun A j => do putsS A (← b i j)) A) (Mat.zeros R C)

/-- A fresh vector of `R` entries filled by a loop over `p` and a loop over `q` numbers
(src/FEM/Equation/NavierStokes.h:98-105). -/
def fillVS (R p q : ℕ) (a b : ℕ → Option (List (ℕ × K))) : Option (Vec K) := do
  let v ← (List.range p).foldlM (fun v i => do putsVS v (← a i)) (Vec.zeros R)
  (List.range q).foldlM (fun v i => do putsVS v (← b i)) v

/-- `p(i) = _up[_element[i]](c)` (src/FEM/Equation/NavierStokes.h:59-62 with `c = 2`, 725-728 with `c = 0`). -/
def componentS (u : List (Vec K)) (element : List ℕ) (c : ℕ) : Option (Vec K) :=
  (List.range element.length).foldlM (fun p (i : ℕ) => do p.put? (i : ℕ) (← nodal u (← element[(i : ℕ)]?) c))
    (Vec.zeros element.length)

/-- The values of unknown `c` at the `n` nodes of an element, for the statements about routines that read them
(src/FEM/Equation/NavierStokes.h:59-62, 725-728). -/
def column (u : List (Vec K)) (element : List ℕ) (n c : ℕ) : Option (Fin n → K) :=
  if element.length = n then allSome fun i : Fin n => do nodal u (← element[(i : ℕ)]?) c else none

variable {m n : ℕ}

/-! ### Mixed elements -/

section Mixed
variable [DecidableEq K] (sfu : SF K 2 m) (sfp : SF K 2 n) (ic : IC K 2) (eu ep doulist : List ℕ)
  (x : List (Vec K))

/-- `J`, `dNdX`, `dMdX` at an integration point (src/FEM/Equation/Stokes.h:48-56). -/
def fluPointS (Xp : Mat K) (r : Fin 2 → K) : Option (K × Mat K × Mat K) := do
  let dNdr := dense (sfp.dNdr r)
  let dXdr ← dNdr.mul Xp
  let J ← dXdr.determinant
  let dNdX ← (← dXdr.inverse).mul dNdr
  let dMdX ← (← dXdr.inverse).mul (dense (sfu.dNdr r))
  return (J, dNdX, dMdX)

/-- The loop `_Ke += K*J*w*w` (src/FEM/Equation/Stokes.h:47-73) over points with gradients; `build` makes
`K` of `M`, `dMdX`, `N`, `dNdX`. -/
def fluLoopS (build : Vec K → Mat K → Vec K → Mat K → Option (Mat K)) (Xp Ke : Mat K) : Option (Mat K) :=
  (List.finRange ic.N).foldlM (fun Ke g => do
    let (J, dNdX, dMdX) ← fluPointS sfu sfp Xp (ic.points g)
    let A ← build (densev (sfu.N (ic.points g))) dMdX (densev (sfp.N (ic.points g))) dNdX
    Ke.add (← scaled A [J, ic.weights g 0, ic.weights g 1])) Ke

/-- The loop of the routines without gradients (src/FEM/Equation/Stokes.h:106-122, NavierStokes.h:188-204,
855-871); `build` makes the matrix of `M`. -/
def fluLoopJS (build : Vec K → Option (Mat K)) (Xp Ke : Mat K) : Option (Mat K) :=
  (List.finRange ic.N).foldlM (fun Ke g => do
    let dXdr ← (dense (sfp.dNdr (ic.points g))).mul Xp
    let J ← dXdr.determinant
    let A ← build (densev (sfu.N (ic.points g)))
    Ke.add (← scaled A [J, ic.weights g 0, ic.weights g 1])) Ke

/-- `K` of `StokesStiffness` (src/FEM/Equation/Stokes.h:57-70). -/
def stokesKS (mu : K) (dMdX : Mat K) (N : Vec K) : Option (Mat K) :=
  let m := eu.length
  let n := ep.length
  fillS (2 * m + n) (2 * m + n) m m n
    (fun i j => do
      let d0i ← dMdX.at? 0 i
      let d1i ← dMdX.at? 1 i
      let d0j ← dMdX.at? 0 j
      let d1j ← dMdX.at? 1 j
      return [(i, j, 2 * mu * d0i * d0j + mu * d1i * d1j), (i, j + m, mu * d0i * d1j),
        (i + m, j, mu * d1i * d0j), (i + m, j + m, mu * d0i * d0j + 2 * mu * d1i * d1j)])
    (fun i j => do
      let d0i ← dMdX.at? 0 i
      let d1i ← dMdX.at? 1 i
      let Nj ← N.at? j
      return [(i, j + 2 * m, -Nj * d0i), (i + m, j + 2 * m, -Nj * d1i),
        (j + 2 * m, i, -Nj * d0i), (j + 2 * m, i + m, -Nj * d1i)])

/-- `StokesStiffness` (src/FEM/Equation/Stokes.h:20-74). -/
def stokesStiffnessS (mu : K) : Option (Mat K × List (List (ℕ × ℕ)) × List (List (ℕ × ℕ))) := do
  let Ke := Mat.zeros (2 * eu.length + ep.length) (2 * eu.length + ep.length)
  let (nteu, ntep) ← mixTablesS eu.length ep.length doulist
  let _Xu ← coordsS x eu 2
  let Xp ← coordsS x ep 2
  return (← fluLoopS sfu sfp ic (fun _ dMdX N _ => stokesKS eu ep mu dMdX N) Xp Ke, nteu, ntep)

/-- `C` of `StokesMass` (src/FEM/Equation/Stokes.h:113-119). -/
def stokesCS (rho : K) (M : Vec K) : Option (Mat K) :=
  let m := eu.length
  let n := ep.length
  fillS (2 * m + n) (2 * m + n) m m 0
    (fun i j => do
      let Mi ← M.at? i
      let Mj ← M.at? j
      return [(i, j, rho * Mi * Mj), (i, j + m, 0), (i + m, j, 0), (i + m, j + m, rho * Mi * Mj)])
    (fun _ _ => some [])

/-- `StokesMass` (src/FEM/Equation/Stokes.h:79-123). -/
def stokesMassS (rho : K) : Option (Mat K × List (List (ℕ × ℕ)) × List (List (ℕ × ℕ))) := do
  let Ce := Mat.zeros (2 * eu.length + ep.length) (2 * eu.length + ep.length)
  let (nteu, ntep) ← mixTablesS eu.length ep.length doulist
  let _Xu ← coordsS x eu 2
  let Xp ← coordsS x ep 2
  return (← fluLoopJS sfu sfp ic (stokesCS eu ep rho) Xp Ce, nteu, ntep)

/-- `Me` of `NavierStokesConsistentMass` (src/FEM/Equation/NavierStokes.h:195-201). -/
def nsMS (rho : K) (M : Vec K) : Option (Mat K) :=
  let m := eu.length
  let n := ep.length
  fillS (2 * m + n) (2 * m + n) m m 0
    (fun i j => do
      let Mi ← M.at? i
      let Mj ← M.at? j
      return [(i, j, rho * Mi * Mj), (i + m, j + m, rho * Mi * Mj)])
    (fun _ _ => some [])

/-- `NavierStokesConsistentMass` (src/FEM/Equation/NavierStokes.h:167-205). -/
def nsConsistentMassS (rho : K) : Option (Mat K × List (List (ℕ × ℕ)) × List (List (ℕ × ℕ))) := do
  let Me := Mat.zeros (2 * eu.length + ep.length) (2 * eu.length + ep.length)
  let (nteu, ntep) ← mixTablesS eu.length ep.length doulist
  let Xp ← coordsS x ep 2
  return (← fluLoopJS sfu sfp ic (nsMS eu ep rho) Xp Me, nteu, ntep)

/-- `K` of the Brinkman routines (src/FEM/Equation/Stokes.h:247-254, NavierStokes.h:862-869). -/
def brinkmanKS (k : Mat K) (M : Vec K) : Option (Mat K) :=
  let m := eu.length
  let n := ep.length
  fillS (2 * m + n) (2 * m + n) m m 0
    (fun i j => do
      let Mi ← M.at? i
      let Mj ← M.at? j
      let k00 ← k.at? 0 0
      let k01 ← k.at? 0 1
      let k10 ← k.at? 1 0
      let k11 ← k.at? 1 1
      return [(i, j, Mi * k00 * Mj), (i, j + m, Mi * k01 * Mj), (i + m, j, Mi * k10 * Mj),
        (i + m, j + m, Mi * k11 * Mj)])
    (fun _ _ => some [])

/-- `BrinkmanBodyForce` (src/FEM/Equation/Stokes.h:220-258) and `NavierStokesBrinkmanBodyForce`
(NavierStokes.h:835-872). -/
def brinkmanS (k : Mat K) : Option (Mat K × List (List (ℕ × ℕ)) × List (List (ℕ × ℕ))) := do
  let Ke := Mat.zeros (2 * eu.length + ep.length) (2 * eu.length + ep.length)
  let (nteu, ntep) ← mixTablesS eu.length ep.length doulist
  let Xp ← coordsS x ep 2
  return (← fluLoopJS sfu sfp ic (brinkmanKS eu ep k) Xp Ke, nteu, ntep)

/-- `C` of `ContinuityStiffness` (src/FEM/Equation/NavierStokes.h:240-249). -/
def continuityCS (dMdX : Mat K) (N : Vec K) : Option (Mat K) :=
  let m := eu.length
  let n := ep.length
  fillS (2 * m + n) (2 * m + n) m 0 n (fun _ _ => some [])
    (fun i j => do
      let d0i ← dMdX.at? 0 i
      let d1i ← dMdX.at? 1 i
      let Nj ← N.at? j
      return [(i, j + 2 * m, -d0i * Nj), (i + m, j + 2 * m, -d1i * Nj),
        (j + 2 * m, i, Nj * d0i), (j + 2 * m, i + m, Nj * d1i)])

/-- `ContinuityStiffness` (src/FEM/Equation/NavierStokes.h:210-252). -/
def continuityS : Option (Mat K × List (List (ℕ × ℕ)) × List (List (ℕ × ℕ))) := do
  let Ce := Mat.zeros (2 * eu.length + ep.length) (2 * eu.length + ep.length)
  let (nteu, ntep) ← mixTablesS eu.length ep.length doulist
  let Xp ← coordsS x ep 2
  return (← fluLoopS sfu sfp ic (fun _ dMdX N _ => continuityCS eu ep dMdX N) Xp Ce, nteu, ntep)

/-- `K` of `NavierStokesStiffness` (src/FEM/Equation/NavierStokes.h:148-159), for `ubar`. -/
def nsStiffnessKS (rho mu : K) (ubar : Mat K) (M : Vec K) (dMdX : Mat K) : Option (Mat K) := do
  let m := eu.length
  let n := ep.length
  let Ubar ← (← ubar.transpose).mulVec M
  let U0 ← Ubar.at? 0
  let U1 ← Ubar.at? 1
  fillS (2 * m + n) (2 * m + n) m m 0
    (fun i j => do
      let Mi ← M.at? i
      let d0i ← dMdX.at? 0 i
      let d1i ← dMdX.at? 1 i
      let d0j ← dMdX.at? 0 j
      let d1j ← dMdX.at? 1 j
      return [(i, j, rho * (Mi * d0j * U0 + Mi * d1j * U1) + mu * (2 * d0i * d0j + d1i * d1j)),
        (i, j + m, mu * d1i * d0j), (i + m, j, mu * d0i * d1j),
        (i + m, j + m, rho * (Mi * d1j * U1 + Mi * d0j * U0) + mu * (d0i * d0j + 2 * d1i * d1j))])
    (fun _ _ => some [])

/-- `NavierStokesStiffness` (src/FEM/Equation/NavierStokes.h:113-162). -/
def nsStiffnessS (ubar : List (Vec K)) (rho mu : K) :
    Option (Mat K × List (List (ℕ × ℕ)) × List (List (ℕ × ℕ))) := do
  let Ke := Mat.zeros (2 * eu.length + ep.length) (2 * eu.length + ep.length)
  let (nteu, ntep) ← mixTablesS eu.length ep.length doulist
  let Xp ← coordsS x ep 2
  let ubar ← coordsS ubar eu 2
  return (← fluLoopS sfu sfp ic (fun M dMdX _ _ => nsStiffnessKS eu ep rho mu ubar M dMdX) Xp Ke, nteu, ntep)

/-- `K` of `NavierStokesAdjoint` (src/FEM/Equation/NavierStokes.h:799-827). -/
def nsAdjointKS (rho mu : K) (u : Mat K) (M : Vec K) (dMdX : Mat K) (N : Vec K) : Option (Mat K) := do
  let m := eu.length
  let n := ep.length
  let U ← (← u.transpose).mulVec M
  let dUdX ← dMdX.mul u
  let U0 ← U.at? 0
  let U1 ← U.at? 1
  let D00 ← dUdX.at? 0 0
  let D01 ← dUdX.at? 0 1
  let D10 ← dUdX.at? 1 0
  let D11 ← dUdX.at? 1 1
  fillS (2 * m + n) (2 * m + n) m m n
    (fun i j => do
      let Mi ← M.at? i
      let Mj ← M.at? j
      let d0i ← dMdX.at? 0 i
      let d1i ← dMdX.at? 1 i
      let d0j ← dMdX.at? 0 j
      let d1j ← dMdX.at? 1 j
      return [(i, j, rho * (Mi * Mj * D00 + d0i * U0 * Mj + d1i * U1 * Mj) + mu * (2 * d0i * d0j + d1i * d1j)),
        (i, j + m, rho * Mi * Mj * D01 + mu * d1i * d0j),
        (i + m, j, rho * Mi * Mj * D10 + mu * d0i * d1j),
        (i + m, j + m, rho * (d0i * U0 * Mj + Mi * Mj * D11 + d1i * U1 * Mj)
          + mu * (d0i * d0j + 2 * d1i * d1j))])
    (fun i j => do
      let d0i ← dMdX.at? 0 i
      let d1i ← dMdX.at? 1 i
      let Nj ← N.at? j
      return [(i, j + 2 * m, -d0i * Nj), (i + m, j + 2 * m, -d1i * Nj),
        (j + 2 * m, i, Nj * d0i), (j + 2 * m, i + m, Nj * d1i)])

/-- `NavierStokesAdjoint` (src/FEM/Equation/NavierStokes.h:758-830). -/
def nsAdjointS (up : List (Vec K)) (rho mu : K) :
    Option (Mat K × List (List (ℕ × ℕ)) × List (List (ℕ × ℕ))) := do
  let Ke := Mat.zeros (2 * eu.length + ep.length) (2 * eu.length + ep.length)
  let (nteu, ntep) ← mixTablesS eu.length ep.length doulist
  let _Xv ← coordsS x eu 2
  let Xq ← coordsS x ep 2
  let u ← coordsS up eu 2
  let _p ← componentS up ep 2
  return (← fluLoopS sfu sfp ic (fun M dMdX N _ => nsAdjointKS eu ep rho mu u M dMdX N) Xq Ke, nteu, ntep)

/-- `K` of `NavierStokesTangent` (src/FEM/Equation/NavierStokes.h:75-95). -/
def nsTangentKS (rho mu : K) (u : Mat K) (M : Vec K) (dMdX : Mat K) (N : Vec K) : Option (Mat K) := do
  let m := eu.length
  let n := ep.length
  let U ← (← u.transpose).mulVec M
  let dUdX ← dMdX.mul u
  let U0 ← U.at? 0
  let U1 ← U.at? 1
  let D00 ← dUdX.at? 0 0
  let D01 ← dUdX.at? 0 1
  let D10 ← dUdX.at? 1 0
  let D11 ← dUdX.at? 1 1
  fillS (2 * m + n) (2 * m + n) m m n
    (fun i j => do
      let Mi ← M.at? i
      let Mj ← M.at? j
      let d0i ← dMdX.at? 0 i
      let d1i ← dMdX.at? 1 i
      let d0j ← dMdX.at? 0 j
      let d1j ← dMdX.at? 1 j
      return [(i, j, rho * Mi * Mj * D00 + rho * Mi * d0j * U0 + rho * Mi * d1j * U1 + 2 * mu * d0i * d0j
          + mu * d1i * d1j + mu * d1i * d0j),
        (i, j + m, rho * Mi * Mj * D10),
        (i + m, j, rho * Mi * Mj * D01),
        (i + m, j + m, rho * Mi * Mj * D11 + rho * Mi * d1j * U1 + rho * Mi * d0j * U0 + mu * d0i * d1j
          + mu * d0i * d0j + 2 * mu * d1i * d1j)])
    (fun i j => do
      let d0i ← dMdX.at? 0 i
      let d1i ← dMdX.at? 1 i
      let Nj ← N.at? j
      return [(i, j + 2 * m, -d0i * Nj), (i + m, j + 2 * m, -d1i * Nj),
        (j + 2 * m, i, Nj * d0i), (j + 2 * m, i + m, Nj * d1i)])

/-- `F` of `NavierStokesTangent` (src/FEM/Equation/NavierStokes.h:75-79, 98-105). -/
def nsTangentFS (rho mu : K) (u : Mat K) (p : Vec K) (M : Vec K) (dMdX : Mat K) (N : Vec K) :
    Option (Vec K) := do
  let m := eu.length
  let n := ep.length
  let U ← (← u.transpose).mulVec M
  let dUdX ← dMdX.mul u
  let P ← p.dot N
  let U0 ← U.at? 0
  let U1 ← U.at? 1
  let D00 ← dUdX.at? 0 0
  let D01 ← dUdX.at? 0 1
  let D10 ← dUdX.at? 1 0
  let D11 ← dUdX.at? 1 1
  fillVS (2 * m + n) m n
    (fun i => do
      let Mi ← M.at? i
      let d0i ← dMdX.at? 0 i
      let d1i ← dMdX.at? 1 i
      return [(i, rho * Mi * U0 * D00 + rho * Mi * U1 * D10 + 2 * mu * d0i * D00 + mu * d1i * D10
          + mu * d1i * D01 - d0i * P),
        (i + m, rho * Mi * U0 * D01 + rho * Mi * U1 * D11 + mu * d0i * D10 + mu * d0i * D01
          + 2 * mu * d1i * D11 - d1i * P)])
    (fun i => do
      let Ni ← N.at? i
      return [(i + 2 * m, Ni * D00 + Ni * D11)])

/-- `NavierStokesTangent` (src/FEM/Equation/NavierStokes.h:26-108): the loop adds to `_Ke` and subtracts from
`_Fe`. -/
def nsTangentS (up : List (Vec K)) (rho mu : K) :
    Option ((Mat K × Vec K) × List (List (ℕ × ℕ)) × List (List (ℕ × ℕ))) := do
  let Ke := Mat.zeros (2 * eu.length + ep.length) (2 * eu.length + ep.length)
  let Fe := Vec.zeros (2 * eu.length + ep.length)
  let (nteu, ntep) ← mixTablesS eu.length ep.length doulist
  let _Xu ← coordsS x eu 2
  let Xp ← coordsS x ep 2
  let u ← coordsS up eu 2
  let p ← componentS up ep 2
  let s ← (List.finRange ic.N).foldlM (fun (s : Mat K × Vec K) g => do
    let (J, _, dMdX) ← fluPointS sfu sfp Xp (ic.points g)
    let M := densev (sfu.N (ic.points g))
    let N := densev (sfp.N (ic.points g))
    let A ← nsTangentKS eu ep rho mu u M dMdX N
    let Ke ← s.1.add (← scaled A [J, ic.weights g 0, ic.weights g 1])
    let F ← nsTangentFS eu ep rho mu u p M dMdX N
    return (Ke, ← s.2.sub (← scaledV F [J, ic.weights g 0, ic.weights g 1]))) (Ke, Fe)
  return (s, nteu, ntep)

/-- `StokesBodyForce` (src/FEM/Equation/Stokes.h:177-215) and `NavierStokesBodyForce`
(NavierStokes.h:491-529). -/
def stokesBodyForceS (f : Vec K → Vec K) :
    Option (Vec K × List (List (ℕ × ℕ)) × List (List (ℕ × ℕ))) := do
  let m := eu.length
  let Fe := Vec.zeros (2 * m + ep.length)
  let (nteu, ntep) ← mixTablesS m ep.length doulist
  let Xp ← coordsS x ep 2
  let Fe ← (List.finRange ic.N).foldlM (fun Fe g => do
    let dXdr ← (dense (sfp.dNdr (ic.points g))).mul Xp
    let J ← dXdr.determinant
    let M := densev (sfu.N (ic.points g))
    let xg ← (← Xp.transpose).mulVec (densev (sfp.N (ic.points g)))
    let b := f xg
    let F ← fillVS (2 * m + ep.length) m 0 (fun i => do
      let Mi ← M.at? i
      let b0 ← b.at? 0
      let b1 ← b.at? 1
      return [(i, b0 * Mi), (i + m, b1 * Mi)]) (fun _ => some [])
    Fe.add (← scaledV F [J, ic.weights g 0, ic.weights g 1])) Fe
  return (Fe, nteu, ntep)

end Mixed

/-- `B` of `StokesSurfaceForce` (src/FEM/Equation/Stokes.h:163-167). -/
def stokesBS (m n : ℕ) (M : Vec ℝ) : Option (Mat ℝ) :=
  (List.range m).foldlM (fun B (i : ℕ) => do
    let Mi ← M.at? (i : ℕ)
    putsS B [(0, i, Mi), (0, i + m, 0), (1, i, 0), (1, i + m, Mi)]) (Mat.zeros 2 (2 * m + n))

/-- `StokesSurfaceForce` (src/FEM/Equation/Stokes.h:128-172). -/
def stokesSurfaceForceS (sfu : SF ℝ 1 m) (sfp : SF ℝ 1 n) (ic : IC ℝ 1) (eu ep doulist : List ℕ)
    (x : List (Vec ℝ)) (f : Vec ℝ → Vec ℝ) :
    Option (Vec ℝ × List (List (ℕ × ℕ)) × List (List (ℕ × ℕ))) := do
  let Fe := Vec.zeros (2 * eu.length + ep.length)
  let (nteu, ntep) ← mixTablesS eu.length ep.length doulist
  let _Xu ← coordsS x eu 2
  let Xp ← coordsS x ep 2
  let Fe ← (List.finRange ic.N).foldlM (fun Fe g => do
    let xg ← (← Xp.transpose).mulVec (densev (sfp.N (ic.points g)))
    let dXdr ← (dense (sfp.dNdr (ic.points g))).mul Xp
    let dl := Real.sqrt (← (← dXdr.mul (← dXdr.transpose)).at? 0 0)
    let B ← stokesBS eu.length ep.length (densev (sfu.N (ic.points g)))
    Fe.add (← scaledV (← (← B.transpose).mulVec (f xg)) [dl, ic.weights g 0])) Fe
  return (Fe, nteu, ntep)

/-! ### SUPG and PSPG -/

section SUPG
variable (sfu : SF ℝ 2 m) (sfp : SF ℝ 2 n) (ic : IC ℝ 2) (eu ep doulist : List ℕ) (x : List (Vec ℝ))

/-- `area` (src/FEM/Equation/NavierStokes.h:285-291, 363-369, 441-447; the loop over `IC<T>::N`). -/
def areaS (X : Mat ℝ) : Option ℝ :=
  (List.finRange ic.N).foldlM (fun Area g => do
    let dXdr ← (dense (sfp.dNdr (ic.points g))).mul X
    let J ← dXdr.determinant
    return Area + J * ic.weights g 0 * ic.weights g 1) 0

/-- `UNorm`, `he`, `tau` (src/FEM/Equation/NavierStokes.h:303-315, 381-393, 460-472); `area` is not negative
where the code has no NaN, see `supgTau`. -/
def supgTauS (Ubar : Vec ℝ) (dMdX : Mat ℝ) (area rho mu dt : ℝ) : Option ℝ := do
  let UNorm ← normS Ubar
  let he ← if 1.0e-10 < UNorm then do
      let dMdXU ← (← dMdX.transpose).mulVec Ubar
      let he ← (List.range eu.length).foldlM (fun he (i : ℕ) => do return he + |(← dMdXU.at? (i : ℕ))|) 0
      div? (2 * UNorm) he
    else some (Real.sqrt area)
  let a ← div? 2 dt
  let b ← div? (2 * UNorm) he
  let c ← div? (4 * mu) (rho * he ^ 2)
  div? 1 (Real.sqrt (a ^ 2 + b ^ 2 + c ^ 2))

/-- `K` of `NavierStokesSUPGPSPGStiffness` (src/FEM/Equation/NavierStokes.h:317-327). -/
def supgStiffnessKS (rho : ℝ) (Ubar : Vec ℝ) (dMdX dNdX : Mat ℝ) : Option (Mat ℝ) := do
  let m := eu.length
  let n := ep.length
  let U0 ← Ubar.at? 0
  let U1 ← Ubar.at? 1
  fillS (2 * m + n) (2 * m + n) m m n
    (fun i j => do
      let d0i ← dMdX.at? 0 i
      let d1i ← dMdX.at? 1 i
      let d0j ← dMdX.at? 0 j
      let d1j ← dMdX.at? 1 j
      return [(i, j, rho * (U0 * U0 * d0i * d0j + U1 * U0 * d1i * d0j + U0 * U1 * d0i * d1j
          + U1 * U1 * d1i * d1j)),
        (i + m, j + m, rho * (U0 * U0 * d0i * d0j + U1 * U0 * d1i * d0j + U0 * U1 * d0i * d1j
          + U1 * U1 * d1i * d1j))])
    (fun i j => do
      let d0i ← dMdX.at? 0 i
      let d1i ← dMdX.at? 1 i
      let n0j ← dNdX.at? 0 j
      let n1j ← dNdX.at? 1 j
      return [(j + 2 * m, i, rho * (U0 * n0j * d0i + U1 * n0j * d1i)),
        (j + 2 * m, i + m, rho * (U0 * n1j * d0i + U1 * n1j * d1i))])

/-- `Me` of `NavierStokesSUPGPSPGConsistentMass` (src/FEM/Equation/NavierStokes.h:395-405). -/
def supgMassKS (rho : ℝ) (Ubar M : Vec ℝ) (dMdX dNdX : Mat ℝ) : Option (Mat ℝ) := do
  let m := eu.length
  let n := ep.length
  let U0 ← Ubar.at? 0
  let U1 ← Ubar.at? 1
  fillS (2 * m + n) (2 * m + n) m m n
    (fun i j => do
      let d0i ← dMdX.at? 0 i
      let d1i ← dMdX.at? 1 i
      let Mj ← M.at? j
      return [(i, j, rho * (U0 * d0i * Mj + U1 * d1i * Mj)),
        (i + m, j + m, rho * (U0 * d0i * Mj + U1 * d1i * Mj))])
    (fun i j => do
      let Mi ← M.at? i
      let n0j ← dNdX.at? 0 j
      let n1j ← dNdX.at? 1 j
      return [(j + 2 * m, i, rho * n0j * Mi), (j + 2 * m, i + m, rho * n1j * Mi)])

/-- `C` of `ContinuitySUPGPSPGStiffness` (src/FEM/Equation/NavierStokes.h:474-483): the outer loop goes over the
pressure nodes. -/
def supgContinuityCS (Ubar : Vec ℝ) (dMdX dNdX : Mat ℝ) : Option (Mat ℝ) := do
  let m := eu.length
  let n := ep.length
  let U0 ← Ubar.at? 0
  let U1 ← Ubar.at? 1
  fillS (2 * m + n) (2 * m + n) n m n
    (fun i j => do
      let d0j ← dMdX.at? 0 j
      let d1j ← dMdX.at? 1 j
      let n0i ← dNdX.at? 0 i
      let n1i ← dNdX.at? 1 i
      return [(j, i + 2 * m, U0 * d0j * n0i + U1 * d1j * n0i),
        (j + m, i + 2 * m, U0 * d0j * n1i + U1 * d1j * n1i)])
    (fun i j => do
      let n0i ← dNdX.at? 0 i
      let n1i ← dNdX.at? 1 i
      let n0j ← dNdX.at? 0 j
      let n1j ← dNdX.at? 1 j
      return [(i + 2 * m, j + 2 * m, n0i * n0j + n1i * n1j)])

/-- The three SUPG routines (src/FEM/Equation/NavierStokes.h:257-330, 335-408, 413-486): they differ in the
matrix that `build` makes of `Ubar`, `M`, `dMdX`, `dNdX`; the term is `tau*K*J*w*w`. -/
def supgS (build : Vec ℝ → Vec ℝ → Mat ℝ → Mat ℝ → Option (Mat ℝ)) (ubar : List (Vec ℝ)) (rho mu dt : ℝ) :
    Option (Mat ℝ × List (List (ℕ × ℕ)) × List (List (ℕ × ℕ))) := do
  let Ke := Mat.zeros (2 * eu.length + ep.length) (2 * eu.length + ep.length)
  let (nteu, ntep) ← mixTablesS eu.length ep.length doulist
  let Xp ← coordsS x ep 2
  let ubar ← coordsS ubar eu 2
  let area ← areaS sfp ic Xp
  let Ke ← fluLoopS sfu sfp ic (fun M dMdX _ dNdX => do
    let Ubar ← (← ubar.transpose).mulVec M
    let tau ← supgTauS eu Ubar dMdX area rho mu dt
    (← build Ubar M dMdX dNdX).smul tau) Xp Ke
  return (Ke, nteu, ntep)

end SUPG

/-! ### Decoupled method -/

section Decoupled
variable [DecidableEq K] (sf : SF K 2 m) (ic : IC K 2) (element doulist : List ℕ) (x : List (Vec K))

/-- `NavierStokesDecoupledConsistentMass` (src/FEM/Equation/NavierStokes.h:539-572). -/
def decoupledMassS (rho : K) : Option (Mat K × List (List (ℕ × ℕ))) := do
  let m := element.length
  let Me := Mat.zeros (2 * m) (2 * m)
  let nte ← decoupledTableS m doulist
  let X ← coordsS x element 2
  let Me ← (List.finRange ic.N).foldlM (fun Me g => do
    let N := densev (sf.N (ic.points g))
    let dNdr := dense (sf.dNdr (ic.points g))
    let dXdr ← dNdr.mul X
    let J ← dXdr.determinant
    let _dNdX ← (← dXdr.inverse).mul dNdr
    let M ← fillS (2 * m) (2 * m) m m 0 (fun i j => do
      let Ni ← N.at? i
      let Nj ← N.at? j
      return [(i, j, rho * Ni * Nj), (i, j + m, 0), (i + m, j, 0), (i + m, j + m, rho * Ni * Nj)])
      (fun _ _ => some [])
    Me.add (← scaled M [J, ic.weights g 0, ic.weights g 1])) Me
  return (Me, nte)

/-- `NavierStokesDecoupledLumpedMass` (src/FEM/Equation/NavierStokes.h:577-606). -/
def decoupledLumpedS (rho : K) : Option (Mat K × List (List (ℕ × ℕ))) := do
  let m := element.length
  let Me := Mat.zeros (2 * m) (2 * m)
  let nte ← decoupledTableS m doulist
  let X ← coordsS x element 2
  let Area ← (List.finRange ic.N).foldlM (fun Area g => do
    let dXdr ← (dense (sf.dNdr (ic.points g))).mul X
    let J ← dXdr.determinant
    return Area + J * ic.weights g 0 * ic.weights g 1) 0
  let Me ← (List.range m).foldlM (fun Me i => do
    let c ← div? (rho * Area) (m : K)
    putsS Me [(i, i, c), (i + m, i + m, c)]) Me
  return (Me, nte)

/-- `NavierStokesAuxiliaryVelocity` (src/FEM/Equation/NavierStokes.h:611-650). -/
def auxiliaryVelocityS (u : List (Vec K)) (rho mu : K) : Option (Vec K × List (List (ℕ × ℕ))) := do
  let m := element.length
  let Fe := Vec.zeros (2 * m)
  let nte ← decoupledTableS m doulist
  let X ← coordsS x element 2
  let u ← coordsS u element 2
  let Fe ← (List.finRange ic.N).foldlM (fun Fe g => do
    let N := densev (sf.N (ic.points g))
    let dNdr := dense (sf.dNdr (ic.points g))
    let dXdr ← dNdr.mul X
    let J ← dXdr.determinant
    let dNdX ← (← dXdr.inverse).mul dNdr
    let U ← (← u.transpose).mulVec N
    let dUdX ← dNdX.mul u
    let U0 ← U.at? 0
    let U1 ← U.at? 1
    let D00 ← dUdX.at? 0 0
    let D01 ← dUdX.at? 0 1
    let D10 ← dUdX.at? 1 0
    let D11 ← dUdX.at? 1 1
    let F ← fillVS (2 * m) m 0 (fun i => do
      let Ni ← N.at? i
      let d0i ← dNdX.at? 0 i
      let d1i ← dNdX.at? 1 i
      return [(i, rho * Ni * (U0 * D00 + U1 * D10) + mu * (d0i * D00 + d1i * D10)),
        (i + m, rho * Ni * (U0 * D01 + U1 * D11) + mu * (d0i * D01 + d1i * D11))]) (fun _ => some [])
    Fe.sub (← scaledV F [J, ic.weights g 0, ic.weights g 1])) Fe
  return (Fe, nte)

/-- `NavierStokesPressurePoisson` (src/FEM/Equation/NavierStokes.h:655-700). -/
def pressurePoissonS (u : List (Vec K)) (rho dt : K) : Option ((Mat K × Vec K) × List (List (ℕ × ℕ))) := do
  let m := element.length
  let Ke := Mat.zeros m m
  let Fe := Vec.zeros m
  let nte ← tableS 1 element doulist
  let X ← coordsS x element 2
  let u ← coordsS u element 2
  let s ← (List.finRange ic.N).foldlM (fun (s : Mat K × Vec K) g => do
    let N := densev (sf.N (ic.points g))
    let dNdr := dense (sf.dNdr (ic.points g))
    let dXdr ← dNdr.mul X
    let J ← dXdr.determinant
    let dNdX ← (← dXdr.inverse).mul dNdr
    let dUdX ← dNdX.mul u
    let A ← fillS m m m m 0 (fun i j => do
      let d0i ← dNdX.at? 0 i
      let d1i ← dNdX.at? 1 i
      let d0j ← dNdX.at? 0 j
      let d1j ← dNdX.at? 1 j
      return [(i, j, d0i * d0j + d1i * d1j)]) (fun _ _ => some [])
    let Ke ← s.1.add (← scaled A [J, ic.weights g 0, ic.weights g 1])
    let F ← fillVS m m 0 (fun i => do
      let c ← div? (-rho) dt
      let Ni ← N.at? i
      let D00 ← dUdX.at? 0 0
      let D11 ← dUdX.at? 1 1
      return [(i, c * Ni * (D00 + D11))]) (fun _ => some [])
    return (Ke, ← s.2.add (← scaledV F [J, ic.weights g 0, ic.weights g 1]))) (Ke, Fe)
  return (s, nte)

/-- `NavierStokesNextstepVelocity` (src/FEM/Equation/NavierStokes.h:705-749); `U` is computed although it is not
used. -/
def nextstepVelocityS (u p : List (Vec K)) : Option (Vec K × List (List (ℕ × ℕ))) := do
  let m := element.length
  let Fe := Vec.zeros (2 * m)
  let nte ← decoupledTableS m doulist
  let X ← coordsS x element 2
  let u ← coordsS u element 2
  let p ← componentS p element 0
  let Fe ← (List.finRange ic.N).foldlM (fun Fe g => do
    let N := densev (sf.N (ic.points g))
    let dNdr := dense (sf.dNdr (ic.points g))
    let dXdr ← dNdr.mul X
    let J ← dXdr.determinant
    let dNdX ← (← dXdr.inverse).mul dNdr
    let _U ← (← u.transpose).mulVec N
    let dPdX ← dNdX.mulVec p
    let P0 ← dPdX.at? 0
    let P1 ← dPdX.at? 1
    let F ← fillVS (2 * m) m 0 (fun i => do
      let Ni ← N.at? i
      return [(i, Ni * P0), (i + m, Ni * P1)]) (fun _ => some [])
    Fe.sub (← scaledV F [J, ic.weights g 0, ic.weights g 1])) Fe
  return (Fe, nte)

end Decoupled

end Pansfem
