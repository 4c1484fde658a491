/-
The macroscopic part of /repo/sample/optimize/sample_optimize_homogenization.cpp: elastic tensors interpolated from
those of unit cells and rotated, stiffness, compliance, weight and their sensitivities.

* The tables of tensors come from the unit cells (lines 44-120, see `Model/ProgramCell.lean`); here they are inputs, as
  are mesh, supports and loads.
* Sums of 3x3 matrices and products with rotations are those of `Matrix`, all sizes being fixed.
-/
import Verif.Model.ProgramDesign
import Verif.Model.General
import Mathlib.Analysis.SpecialFunctions.Trigonometric.Basic

noncomputable section

open Matrix

namespace Pansfem

variable {n p q : ℕ}

/-- The abscissae `as` and `bs` and the tensors `CH` of the unit cells
(sample_optimize_homogenization.cpp:35-36, 44). -/
structure CellTables (p q : ℕ) where
  as : Fin p → ℝ
  bs : Fin q → ℝ
  CH : Fin p → Fin q → Matrix (Fin 3) (Fin 3) ℝ

/-- The double loop over the table (sample_optimize_homogenization.cpp:195-199, 227-231, 260-266). -/
def CellTables.combine (T : CellTables p q) (N : Fin p → ℝ) (M : Fin q → ℝ) : Matrix (Fin 3) (Fin 3) ℝ :=
  ∑ i, ∑ j, (N i * M j) • T.CH i j

/-- `theta` (sample_optimize_homogenization.cpp:200, 232, 267). -/
def latticeAngle (t : ℝ) : ℝ := 0.5 * Real.pi * ((t - 0.001) / 0.998 - 0.5)

/-- `R` (sample_optimize_homogenization.cpp:201-204, 233-236, 268-271). -/
def latticeR (theta : ℝ) : Matrix (Fin 3) (Fin 3) ℝ :=
  Matrix.of ![![Real.cos theta * Real.cos theta, Real.sin theta * Real.sin theta, Real.cos theta * Real.sin theta],
    ![Real.sin theta * Real.sin theta, Real.cos theta * Real.cos theta, -Real.sin theta * Real.cos theta],
    ![-2 * Real.cos theta * Real.sin theta, 2 * Real.sin theta * Real.cos theta,
      Real.cos theta * Real.cos theta - Real.sin theta * Real.sin theta]]

/-- `dR` (sample_optimize_homogenization.cpp:272-275). -/
def latticeDR (theta : ℝ) : Matrix (Fin 3) (Fin 3) ℝ :=
  Matrix.of ![![-Real.sin (2 * theta), Real.sin (2 * theta), Real.cos (2 * theta)],
    ![Real.sin (2 * theta), -Real.sin (2 * theta), -Real.cos (2 * theta)],
    ![-2 * Real.cos (2 * theta), 2 * Real.cos (2 * theta), -2 * Real.sin (2 * theta)]]

/-- `CHi` of an element (sample_optimize_homogenization.cpp:192-205, 224-237). -/
def latticeTensor (T : CellTables p q) (a b t : ℝ) : Option (Matrix (Fin 3) (Fin 3) ℝ) := do
  let N ← lagrange T.as a
  let M ← lagrange T.bs b
  let R := latticeR (latticeAngle t)
  return Rᵀ * T.combine N M * R

/-- `dCHida`, `dCHidb` and `dCHidt` of an element (sample_optimize_homogenization.cpp:253-278). -/
def latticeDerivs (T : CellTables p q) (a b t : ℝ) :
    Option (Matrix (Fin 3) (Fin 3) ℝ × Matrix (Fin 3) (Fin 3) ℝ × Matrix (Fin 3) (Fin 3) ℝ) := do
  let N ← lagrange T.as a
  let dNdr ← lagrangeDerivative T.as a
  let M ← lagrange T.bs b
  let dMdr ← lagrangeDerivative T.bs b
  let R := latticeR (latticeAngle t)
  let dR := latticeDR (latticeAngle t)
  return (Rᵀ * T.combine dNdr M * R, Rᵀ * T.combine N dMdr * R,
    (0.5 * Real.pi / 0.998) • (dRᵀ * T.combine N M * R + Rᵀ * T.combine N M * dR))

/-- `PlaneStiffness` with its table (src/FEM/Equation/Homogenization.h:142-173) as called by the program. -/
def latticeKe (sf : SF ℝ 2 n) (ic : IC ℝ 2) (x : List (Vec ℝ)) (e : List ℕ) (D : Matrix (Fin 3) (Fin 3) ℝ) :
    Option (ElemData ℝ) := do
  let (Ke, nte) ← elemM 2 (fun X => planeStiffness sf ic X D 1) e [0, 1] x
  return ⟨Ke, nte, e⟩

/-- The stiffness loops (sample_optimize_homogenization.cpp:191-210, 223-243). -/
def latticeItems (sf : SF ℝ 2 n) (ic : IC ℝ 2) (x : List (Vec ℝ)) (elements : List (List ℕ)) (T : CellTables p q)
    (a b t : List ℝ) : Option (List (ElemData ℝ)) :=
  (List.range elements.length).mapM fun i => do
    latticeKe sf ic x (← elements[i]?) (← latticeTensor T (← a[i]?) (← b[i]?) (← t[i]?))

/-- `-ue*(dKe*ue)` (sample_optimize_homogenization.cpp:284-287). -/
def latticeTerm (u : List (Vec ℝ)) (it : ElemData ℝ) : Option ℝ := do
  let ue ← elementVector u it.nte it.element
  (← ue.neg).dot (← it.Ke.mulVec ue)

/-- `dfda[i]`, `dfdb[i]` and `dfdt[i]` (sample_optimize_homogenization.cpp:252-288); the element vector is the same in
the three products. -/
def latticeSensitivity (sf : SF ℝ 2 n) (ic : IC ℝ 2) (x : List (Vec ℝ)) (e : List ℕ) (T : CellTables p q)
    (a b t : ℝ) (u : List (Vec ℝ)) : Option (ℝ × ℝ × ℝ) := do
  let (da, db, dt) ← latticeDerivs T a b t
  let ka ← latticeKe sf ic x e da
  let kb ← latticeKe sf ic x e db
  let kt ← latticeKe sf ic x e dt
  return (← latticeTerm u ka, ← latticeTerm u kb, ← latticeTerm u kt)

/-- Reaction forces, compliance and sensitivities (sample_optimize_homogenization.cpp:218-288) for the displacements `u`
and the table `ntg` left by the analysis. -/
def latticeCompliance (sf : SF ℝ 2 n) (ic : IC ℝ 2) (x : List (Vec ℝ)) (elements : List (List ℕ)) (T : CellTables p q)
    (ntg : List (List ℤ)) (a b t : List ℝ) (u : List (Vec ℝ)) : Option (ℝ × List (ℝ × ℝ × ℝ)) := do
  let r ← reactions u (zeroField x.length 2) ntg (← latticeItems sf ic x elements T a b t)
  let f ← innerProduct u r
  let d ← (List.range elements.length).mapM fun i => do
    latticeSensitivity sf ic x (← elements[i]?) T (← a[i]?) (← b[i]?) (← t[i]?) u
  return (f, d)

/-- `g`, `dgda`, `dgdb` and `dgdt` (sample_optimize_homogenization.cpp:166-175) for `size` elements. -/
def latticeWeight (weightlimit : ℝ) (size : ℕ) (a b : List ℝ) : Option (ℝ × List (ℝ × ℝ × ℝ)) := do
  let g ← (List.range size).foldlM (fun g i => do
    return g + (← div? (1 - (1 - (← a[i]?)) * (1 - (← b[i]?))) (weightlimit * size))) 0
  let d ← (List.range size).mapM fun i => do
    return (← div? (1 - (← b[i]?)) (weightlimit * size), ← div? (1 - (← a[i]?)) (weightlimit * size), 0)
  return (g - 1, d)

/-- The interleaved vectors `s`, `dfds`, `dgds` (sample_optimize_homogenization.cpp:326-333). -/
def latticePack (d : List (ℝ × ℝ × ℝ)) : List ℝ := d.flatMap fun v => [v.1, v.2.1, v.2.2]

/-- The new design variables (sample_optimize_homogenization.cpp:335-337). -/
def latticeUnpack (size : ℕ) (s : List ℝ) : Option (List ℝ × List ℝ × List ℝ) := do
  return (← (List.range size).mapM fun i => s[3 * i]?, ← (List.range size).mapM fun i => s[3 * i + 1]?,
    ← (List.range size).mapM fun i => s[3 * i + 2]?)

end Pansfem
