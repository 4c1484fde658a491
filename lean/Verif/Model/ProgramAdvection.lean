/-
The advection-diffusion programs sample/advection/sample_advectiondiffusion_static.cpp and
sample_advectiondiffusion_dynamic.cpp.

Mesh, boundary values and constants come from files or are literals there; they are inputs here.
-/
import Verif.Model.ProgramDynamic
import Verif.Model.Fluid

namespace Pansfem

open Matrix

noncomputable section

/-- `BiCGSTAB(Kmod, F, 100000, 1.0e-10)` (sample_advectiondiffusion_static.cpp:57, sample_advectiondiffusion_dynamic.cpp:74). -/
def useBiCGSTAB : LinSolver := fun _ A b => bicgstab A b 100000 (1 / 10 ^ 10)

/-- `A + B + C` (sample_advectiondiffusion_static.cpp:44-52) and `A + D + AS` (sample_advectiondiffusion_dynamic.cpp:61-66). -/
def transportCore (w : Fin 2 → ℝ) (k : ℝ) (X : Matrix (Fin 3) (Fin 2) ℝ) : Option (Matrix (Fin 3) (Fin 3) ℝ) := do
  let A ← advection SF.triangle3 IC.gauss1Triangle X w
  let B ← rdStiffness SF.triangle3 IC.gauss1Triangle X k
  let C ← advectionSUPG SF.triangle3 IC.gauss1Triangle X w k
  return A + B + C

/-- The element matrix (sample_advectiondiffusion_static.cpp:43-52); the shock-capturing matrix `D` is computed and
dropped. -/
def advectionCore (w : Fin 2 → ℝ) (k : ℝ) (X : Matrix (Fin 3) (Fin 2) ℝ) : Option (Matrix (Fin 3) (Fin 3) ℝ) := do
  let Ke ← transportCore w k X
  let _ ← shockCapturing SF.triangle3 IC.gauss1Triangle X w k
  return Ke

/-- The calls of sample_advectiondiffusion_static.cpp:41-54. -/
def advectionCalls (w : Fin 2 → ℝ) (k : ℝ) (x : List (Vec ℝ)) (elements : List (List ℕ)) : Option (List (AsmCall ℝ)) :=
  matrixCalls 1 (scalarCore (advectionCore w k)) [0] x elements

/-- `main` (sample_advectiondiffusion_static.cpp:32-58) with any solver. -/
def advectionStatic (s : LinSolver) (w : Fin 2 → ℝ) (k : ℝ) (x : List (Vec ℝ)) (elements : List (List ℕ))
    (bc : List ((ℕ × ℕ) × ℝ)) : Option (List (Vec ℝ) × Bool) := do
  staticAnalysis s (zeroField x.length 1) (freeTable x.length 1) bc (← advectionCalls w k x elements)

/-- `a*cos(theta*M_PI/180.0)`, `a*sin(theta*M_PI/180.0)` (sample_advectiondiffusion_static.cpp:28-29, 44). -/
def windAt (a theta : ℝ) : Fin 2 → ℝ :=
  ![a * Real.cos (theta * Real.pi / 180), a * Real.sin (theta * Real.pi / 180)]

/-- The constants and the solver of sample_advectiondiffusion_static.cpp:28-30, 57. -/
def advectionSample (x : List (Vec ℝ)) (elements : List (List ℕ)) (bc : List ((ℕ × ℕ) × ℝ)) :
    Option (List (Vec ℝ) × Bool) :=
  advectionStatic useBiCGSTAB (windAt 1 60) (1 / 10 ^ 6) x elements bc

/-- `CenterOfGravity(x, element)` (sample_advectiondiffusion_dynamic.cpp:52, src/FEM/Equation/General.h:71-77) of a
triangle. -/
def triCentre (X : Matrix (Fin 3) (Fin 2) ℝ) : Fin 2 → ℝ := fun j => (∑ i, X i j) / 3

/-- `ax`, `ay` (sample_advectiondiffusion_dynamic.cpp:53-54). -/
def spin (g : Fin 2 → ℝ) : Fin 2 → ℝ := ![-(g 1 - 1 / 2), g 0 - 1 / 2]

/-- `M + MS` (sample_advectiondiffusion_dynamic.cpp:57-60). -/
def transportMass (w : Fin 2 → ℝ) (k : ℝ) (X : Matrix (Fin 3) (Fin 2) ℝ) : Option (Matrix (Fin 3) (Fin 3) ℝ) := do
  return (← advectionMass SF.triangle3 IC.gauss1Triangle X) + (← massSUPG SF.triangle3 IC.gauss1Triangle X w k)

/-- The element routines of sample_advectiondiffusion_dynamic.cpp:51-66; `vel` is the velocity at the centre. -/
def advectionItems (vel : (Fin 2 → ℝ) → Fin 2 → ℝ) (k : ℝ) (x : List (Vec ℝ)) (elements : List (List ℕ)) :
    Option (List (TimeItem ℝ)) :=
  elements.mapM fun e => do
    let (Me, _) ← elemM 1 (scalarCore fun X => transportMass (vel (triCentre X)) k X) e [0] x
    let (Ke, nte) ← elemM 1 (scalarCore fun X => transportCore (vel (triCentre X)) k X) e [0] x
    return ⟨Me, Ke, none, nte, e⟩

/-- The initial field (sample_advectiondiffusion_dynamic.cpp:29-36). -/
def bump (x : List (Vec ℝ)) : Option (List (Vec ℝ)) :=
  x.mapM fun p => do
    let px ← p.at? 0
    let py ← p.at? 1
    let r := Real.sqrt ((px - 1 / 2) ^ 2 + (py - 3 / 4) ^ 2)
    return ⟨[if r ≤ 1 / 4 then 1 / 2 * (Real.cos (4 * Real.pi * r) + 1) else 0]⟩

/-- `main` (sample_advectiondiffusion_dynamic.cpp:29-84) from the field `u₀` with any solver. -/
def advectionDynamic (s : LinSolver) (vel : (Fin 2 → ℝ) → Fin 2 → ℝ) (k dt theta : ℝ) (x : List (Vec ℝ))
    (elements : List (List ℕ)) (bc : List ((ℕ × ℕ) × ℝ)) (u₀ : List (Vec ℝ)) (steps : ℕ) :
    Option (List (Vec ℝ) × Bool) :=
  timeAnalysis s true dt theta (fun _ => advectionItems vel k x elements) u₀ (freeTable x.length 1) bc steps

/-- The constants and the solver of sample_advectiondiffusion_dynamic.cpp:41-45, 74. -/
def advectionRotation (x : List (Vec ℝ)) (elements : List (List ℕ)) (bc : List ((ℕ × ℕ) × ℝ)) :
    Option (List (Vec ℝ) × Bool) := do
  advectionDynamic useBiCGSTAB spin 0 (Real.pi / 50) (1 / 2) x elements bc (← bump x) 100

end

end Pansfem
