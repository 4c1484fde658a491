/-
The time dependent programs of /repo/sample with one unknown field: heat conduction, advection-diffusion,
reaction-diffusion.

Mesh, boundary conditions and constants are literals or come from a mesher or files there; they are inputs here.
-/
import Verif.Model.ProgramPost

namespace Pansfem

/-- An element of the loops below: mass (capacity) matrix, stiffness matrix, source vector if the program has one,
table, nodes (sample_heattransfer_dynamic.cpp:56-60, sample_reactiondiffusion.cpp:48-55). -/
structure TimeItem (K : Type) where
  Me : Mat K
  Ke : Mat K
  Fe : Option (Vec K)
  nte : List (List (ℕ × ℕ))
  element : List ℕ

/-- `Ae = Ce/dt + Ke*theta`, `be = (Ce/dt - Ke*(1.0 - theta))*Te` (sample_heattransfer_dynamic.cpp:61-63,
sample_advectiondiffusion_dynamic.cpp:67-69), `+ Fe` (sample_reactiondiffusion.cpp:56-58). -/
def thetaElem {K : Type} [Field K] [DecidableEq K] (dt theta : K) (u : List (Vec K)) (it : TimeItem K) :
    Option (Mat K × Vec K) := do
  let ue ← elementVector u it.nte it.element
  let Ae ← (← it.Me.sdiv dt).add (← it.Ke.smul theta)
  let be ← (← (← it.Me.sdiv dt).sub (← it.Ke.smul (1 - theta))).mulVec ue
  match it.Fe with
  | none => return (Ae, be)
  | some f => return (Ae, ← be.add f)

/-- The assembling calls of a time step: two calls per element (sample_heattransfer_dynamic.cpp:64-65,
sample_reactiondiffusion.cpp:59-60) or one (sample_advectiondiffusion_dynamic.cpp:70). -/
def thetaCalls {K : Type} [Field K] [DecidableEq K] (joint : Bool) (dt theta : K) (u : List (Vec K))
    (items : List (TimeItem K)) : Option (List (AsmCall K)) := do
  let cs ← items.mapM fun it => do
    let (Ae, be) ← thetaElem dt theta u it
    return if joint then [.both Ae be it.nte it.element] else [.matrix Ae it.nte it.element, .load be it.nte it.element]
  return cs.flatten

noncomputable section

/-- A time step (sample_heattransfer_dynamic.cpp:52-70): `loop` are the element routines, which may use the current
field. -/
def thetaStep (s : LinSolver) (joint : Bool) (dt theta : ℝ) (loop : List (Vec ℝ) → Option (List (TimeItem ℝ)))
    (t : List (List ℤ)) (N : ℕ) (u : List (Vec ℝ)) : Option (List (Vec ℝ) × Bool) := do
  solveStep s u t N (← thetaCalls joint dt theta u (← loop u))

/-- The loop over the time steps (sample_heattransfer_dynamic.cpp:49-79) without the files; the flag tells whether
the solver met its criterion in all steps, the program does not ask for it. -/
def thetaSteps (s : LinSolver) (joint : Bool) (dt theta : ℝ) (loop : List (Vec ℝ) → Option (List (TimeItem ℝ)))
    (t : List (List ℤ)) (N : ℕ) : ℕ → List (Vec ℝ) → Option (List (Vec ℝ) × Bool)
  | 0, u => some (u, true)
  | k + 1, u => do
    let (u', c) ← thetaStep s joint dt theta loop t N u
    let (u'', c') ← thetaSteps s joint dt theta loop t N k u'
    return (u'', c && c')

/-- `main` (sample_heattransfer_dynamic.cpp:39-79, sample_advectiondiffusion_dynamic.cpp:29-84,
sample_reactiondiffusion.cpp:30-74). -/
def timeAnalysis (s : LinSolver) (joint : Bool) (dt theta : ℝ) (loop : List (Vec ℝ) → Option (List (TimeItem ℝ)))
    (u₀ : List (Vec ℝ)) (t₀ : List (List ℤ)) (bc : List ((ℕ × ℕ) × ℝ)) (steps : ℕ) :
    Option (List (Vec ℝ) × Bool) := do
  let (u, t₁) ← setDirichlet u₀ t₀ bc
  thetaSteps s joint dt theta loop (renumbering t₁).1 (renumbering t₁).2 steps u

/-- The element routines of sample_heattransfer_dynamic.cpp:56-60. -/
def heatTimeItems (x : List (Vec ℝ)) (elements : List (List ℕ)) (alpha rho c t : ℝ) : Option (List (TimeItem ℝ)) :=
  elements.mapM fun e => do
    let (Ke, _) ← elemM 1 (scalarCore fun X => heatTransfer SF.triangle3 IC.gauss1Triangle X alpha t) e [0] x
    let (Ce, nte) ← elemM 1 (scalarCore fun X => heatCapacity SF.triangle3 IC.gauss1Triangle X rho c t) e [0] x
    return ⟨Ce, Ke, none, nte, e⟩

/-- sample_heattransfer_dynamic.cpp:39-79. -/
def heatDynamic (x : List (Vec ℝ)) (elements : List (List ℕ)) (bc : List ((ℕ × ℕ) × ℝ)) (alpha rho c t dt theta : ℝ)
    (steps : ℕ) : Option (List (Vec ℝ) × Bool) :=
  timeAnalysis useScalingCG false dt theta (fun _ => heatTimeItems x elements alpha rho c t)
    (zeroField x.length 1) (freeTable x.length 1) bc steps

/-- The element routines of sample_reactiondiffusion.cpp:48-55. -/
def reactionItems (x : List (Vec ℝ)) (elements : List (List ℕ)) (D : ℝ) (f : ℝ → (Fin 2 → ℝ) → ℝ)
    (u : List (Vec ℝ)) : Option (List (TimeItem ℝ)) :=
  elements.mapM fun e => do
    let (Me, _) ← elemM 1 (scalarCore fun X => rdConsistentMass SF.square4 IC.gauss4Square X) e [0] x
    let (Ke, _) ← elemM 1 (scalarCore fun X => rdStiffness SF.square4 IC.gauss4Square X D) e [0] x
    let U ← gather u e 4 1
    let (Fe, nte) ← elemV 1 (fun X => (rdReaction SF.square4 IC.gauss4Square X (fun i => U i 0) f).map
      fun w p => w p.1) e [0] x
    return ⟨Me, Ke, some Fe, nte, e⟩

/-- sample_reactiondiffusion.cpp:30-74. -/
def reactionDiffusion (x : List (Vec ℝ)) (elements : List (List ℕ)) (D dt theta : ℝ) (f : ℝ → (Fin 2 → ℝ) → ℝ)
    (u₀ : List (Vec ℝ)) (steps : ℕ) : Option (List (Vec ℝ) × Bool) :=
  timeAnalysis useScalingCG false dt theta (reactionItems x elements D f) u₀ (freeTable x.length 1) [] steps

end

end Pansfem
