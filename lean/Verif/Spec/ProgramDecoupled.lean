/-
What the properties of the decoupled Navier-Stokes program refer to.
-/
import Verif.Model.ProgramDecoupled
import Verif.Spec.ProgramMesh
import Verif.Spec.ProgramDesign
import Verif.Spec.ProgramDynamic
import Verif.Lemmas.Quads

noncomputable section

namespace Pansfem

/-- A problem that the program can treat: a mesh of quadrilaterals with positive Jacobians that covers all nodes, linked
to nodes with given pressure; boundary values at existing dofs, every pressure zero; positive density and time step. -/
structure DecoupledProgram.Ok (P : DecoupledProgram) : Prop where
  quads : Quads P.x P.elements
  used : ∀ m < P.x.length, ∃ e ∈ P.elements, m ∈ e
  linked : ∀ m < P.x.length, Anchored P.elements (P.pfixed.map Prod.fst) m
  ufixedRange : ∀ r ∈ P.ufixed, r.1.1 < P.x.length ∧ r.1.2 < 2
  pfixedRange : ∀ r ∈ P.pfixed, r.1.1 < P.x.length ∧ r.1.2 < 1
  pfixedZero : ∀ r ∈ P.pfixed, r.2 = 0
  size : P.x.length ≤ 100000
  density : 0 < P.rho
  step : 0 < P.dt

variable (P : DecoupledProgram)

/-- The values of component `a` of a field at the nodes of an element. -/
def nodeComp (e : List ℕ) (w : ℕ → ℕ → ℝ) (a : ℕ) (i : Fin 4) : ℝ := w (e[(i : ℕ)]?.getD 0) a

/-- The value of component `a` of a field at an integration point of an element. -/
def valueAt (e : List ℕ) (w : ℕ → ℕ → ℝ) (g : Fin IC.gauss4Square.N) (a : ℕ) : ℝ :=
  interp ((SF.square4 : SF ℝ 2 4).N (IC.gauss4Square.points g)) (nodeComp e w a)

/-- The derivative by coordinate `k` of component `a` of a field at an integration point of an element. -/
def derivAt (e : List ℕ) (w : ℕ → ℕ → ℝ) (g : Fin IC.gauss4Square.N) (k : Fin 2) (a : ℕ) : ℝ :=
  interp (gradAt SF.square4 (nodeCoords P.x e) (IC.gauss4Square.points g) k) (nodeComp e w a)

/-- The integral over the mesh of a quantity given at the integration points of the elements. -/
def meshIntegral (f : List ℕ → Fin IC.gauss4Square.N → ℝ) : ℝ :=
  (P.elements.map fun e => ∑ g, measure2 SF.square4 IC.gauss4Square (nodeCoords P.x e) g * f e g).sum

/-- The mass `rho (w, v)` with a quarter of the mass of an element at each of its nodes. -/
def lumpedMass (w v : ℕ → ℕ → ℝ) : ℝ :=
  (P.elements.map fun e => P.rho * (∑ g, measure2 SF.square4 IC.gauss4Square (nodeCoords P.x e) g) / 4 *
    ∑ i : Fin 4, ∑ a : Fin 2, nodeComp e w a i * nodeComp e v a i).sum

/-- Convection and viscosity: the integral of `rho w ((u grad) u) + mu grad w : grad u`. -/
def convection (w u : ℕ → ℕ → ℝ) : ℝ :=
  meshIntegral P fun e g => ∑ a : Fin 2, (P.rho * valueAt e w g a * ∑ k : Fin 2, valueAt e u g k * derivAt P e u g k a +
    P.mu * ∑ k : Fin 2, derivAt P e w g k a * derivAt P e u g k a)

/-- The integral of `w grad p`. -/
def pressureWork (w p : ℕ → ℕ → ℝ) : ℝ :=
  meshIntegral P fun e g => ∑ a : Fin 2, valueAt e w g a * derivAt P e p g a 0

/-- The integral of `grad q grad p`. -/
def poissonForm (q p : ℕ → ℕ → ℝ) : ℝ :=
  meshIntegral P fun e g => ∑ k : Fin 2, derivAt P e q g k 0 * derivAt P e p g k 0

/-- The integral of `q div v`. -/
def divergenceWork (q v : ℕ → ℕ → ℝ) : ℝ :=
  meshIntegral P fun e g => valueAt e q g 0 * ∑ k : Fin 2, derivAt P e v g k k

/-- The residual of the pressure equation `rho/dt div v = laplace p` at a node. -/
def pressureResidual (v p : ℕ → ℕ → ℝ) (n d : ℕ) : ℝ :=
  poissonForm P (unitField n d) p + P.rho / P.dt * divergenceWork P (unitField n d) v

/-- A field of velocities with the boundary values. -/
structure VelocityOf (u : List (Vec ℝ)) : Prop where
  shaped : Shaped u (freeTable P.x.length 2)
  boundary : ∀ n d a, lastValue P.ufixed n d = some a → nodal u n d = some a

/-- A field of pressures with the given values. -/
structure PressureOf (p : List (Vec ℝ)) : Prop where
  shaped : Shaped p (freeTable P.x.length 1)
  boundary : ∀ r ∈ P.pfixed, nodal p r.1.1 r.1.2 = some 0

/-- The three fields have their boundary values. -/
structure Flow.Bounded (f : Flow) : Prop where
  v : VelocityOf P f.v
  u : VelocityOf P f.u
  p : PressureOf P f.p

/-- A field that vanishes at the given dofs. -/
def Vanishing (fixed : List ((ℕ × ℕ) × ℝ)) (w : ℕ → ℕ → ℝ) : Prop := ∀ r ∈ fixed, w r.1.1 r.1.2 = 0

/-- The auxiliary velocity: an explicit step without pressure, `rho (v - u)/dt + rho (u grad) u - mu laplace u = 0` in weak
form with lumped mass. -/
def Predicted (u v : ℕ → ℕ → ℝ) : Prop :=
  ∀ w, Vanishing P.ufixed w → lumpedMass P w (v - u) + P.dt * convection P w u = 0

/-- The velocity of the next step: `rho (u' - v)/dt + grad p = 0` in weak form with lumped mass. -/
def Corrected (v p u' : ℕ → ℕ → ℝ) : Prop :=
  ∀ w, Vanishing P.ufixed w → lumpedMass P w (u' - v) + P.dt * pressureWork P w p = 0

/-- The pressure equation holds up to `1e-10` of its right-hand side. -/
def PressureSolved (v p : ℕ → ℕ → ℝ) : Prop :=
  dofNorm (freeDofs (freeTable P.x.length 1) P.pfixed) (pressureResidual P v p) <
    1 / 10 ^ 10 * dofNorm (freeDofs (freeTable P.x.length 1) P.pfixed) (pressureResidual P v 0)

/-- A time step as it should be. -/
structure DecoupledStep (f f' : Flow) : Prop where
  predicted : Predicted P (valOf f.u) (valOf f'.v)
  pressure : PressureSolved P (valOf f'.v) (valOf f'.p)
  corrected : Corrected P (valOf f'.v) (valOf f'.p) (valOf f'.u)

/-- A field of velocities is divergence free as far as the pressure equation can tell: its right-hand side vanishes
wherever the pressure is not given. -/
def Solenoidal (v : ℕ → ℕ → ℝ) : Prop :=
  ∀ n < P.x.length, (n, 0) ∉ P.pfixed.map Prod.fst → divergenceWork P (unitField n 0) v = 0

/-- The fields before the first step: boundary values, and zero velocity elsewhere. -/
structure Flow.Starts (f : Flow) : Prop where
  bounded : f.Bounded P
  rest : ∀ n d, lastValue P.ufixed n d = none → valOf f.u n d = 0

/-- Fields after zero, one, ..., `k` time steps. -/
structure DecoupledChain (flow : ℕ → Flow) (k : ℕ) : Prop where
  start : (flow 0).Starts P
  bounded : ∀ i ≤ k, (flow i).Bounded P
  step : ∀ i < k, DecoupledStep P (flow i) (flow (i + 1))

/-- The step after the field `f` has no pressure equation to solve: the auxiliary velocity is divergence free. -/
def DecoupledStalls (f : Flow) : Prop :=
  ∃ v, VelocityOf P v ∧ Predicted P (valOf f.u) (valOf v) ∧ Solenoidal P (valOf v)

end Pansfem
