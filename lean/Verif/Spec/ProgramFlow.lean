/-
What the properties of the programs with velocities and pressure in one system refer to.

A field gives the velocities as components 0, 1 and the pressure as component 2 at every node.
-/
import Verif.Model.ProgramFlow
import Verif.Spec.ProgramDecoupled
import Verif.Lemmas.Fluid

noncomputable section

namespace Pansfem

/-- A mesh with shape functions for velocities and pressure and integration points. -/
structure FlowMesh (m n : ℕ) where
  sfu : SF ℝ 2 m
  sfp : SF ℝ 2 n
  ic : IC ℝ 2
  x : List (Vec ℝ)
  elements : List (List ℕ × List ℕ)

namespace FlowMesh
variable {m n : ℕ} (G : FlowMesh m n)

/-- The coordinates of the pressure nodes of an element. -/
def coords (e : List ℕ × List ℕ) : Matrix (Fin n) (Fin 2) ℝ := Matrix.of fun j k => (nodal G.x (e.2[(j : ℕ)]?.getD 0) k).getD 0

/-- Velocity `a` of a field at an integration point. -/
def vel (e : List ℕ × List ℕ) (w : ℕ → ℕ → ℝ) (g : Fin G.ic.N) (a : ℕ) : ℝ :=
  interp (G.sfu.N (G.ic.points g)) fun i => w (e.1[(i : ℕ)]?.getD 0) a

/-- The derivative by coordinate `k` of velocity `a` at an integration point. -/
def dvel (e : List ℕ × List ℕ) (w : ℕ → ℕ → ℝ) (g : Fin G.ic.N) (k : Fin 2) (a : ℕ) : ℝ :=
  interp (gradMix G.sfu G.sfp (G.coords e) (G.ic.points g) k) fun i => w (e.1[(i : ℕ)]?.getD 0) a

/-- The pressure at an integration point. -/
def pres (e : List ℕ × List ℕ) (w : ℕ → ℕ → ℝ) (g : Fin G.ic.N) : ℝ :=
  interp (G.sfp.N (G.ic.points g)) fun j => w (e.2[(j : ℕ)]?.getD 0) 2

/-- The derivative by coordinate `k` of the pressure at an integration point. -/
def dpres (e : List ℕ × List ℕ) (w : ℕ → ℕ → ℝ) (g : Fin G.ic.N) (k : Fin 2) : ℝ :=
  interp (gradAt G.sfp (G.coords e) (G.ic.points g) k) fun j => w (e.2[(j : ℕ)]?.getD 0) 2

/-- The integral over the mesh of a quantity given at the integration points of the elements. -/
def integral (f : List ℕ × List ℕ → Fin G.ic.N → ℝ) : ℝ :=
  (G.elements.map fun e => ∑ g, measure2 G.sfp G.ic (G.coords e) g * f e g).sum

/-- The integral of `rho w v`. -/
def kinetic (rho : ℝ) (w v : ℕ → ℕ → ℝ) : ℝ := G.integral fun e g => rho * ∑ a : Fin 2, G.vel e w g a * G.vel e v g a

/-- The integral of `rho w ((b grad) v)`. -/
def convect (rho : ℝ) (b w v : ℕ → ℕ → ℝ) : ℝ :=
  G.integral fun e g => rho * ∑ a : Fin 2, G.vel e w g a * ∑ k : Fin 2, G.vel e b g k * G.dvel e v g k a

/-- The integral of `2 mu eps(w) : eps(v)` with the rates of strain `eps`. -/
def viscous (mu : ℝ) (w v : ℕ → ℕ → ℝ) : ℝ := G.integral fun e g => 2 * mu * ∑ a : Fin 2, ∑ k : Fin 2,
  ((G.dvel e w g k a + G.dvel e w g a k) / 2) * ((G.dvel e v g k a + G.dvel e v g a k) / 2)

/-- The integral of `q div v` with the pressure part of `q`. -/
def expand (q v : ℕ → ℕ → ℝ) : ℝ := G.integral fun e g => G.pres e q g * ∑ k : Fin 2, G.dvel e v g k k

/-- The equation of a time step tested with `w`: `rho ((v - u)/dt + (b grad) z) - div (2 mu eps(z)) + grad p = 0`, `div v = 0`
with `z = theta v + (1 - theta) u` and the pressure `p` of `v`. -/
def galerkin (rho mu dt theta : ℝ) (b u v w : ℕ → ℕ → ℝ) : ℝ :=
  G.kinetic rho w (dt⁻¹ • (v - u)) + G.convect rho b w (theta • v + (1 - theta) • u) +
    G.viscous mu w (theta • v + (1 - theta) • u) - G.expand v w + G.expand w v

/-- The stabilisation parameter of the advection velocity `b` at an integration point. -/
def tau (rho mu dt : ℝ) (b : ℕ → ℕ → ℝ) (e : List ℕ × List ℕ) (g : Fin G.ic.N) : ℝ :=
  (supgTau (fun k : Fin 2 => G.vel e b g k) (gradMix G.sfu G.sfp (G.coords e) (G.ic.points g))
    (area G.sfp G.ic (G.coords e)) rho mu dt).getD 0

/-- Momentum equation `a` of a time step at an integration point without its viscous part. -/
def momentum (rho dt theta : ℝ) (b u v : ℕ → ℕ → ℝ) (e : List ℕ × List ℕ) (g : Fin G.ic.N) (a : Fin 2) : ℝ :=
  rho * (G.vel e (dt⁻¹ • (v - u)) g a + ∑ k : Fin 2, G.vel e b g k * G.dvel e (theta • v + (1 - theta) • u) g k a) +
    G.dpres e v g a

/-- The equation of a time step with the momentum equation also tested with `tau ((b grad) w + grad q)`. -/
def stabilised (rho mu dt theta : ℝ) (b u v w : ℕ → ℕ → ℝ) : ℝ :=
  G.galerkin rho mu dt theta b u v w + G.integral fun e g => G.tau rho mu dt b e g * ∑ a : Fin 2,
    ((∑ k : Fin 2, G.vel e b g k * G.dvel e w g k a) + G.dpres e w g a) * G.momentum rho dt theta b u v e g a

/-- The integral of `mu (grad w : grad v + div w div v)`, which is `viscous` for divergence free velocities that vanish on the
boundary only. -/
def laplace (mu : ℝ) (w v : ℕ → ℕ → ℝ) : ℝ := G.integral fun e g => mu * ((∑ a : Fin 2, ∑ k : Fin 2,
  G.dvel e w g k a * G.dvel e v g k a) + (∑ k : Fin 2, G.dvel e w g k k) * ∑ k : Fin 2, G.dvel e v g k k)

/-- The equation of a time step of sample_stokes_dynamic.cpp for the work `load` of the tractions: pressure and continuity are
taken at the mean of the two times as well. -/
def stokes (rho mu dt theta : ℝ) (load : (ℕ → ℕ → ℝ) → ℝ) (u v w : ℕ → ℕ → ℝ) : ℝ :=
  G.kinetic rho w (dt⁻¹ • (v - u)) + G.laplace mu w (theta • v + (1 - theta) • u) -
    G.expand (theta • v + (1 - theta) • u) w - G.expand w (theta • v + (1 - theta) • u) - load w

end FlowMesh

/-- The criterion of the solver for the step from `u` to `v` with the equation `E u v w = 0` for all `w`: the norm of the
residual over the free dofs is below `1e-10` times its norm for the given values alone. -/
def FlowMet (nodes : ℕ) (bc : List ((ℕ × ℕ) × ℝ)) (E : (ℕ → ℕ → ℝ) → (ℕ → ℕ → ℝ) → (ℕ → ℕ → ℝ) → ℝ) (u v : ℕ → ℕ → ℝ) : Prop :=
  dofNorm (freeDofs (freeTable nodes 3) bc) (fun a d => E u v (unitField a d)) <
    1 / 10 ^ 10 * dofNorm (freeDofs (freeTable nodes 3) bc) fun a d => E u (held (freeTable nodes 3) bc u) (unitField a d)

/-- A step without solver error: the equation holds for all test fields that vanish where values are given, and these values are
kept. -/
structure FlowExact (bc : List ((ℕ × ℕ) × ℝ)) (E : (ℕ → ℕ → ℝ) → (ℕ → ℕ → ℝ) → (ℕ → ℕ → ℝ) → ℝ) (u v : ℕ → ℕ → ℝ) : Prop where
  equation : ∀ w, Vanishing bc w → E u v w = 0
  boundary : ∀ r ∈ bc, v r.1.1 r.1.2 = u r.1.1 r.1.2

/-- The advection velocity of step `k`: zero in the first step, then the velocity of the step before. -/
def advecting (U : ℕ → List (Vec ℝ)) (k : ℕ) : ℕ → ℕ → ℝ := if k = 0 then 0 else valOf (U k)

/-- The fields of a run of `steps` steps: the first has the given values and zeros, the given values are kept. -/
structure FlowRun (nodes : ℕ) (bc : List ((ℕ × ℕ) × ℝ)) (steps : ℕ) (U : ℕ → List (Vec ℝ)) : Prop where
  start : ∀ a < nodes, ∀ d < 3, nodal (U 0) a d = some ((lastValue bc a d).getD 0)
  shaped : ∀ k ≤ steps, ∀ a d, (nodal (U k) a d).isSome ↔ a < nodes ∧ d < 3
  boundary : ∀ k ≤ steps, ∀ a d c, lastValue bc a d = some c → nodal (U k) a d = some c

/-- The velocities of `v` are divergence free for all test pressures that vanish where pressure is given. -/
def FlowMesh.DivFree {m n : ℕ} (G : FlowMesh m n) (bc : List ((ℕ × ℕ) × ℝ)) (v : ℕ → ℕ → ℝ) : Prop :=
  ∀ q, Vanishing bc q → G.expand q v = 0

/-- All elements are positively oriented at their integration points. -/
def FlowMesh.Positive {m n : ℕ} (G : FlowMesh m n) : Prop :=
  ∀ e ∈ G.elements, ∀ g, 0 < measure2 G.sfp G.ic (G.coords e) g

/-- The work of the tractions `f` on the edges. -/
def tractionWork (x : List (Vec ℝ)) (edges : List (List ℕ × List ℕ)) (f : (Fin 2 → ℝ) → Fin 2 → ℝ) (w : ℕ → ℕ → ℝ) : ℝ :=
  (edges.map fun e =>
    let X : Matrix (Fin 2) (Fin 2) ℝ := Matrix.of fun j k => (nodal x (e.2[(j : ℕ)]?.getD 0) k).getD 0
    ∑ g, lineElement SF.line2 X (IC.gauss2Line.points g) * IC.gauss2Line.weights g 0 *
      ∑ a : Fin 2, f (place (SF.line2.N (IC.gauss2Line.points g)) X) a *
        interp (SF.line3.N (IC.gauss2Line.points g)) fun i => w (e.1[(i : ℕ)]?.getD 0) a).sum

/-- Elements with the right numbers of existing nodes, coordinates for all nodes, and elements that are not degenerate at their
integration points. -/
structure FlowMesh.Valid {m n : ℕ} (G : FlowMesh m n) : Prop where
  lengthu : ∀ e ∈ G.elements, e.1.length = m
  lengthp : ∀ e ∈ G.elements, e.2.length = n
  nodesu : ∀ e ∈ G.elements, ∀ a ∈ e.1, a < G.x.length
  nodesp : ∀ e ∈ G.elements, ∀ a ∈ e.2, a < G.x.length
  coords : ∀ a < G.x.length, ∀ k < 2, (nodal G.x a k).isSome
  regular : ∀ e ∈ G.elements, Regular G.sfp G.ic (G.coords e)

/-- A solver that never divides by zero. -/
def LinSolver.Answers (s : LinSolver) : Prop :=
  ∀ (n : ℕ) (A : CSR ℝ) (M : Matrix (Fin n) (Fin n) ℝ) (b : Fin n → ℝ), IsCSR n A M → ∃ x conv, s n A b = some (x, conv)

end Pansfem
