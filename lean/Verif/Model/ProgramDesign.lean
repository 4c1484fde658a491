/-
The optimisation programs of /repo/sample: stiffness, compliance and sensitivities for given design variables.

Mesh, supports, loads and constants are literals or come from a mesher there; they are inputs here.
-/
import Verif.Model.ProgramPost
import Mathlib.Analysis.SpecialFunctions.Pow.Real

noncomputable section

namespace Pansfem

variable {n d : ℕ}

/-- An element loop with one coefficient per element (sample_truss_sizeoptimization.cpp:90-95,
sample_optimize_density_oc.cpp:122-128): reading past the end of the coefficients is undefined. -/
def designItems (k : ℕ)
    (core : ℝ → Matrix (Fin n) (Fin d) ℝ → Option (Matrix (Fin n × Fin k) (Fin n × Fin k) ℝ)) (doulist : List ℕ)
    (x : List (Vec ℝ)) (elements : List (List ℕ)) (c : List ℝ) : Option (List (ElemData ℝ)) :=
  (List.range elements.length).mapM fun i => do
    let e ← elements[i]?
    let (Ke, nte) ← elemM k (core (← c[i]?)) e doulist x
    return ⟨Ke, nte, e⟩

/-- `Truss2D` (src/FEM/Equation/Truss.h:21-40) with the rows as node and direction; the table of
Truss.h:26-27 is the interleaved one. -/
def trussCore (E A : ℝ) (X : Matrix (Fin 2) (Fin 2) ℝ) : Option (Matrix (Fin 2 × Fin 2) (Fin 2 × Fin 2) ℝ) :=
  (truss2D X E A).map fun M => M.submatrix finProdFinEquiv finProdFinEquiv

/-- `-scale0*ue*(Ke*ue)` (sample_truss_sizeoptimization.cpp:129-130). -/
def trussSensitivity (scale : ℝ) (u : List (Vec ℝ)) (it : ElemData ℝ) : Option ℝ := do
  let ue ← elementVector u it.nte it.element
  (← ue.smul (-scale)).dot (← it.Ke.mulVec ue)

/-- `-scale0*p*(- E0 + E1)*pow(rho[i], p - 1.0)*(ue*(Ke*ue))` (sample_optimize_density_oc.cpp:160-161). -/
def densitySensitivity (scale p E0 E1 rho : ℝ) (u : List (Vec ℝ)) (it : ElemData ℝ) : Option ℝ := do
  let ue ← elementVector u it.nte it.element
  return -scale * p * (-E0 + E1) * rho ^ (p - 1) * (← ue.dot (← it.Ke.mulVec ue))

/-- Cross section of a bar, `A0*(1.0 - s[i]) + A1*s[i]` (sample_truss_sizeoptimization.cpp:91). -/
def trussArea (A0 A1 s : ℝ) : ℝ := A0 * (1 - s) + A1 * s

/-- Young's modulus of an element, `E1*pow(rho[i], p) + E0*(1.0 - pow(rho[i], p))`
(sample_optimize_density_oc.cpp:123). -/
def densityModulus (p E0 E1 rho : ℝ) : ℝ := E1 * rho ^ p + E0 * (1 - rho ^ p)

/-- The stiffness loop of the truss program (sample_truss_sizeoptimization.cpp:90-95). -/
def trussItems (x : List (Vec ℝ)) (elements : List (List ℕ)) (E A0 A1 : ℝ) (s : List ℝ) : Option (List (ElemData ℝ)) :=
  designItems 2 (trussCore E) [0, 1] x elements (s.map (trussArea A0 A1))

/-- The stiffness loop of the density programs (sample_optimize_density_oc.cpp:122-128,
sample_optimize_density_mma.cpp:127-133, sample_optimize_density_CONLIN.cpp:127-133). -/
def densityItems (x : List (Vec ℝ)) (elements : List (List ℕ)) (V t p E0 E1 : ℝ) (rho : List ℝ) :
    Option (List (ElemData ℝ)) :=
  designItems 2 (fun E X => planeStrainStiffness SF.square4 IC.gauss4Square X E V t) [0, 1] x elements
    (rho.map (densityModulus p E0 E1))

/-- Reaction forces and compliance `scale0*std::inner_product(u.begin(), u.end(), r.begin(), 0.0)`
(sample_truss_sizeoptimization.cpp:103-121, sample_optimize_density_oc.cpp:136-153). -/
def complianceOf (scale : ℝ) (N : ℕ) (ntg : List (List ℤ)) (u : List (Vec ℝ)) (items : List (ElemData ℝ)) :
    Option ℝ := do
  let r ← reactions u (zeroField N 2) ntg items
  return scale * (← innerProduct u r)

/-- Compliance and sensitivities of the truss program (sample_truss_sizeoptimization.cpp:103-131). -/
def trussCompliance (x : List (Vec ℝ)) (elements : List (List ℕ)) (E A0 A1 scale : ℝ) (ntg : List (List ℤ))
    (s : List ℝ) (u : List (Vec ℝ)) : Option (ℝ × List ℝ) := do
  let f ← complianceOf scale x.length ntg u (← trussItems x elements E A0 A1 s)
  let d ← designItems 2 (trussCore E) [0, 1] x elements (elements.map fun _ => -A0 + A1)
  return (f, ← d.mapM (trussSensitivity scale u))

/-- Compliance and sensitivities of the density programs (sample_optimize_density_oc.cpp:135-162). -/
def densityCompliance (x : List (Vec ℝ)) (elements : List (List ℕ)) (V t p E0 E1 scale : ℝ) (ntg : List (List ℤ))
    (rho : List ℝ) (u : List (Vec ℝ)) : Option (ℝ × List ℝ) := do
  let f ← complianceOf scale x.length ntg u (← densityItems x elements V t p E0 E1 rho)
  let d ← designItems 2 (fun E X => planeStrainStiffness SF.square4 IC.gauss4Square X E V t) [0, 1] x elements
    (elements.map fun _ => 1)
  return (f, ← (List.range d.length).mapM fun i => do densitySensitivity scale p E0 E1 (← rho[i]?) u (← d[i]?))

end Pansfem
