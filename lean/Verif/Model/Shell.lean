/-
Beam and shell elements: /repo/src/FEM/Equation/Beam.h, Shell.h.  Conventions as in
`Verif/Model/Element.lean`; the scalars are real numbers because the routines normalise vectors.

Simplifications.
* `_Ke` is accumulated in one pair of nested loops; here the inner loop forms its own sum first.
* The shape functions of the nodes are looked up with the index of the node in `Points`; a missing
  entry is `none`.
-/
import Verif.Model.Elastic

noncomputable section

namespace Pansfem

open Matrix

variable {n : ℕ}

/-- `VectorProduct` (src/LinearAlgebra/Models/Vector.h:358-366). -/
def cross3 (v w : Fin 3 → ℝ) : Fin 3 → ℝ :=
  ![v 1 * w 2 - v 2 * w 1, v 2 * w 0 - v 0 * w 2, v 0 * w 1 - v 1 * w 0]

/-- `Normal` (src/LinearAlgebra/Models/Vector.h:341-344); it divides by the norm. -/
def normal? (v : Fin 3 → ℝ) : Option (Fin 3 → ℝ) :=
  if Real.sqrt (v ⬝ᵥ v) = 0 then none else some ((Real.sqrt (v ⬝ᵥ v))⁻¹ • v)

/-- `D0` of the beam (src/FEM/Equation/Beam.h:47-51), shear correction factor 1.2. -/
def beamD0 (E V : ℝ) : Option (Matrix (Fin 3) (Fin 3) ℝ) := do
  let G ← div? (1 / 2 * E) (1 + V)
  return Matrix.of ![![E, 0, 0], ![0, G / (6 / 5), 0], ![0, 0, G / (6 / 5)]]

/-- `J` of the beam (src/FEM/Equation/Beam.h:59) at the point `r` of the axis and `s` of the
section. -/
def beamJ (sf : SF ℝ 1 n) (X v1 v2 : Matrix (Fin n) (Fin 3) ℝ) (a b : ℝ) (r : Fin 1 → ℝ)
    (s : Fin 2 → ℝ) : Matrix (Fin 3) (Fin 3) ℝ :=
  Matrix.of ![fun k => (sf.dNdr r * (X + (1 / 2 * a * s 0) • v1 + (1 / 2 * b * s 1) • v2)) 0 k,
    fun k => 1 / 2 * a * ∑ i, sf.N r i * v1 i k,
    fun k => 1 / 2 * b * ∑ i, sf.N r i * v2 i k]

/-- `dNdx` of the beam (src/FEM/Equation/Beam.h:62). -/
def beamDNdx (sf : SF ℝ 1 n) (invJ : Matrix (Fin 3) (Fin 3) ℝ) (r : Fin 1 → ℝ) :
    Matrix (Fin 3) (Fin n) ℝ :=
  Matrix.of fun k i => invJ k 0 * sf.dNdr r 0 i

/-- `dNydx` and `dNzdx` of the beam (src/FEM/Equation/Beam.h:63-64): `c` is the column of `invJ` and
`s` the coordinate in the section. -/
def layerDNdx {d : ℕ} (sf : SF ℝ d n) (dNdx : Matrix (Fin 3) (Fin n) ℝ)
    (invJ : Matrix (Fin 3) (Fin 3) ℝ) (r : Fin d → ℝ) (s : ℝ) (c : Fin 3) :
    Matrix (Fin 3) (Fin n) ℝ :=
  Matrix.of fun k i => dNdx k i * s + invJ k c * sf.N r i

/-- `B` of the beam (src/FEM/Equation/Beam.h:66-74). -/
def beamB (dNdx dNydx dNzdx : Matrix (Fin 3) (Fin n) ℝ) (v1 v2 : Matrix (Fin n) (Fin 3) ℝ) (a b : ℝ) :
    Matrix (Fin 6) (Fin n × Fin 6) ℝ :=
  Matrix.of fun r c => ![![dNdx 0 c.1, 0, 0, 0,
      1 / 2 * a * dNydx 0 c.1 * v1 c.1 2 + 1 / 2 * b * dNzdx 0 c.1 * v2 c.1 2,
      -(1 / 2) * a * dNydx 0 c.1 * v1 c.1 1 - 1 / 2 * b * dNzdx 0 c.1 * v2 c.1 1],
    ![0, dNdx 1 c.1, 0,
      -(1 / 2) * a * dNydx 1 c.1 * v1 c.1 2 - 1 / 2 * b * dNzdx 1 c.1 * v2 c.1 2, 0,
      1 / 2 * a * dNydx 1 c.1 * v1 c.1 0 + 1 / 2 * b * dNzdx 1 c.1 * v2 c.1 0],
    ![0, 0, dNdx 2 c.1,
      1 / 2 * a * dNydx 2 c.1 * v1 c.1 1 + 1 / 2 * b * dNzdx 2 c.1 * v2 c.1 1,
      -(1 / 2) * a * dNydx 2 c.1 * v1 c.1 0 - 1 / 2 * b * dNzdx 2 c.1 * v2 c.1 0, 0],
    ![dNdx 1 c.1, dNdx 0 c.1, 0,
      -(1 / 2) * a * dNydx 0 c.1 * v1 c.1 2 - 1 / 2 * b * dNzdx 0 c.1 * v2 c.1 2,
      1 / 2 * a * dNydx 1 c.1 * v1 c.1 2 + 1 / 2 * b * dNzdx 1 c.1 * v2 c.1 2,
      -(1 / 2) * a * dNydx 1 c.1 * v1 c.1 1 - 1 / 2 * b * dNzdx 1 c.1 * v2 c.1 1
        + 1 / 2 * a * dNydx 0 c.1 * v1 c.1 0 + 1 / 2 * b * dNzdx 0 c.1 * v2 c.1 0],
    ![dNdx 2 c.1, 0, dNdx 0 c.1,
      1 / 2 * a * dNydx 0 c.1 * v1 c.1 1 + 1 / 2 * b * dNzdx 0 c.1 * v2 c.1 1,
      -(1 / 2) * a * dNydx 0 c.1 * v1 c.1 0 - 1 / 2 * b * dNzdx 0 c.1 * v2 c.1 0
        + 1 / 2 * a * dNydx 2 c.1 * v1 c.1 2 + 1 / 2 * b * dNzdx 2 c.1 * v2 c.1 2,
      -(1 / 2) * a * dNydx 2 c.1 * v1 c.1 1 - 1 / 2 * b * dNzdx 2 c.1 * v2 c.1 1],
    ![0, dNdx 2 c.1, dNdx 1 c.1,
      -(1 / 2) * a * dNydx 2 c.1 * v1 c.1 2 - 1 / 2 * b * dNzdx 2 c.1 * v2 c.1 2
        + 1 / 2 * a * dNydx 1 c.1 * v1 c.1 1 + 1 / 2 * b * dNzdx 1 c.1 * v2 c.1 1,
      -(1 / 2) * a * dNydx 1 c.1 * v1 c.1 0 - 1 / 2 * b * dNzdx 1 c.1 * v2 c.1 0,
      1 / 2 * a * dNydx 2 c.1 * v1 c.1 0 + 1 / 2 * b * dNzdx 2 c.1 * v2 c.1 0]] r c.2

/-- `P` of the beam (src/FEM/Equation/Beam.h:79-82). -/
def beamP (P0 P1 P2 : Fin 3 → ℝ) : Matrix (Fin 3) (Fin 6) ℝ :=
  Matrix.of ![![P0 0 * P0 0, P0 1 * P0 1, P0 2 * P0 2, P0 0 * P0 1, P0 0 * P0 2, P0 1 * P0 2],
    ![2 * P0 0 * P1 0, 2 * P0 1 * P1 1, 2 * P0 2 * P1 2, P0 0 * P1 1 + P0 1 * P1 0,
      P0 0 * P1 2 + P0 2 * P1 0, P0 1 * P1 2 + P0 2 * P1 1],
    ![2 * P0 0 * P2 0, 2 * P0 1 * P2 1, 2 * P0 2 * P2 2, P0 0 * P2 1 + P0 1 * P2 0,
      P0 0 * P2 2 + P0 2 * P2 0, P0 1 * P2 2 + P0 2 * P2 1]]

/-- `BeamLinearIsotropicElastic` (src/FEM/Equation/Beam.h:21-88); `V1` and `V2` are the gathered nodal
directions of the section. -/
def beamStiffness (sf : SF ℝ 1 n) (ic0 : IC ℝ 1) (ic12 : IC ℝ 2) (X V1 V2 : Matrix (Fin n) (Fin 3) ℝ)
    (E V a b : ℝ) : Option (Matrix (Fin n × Fin 6) (Fin n × Fin 6) ℝ) := do
  let v1 ← allSome fun i => normal? (V1 i)
  let v2 ← allSome fun i => normal? (V2 i)
  let D0 ← beamD0 E V
  gauss ic0.N fun g => gauss ic12.N fun h => do
    let r := ic0.points g
    let s := ic12.points h
    let J := beamJ sf X v1 v2 a b r s
    let invJ ← inv? J
    let dNdx := beamDNdx sf invJ r
    let B := beamB dNdx (layerDNdx sf dNdx invJ r (s 0) 1) (layerDNdx sf dNdx invJ r (s 1) 2) v1 v2 a b
    let P1 ← normal? fun k => ∑ i, v1 i k * sf.N r i
    let P2 ← normal? fun k => ∑ i, v2 i k * sf.N r i
    let P0 ← normal? (cross3 P1 P2)
    let D := (beamP P0 P1 P2)ᵀ * D0 * beamP P0 P1 P2
    return (J.det * ic0.weights g 0 * ic12.weights h 0 * ic12.weights h 1) • (Bᵀ * D * B)

/-! ### Shell -/

/-- The local frame `v1`, `v2`, `v3` at node `i` (src/FEM/Equation/Shell.h:40-51, 125-136); `l` is the
vector from the first node to the second. -/
def shellFrame (sf : SF ℝ 2 n) (X : Matrix (Fin n) (Fin 3) ℝ) (l : Fin 3 → ℝ) (i : Fin n) :
    Option ((Fin 3 → ℝ) × (Fin 3 → ℝ) × (Fin 3 → ℝ)) := do
  let p ← sf.points[(i : ℕ)]?
  let v3 ← normal? (cross3 ((sf.dNdr p * X) 0) ((sf.dNdr p * X) 1))
  let v1 ← normal? (cross3 l v3)
  let v2 ← normal? (cross3 v3 v1)
  return (v1, v2, v3)

/-- `D0` of the shell (src/FEM/Equation/Shell.h:53-60, 138-145). -/
def shellD0 (E V : ℝ) : Option (Matrix (Fin 5) (Fin 5) ℝ) := do
  return (← div? E (1 - V * V)) • Matrix.of ![![1, V, 0, 0, 0],
    ![V, 1, 0, 0, 0],
    ![0, 0, 1 / 2 * (1 - V), 0, 0],
    ![0, 0, 0, 1 / 2 * (1 - V) / (6 / 5), 0],
    ![0, 0, 0, 0, 1 / 2 * (1 - V) / (6 / 5)]]

/-- `J` of the shell (src/FEM/Equation/Shell.h:68, 153) at the point `r` of the surface and `z` of the
thickness. -/
def shellJ (sf : SF ℝ 2 n) (X v3 : Matrix (Fin n) (Fin 3) ℝ) (t : ℝ) (r : Fin 2 → ℝ) (z : ℝ) :
    Matrix (Fin 3) (Fin 3) ℝ :=
  Matrix.of ![fun k => (sf.dNdr r * (X + (1 / 2 * t * z) • v3)) 0 k,
    fun k => (sf.dNdr r * (X + (1 / 2 * t * z) • v3)) 1 k,
    fun k => 1 / 2 * t * ∑ i, sf.N r i * v3 i k]

/-- `dNdx` of the shell (src/FEM/Equation/Shell.h:71, 156). -/
def shellDNdx (sf : SF ℝ 2 n) (invJ : Matrix (Fin 3) (Fin 3) ℝ) (r : Fin 2 → ℝ) :
    Matrix (Fin 3) (Fin n) ℝ :=
  Matrix.of fun k i => invJ k 0 * sf.dNdr r 0 i + invJ k 1 * sf.dNdr r 1 i

/-- `B` of the shell with five unknowns per node (src/FEM/Equation/Shell.h:74-82). -/
def shellB (dNdx dNzdx : Matrix (Fin 3) (Fin n) ℝ) (v1 v2 : Matrix (Fin n) (Fin 3) ℝ) (t : ℝ) :
    Matrix (Fin 6) (Fin n × Fin 5) ℝ :=
  Matrix.of fun r c => ![![dNdx 0 c.1, 0, 0, -(1 / 2) * t * dNzdx 0 c.1 * v2 c.1 0, 1 / 2 * t * dNzdx 0 c.1 * v1 c.1 0],
    ![0, dNdx 1 c.1, 0, -(1 / 2) * t * dNzdx 1 c.1 * v2 c.1 1, 1 / 2 * t * dNzdx 1 c.1 * v1 c.1 1],
    ![0, 0, dNdx 2 c.1, -(1 / 2) * t * dNzdx 2 c.1 * v2 c.1 2, 1 / 2 * t * dNzdx 2 c.1 * v1 c.1 2],
    ![dNdx 1 c.1, dNdx 0 c.1, 0, -(1 / 2) * t * (dNzdx 1 c.1 * v2 c.1 0 + dNzdx 0 c.1 * v2 c.1 1),
      1 / 2 * t * (dNzdx 1 c.1 * v1 c.1 0 + dNzdx 0 c.1 * v1 c.1 1)],
    ![dNdx 2 c.1, 0, dNdx 0 c.1, -(1 / 2) * t * (dNzdx 0 c.1 * v2 c.1 2 + dNzdx 2 c.1 * v2 c.1 0),
      1 / 2 * t * (dNzdx 0 c.1 * v1 c.1 2 + dNzdx 2 c.1 * v1 c.1 0)],
    ![0, dNdx 2 c.1, dNdx 1 c.1, -(1 / 2) * t * (dNzdx 2 c.1 * v2 c.1 1 + dNzdx 1 c.1 * v2 c.1 2),
      1 / 2 * t * (dNzdx 2 c.1 * v1 c.1 1 + dNzdx 1 c.1 * v1 c.1 2)]] r c.2

/-- `B` of the shell with six unknowns per node (src/FEM/Equation/Shell.h:159-167). -/
def shellB2 (dNdx dNzdx : Matrix (Fin 3) (Fin n) ℝ) (v1 v2 : Matrix (Fin n) (Fin 3) ℝ) (t : ℝ) :
    Matrix (Fin 6) (Fin n × Fin 6) ℝ :=
  Matrix.of fun r c => ![![dNdx 0 c.1, 0, 0,
      -(1 / 2) * t * dNzdx 0 c.1 * v2 c.1 0 * v1 c.1 0 + 1 / 2 * t * dNzdx 0 c.1 * v1 c.1 0 * v2 c.1 0,
      -(1 / 2) * t * dNzdx 0 c.1 * v2 c.1 0 * v1 c.1 1 + 1 / 2 * t * dNzdx 0 c.1 * v1 c.1 0 * v2 c.1 1,
      -(1 / 2) * t * dNzdx 0 c.1 * v2 c.1 0 * v1 c.1 2 + 1 / 2 * t * dNzdx 0 c.1 * v1 c.1 0 * v2 c.1 2],
    ![0, dNdx 1 c.1, 0,
      -(1 / 2) * t * dNzdx 1 c.1 * v2 c.1 1 * v1 c.1 0 + 1 / 2 * t * dNzdx 1 c.1 * v1 c.1 1 * v2 c.1 0,
      -(1 / 2) * t * dNzdx 1 c.1 * v2 c.1 1 * v1 c.1 1 + 1 / 2 * t * dNzdx 1 c.1 * v1 c.1 1 * v2 c.1 1,
      -(1 / 2) * t * dNzdx 1 c.1 * v2 c.1 1 * v1 c.1 2 + 1 / 2 * t * dNzdx 1 c.1 * v1 c.1 1 * v2 c.1 2],
    ![0, 0, dNdx 2 c.1,
      -(1 / 2) * t * dNzdx 2 c.1 * v2 c.1 2 * v1 c.1 0 + 1 / 2 * t * dNzdx 2 c.1 * v1 c.1 2 * v2 c.1 0,
      -(1 / 2) * t * dNzdx 2 c.1 * v2 c.1 2 * v1 c.1 1 + 1 / 2 * t * dNzdx 2 c.1 * v1 c.1 2 * v2 c.1 1,
      -(1 / 2) * t * dNzdx 2 c.1 * v2 c.1 2 * v1 c.1 2 + 1 / 2 * t * dNzdx 2 c.1 * v1 c.1 2 * v2 c.1 2],
    ![dNdx 1 c.1, dNdx 0 c.1, 0,
      -(1 / 2) * t * (dNzdx 1 c.1 * v2 c.1 0 + dNzdx 0 c.1 * v2 c.1 1) * v1 c.1 0
        + 1 / 2 * t * (dNzdx 1 c.1 * v1 c.1 0 + dNzdx 0 c.1 * v1 c.1 1) * v2 c.1 0,
      -(1 / 2) * t * (dNzdx 1 c.1 * v2 c.1 0 + dNzdx 0 c.1 * v2 c.1 1) * v1 c.1 1
        + 1 / 2 * t * (dNzdx 1 c.1 * v1 c.1 0 + dNzdx 0 c.1 * v1 c.1 1) * v2 c.1 1,
      -(1 / 2) * t * (dNzdx 1 c.1 * v2 c.1 0 + dNzdx 0 c.1 * v2 c.1 1) * v1 c.1 2
        + 1 / 2 * t * (dNzdx 1 c.1 * v1 c.1 0 + dNzdx 0 c.1 * v1 c.1 1) * v2 c.1 2],
    ![dNdx 2 c.1, 0, dNdx 0 c.1,
      -(1 / 2) * t * (dNzdx 0 c.1 * v2 c.1 2 + dNzdx 2 c.1 * v2 c.1 0) * v1 c.1 0
        + 1 / 2 * t * (dNzdx 0 c.1 * v1 c.1 2 + dNzdx 2 c.1 * v1 c.1 0) * v2 c.1 0,
      -(1 / 2) * t * (dNzdx 0 c.1 * v2 c.1 2 + dNzdx 2 c.1 * v2 c.1 0) * v1 c.1 1
        + 1 / 2 * t * (dNzdx 0 c.1 * v1 c.1 2 + dNzdx 2 c.1 * v1 c.1 0) * v2 c.1 1,
      -(1 / 2) * t * (dNzdx 0 c.1 * v2 c.1 2 + dNzdx 2 c.1 * v2 c.1 0) * v1 c.1 2
        + 1 / 2 * t * (dNzdx 0 c.1 * v1 c.1 2 + dNzdx 2 c.1 * v1 c.1 0) * v2 c.1 2],
    ![0, dNdx 2 c.1, dNdx 1 c.1,
      -(1 / 2) * t * (dNzdx 2 c.1 * v2 c.1 1 + dNzdx 1 c.1 * v2 c.1 2) * v1 c.1 0
        + 1 / 2 * t * (dNzdx 2 c.1 * v1 c.1 1 + dNzdx 1 c.1 * v1 c.1 2) * v2 c.1 0,
      -(1 / 2) * t * (dNzdx 2 c.1 * v2 c.1 1 + dNzdx 1 c.1 * v2 c.1 2) * v1 c.1 1
        + 1 / 2 * t * (dNzdx 2 c.1 * v1 c.1 1 + dNzdx 1 c.1 * v1 c.1 2) * v2 c.1 1,
      -(1 / 2) * t * (dNzdx 2 c.1 * v2 c.1 1 + dNzdx 1 c.1 * v2 c.1 2) * v1 c.1 2
        + 1 / 2 * t * (dNzdx 2 c.1 * v1 c.1 1 + dNzdx 1 c.1 * v1 c.1 2) * v2 c.1 2]] r c.2

/-- `P` of the shell (src/FEM/Equation/Shell.h:89-94, 174-179). -/
def shellP (P0 P1 P2 : Fin 3 → ℝ) : Matrix (Fin 5) (Fin 6) ℝ :=
  Matrix.of ![![P0 0 * P0 0, P0 1 * P0 1, P0 2 * P0 2, P0 0 * P0 1, P0 0 * P0 2, P0 1 * P0 2],
    ![P1 0 * P1 0, P1 1 * P1 1, P1 2 * P1 2, P1 0 * P1 1, P1 0 * P1 2, P1 1 * P1 2],
    ![2 * P0 0 * P1 0, 2 * P0 1 * P1 1, 2 * P0 2 * P1 2, P0 0 * P1 1 + P0 1 * P1 0,
      P0 0 * P1 2 + P0 2 * P1 0, P0 1 * P1 2 + P0 2 * P1 1],
    ![2 * P0 0 * P2 0, 2 * P0 1 * P2 1, 2 * P0 2 * P2 2, P0 0 * P2 1 + P0 1 * P2 0,
      P0 0 * P2 2 + P0 2 * P2 0, P0 1 * P2 2 + P0 2 * P2 1],
    ![2 * P1 0 * P2 0, 2 * P1 1 * P2 1, 2 * P1 2 * P2 2, P1 0 * P2 1 + P1 1 * P2 0,
      P1 0 * P2 2 + P1 2 * P2 0, P1 1 * P2 2 + P1 2 * P2 1]]

/-- The vector `l` from the first node to the second (src/FEM/Equation/Shell.h:38, 123). -/
def shellL (X : Matrix (Fin n) (Fin 3) ℝ) : Option (Fin 3 → ℝ) :=
  if h : 1 < n then some (X ⟨1, h⟩ - X ⟨0, by omega⟩) else none

/-- The two routines (src/FEM/Equation/Shell.h:21-100, 105-185), which differ only in `B` and the
number `k` of unknowns per node. -/
def shellWith {k : ℕ} (B : Matrix (Fin 3) (Fin n) ℝ → Matrix (Fin 3) (Fin n) ℝ →
      Matrix (Fin n) (Fin 3) ℝ → Matrix (Fin n) (Fin 3) ℝ → ℝ → Matrix (Fin 6) (Fin n × Fin k) ℝ)
    (sf : SF ℝ 2 n) (ic01 : IC ℝ 2) (ic2 : IC ℝ 1) (X : Matrix (Fin n) (Fin 3) ℝ) (E V t : ℝ) :
    Option (Matrix (Fin n × Fin k) (Fin n × Fin k) ℝ) := do
  let l ← shellL X
  let fr ← allSome (shellFrame sf X l)
  let v1 : Matrix (Fin n) (Fin 3) ℝ := Matrix.of fun i => (fr i).1
  let v2 : Matrix (Fin n) (Fin 3) ℝ := Matrix.of fun i => (fr i).2.1
  let v3 : Matrix (Fin n) (Fin 3) ℝ := Matrix.of fun i => (fr i).2.2
  let D0 ← shellD0 E V
  gauss ic01.N fun g => gauss ic2.N fun h => do
    let r := ic01.points g
    let z := ic2.points h 0
    let J := shellJ sf X v3 t r z
    let invJ ← inv? J
    let dNdx := shellDNdx sf invJ r
    let B := B dNdx (layerDNdx sf dNdx invJ r z 2) v1 v2 t
    let P2 ← normal? (cross3 (J 0) (J 1))
    let P0 ← normal? (cross3 l P2)
    let P1 ← normal? (cross3 P2 P0)
    let D := (shellP P0 P1 P2)ᵀ * D0 * shellP P0 P1 P2
    return (J.det * ic01.weights g 0 * ic01.weights g 1 * ic2.weights h 0) • (Bᵀ * D * B)

/-- `ShellLinearIsotropicElastic` (src/FEM/Equation/Shell.h:21-100). -/
def shellStiffness (sf : SF ℝ 2 n) (ic01 : IC ℝ 2) (ic2 : IC ℝ 1) (X : Matrix (Fin n) (Fin 3) ℝ)
    (E V t : ℝ) : Option (Matrix (Fin n × Fin 5) (Fin n × Fin 5) ℝ) :=
  shellWith shellB sf ic01 ic2 X E V t

/-- `ShellLinearIsotropicElastic2` (src/FEM/Equation/Shell.h:105-185). -/
def shellStiffness2 (sf : SF ℝ 2 n) (ic01 : IC ℝ 2) (ic2 : IC ℝ 1) (X : Matrix (Fin n) (Fin 3) ℝ)
    (E V t : ℝ) : Option (Matrix (Fin n × Fin 6) (Fin n × Fin 6) ℝ) :=
  shellWith shellB2 sf ic01 ic2 X E V t

end Pansfem
