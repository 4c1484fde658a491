/-
Beams with rectangular sections, in terms of the nodes.  A field has six values per node: three displacements and three
rotations.
-/
import Verif.Spec.ProgramMesh
import Mathlib.Logic.Relation
import Mathlib.Data.Fin.VecNotation

noncomputable section

namespace Pansfem

/-- The elements are pairs of nodes with three coordinates, the second node lies further along the first axis. -/
def Beams (x : List (Vec ℝ)) (elements : List (List ℕ)) : Prop :=
  ∀ e ∈ elements, ∃ m n, e = [m, n] ∧ (∀ j < 3, (nodal x m j).isSome) ∧ (∀ j < 3, (nodal x n j).isSome) ∧
    coord x m 0 < coord x n 0

/-- Extent of a beam in direction `j`. -/
def span (x : List (Vec ℝ)) (m n j : ℕ) : ℝ := coord x n j - coord x m j

/-- Mean of dof `j` of the ends of a beam. -/
def endMean (v : ℕ → ℕ → ℝ) (m n j : ℕ) : ℝ := (v m j + v n j) / 2

/-- Displacement of one end against the other, without the part that is due to the mean rotation of the beam, divided by
the length along the first axis: axial strain and the two shear strains of the middle of the beam. -/
def slip (x : List (Vec ℝ)) (m n : ℕ) (v : ℕ → ℕ → ℝ) : Fin 3 → ℝ :=
  ![(v n 0 - v m 0 - (endMean v m n 4 * span x m n 2 - endMean v m n 5 * span x m n 1)) / span x m n 0,
    (v n 1 - v m 1 - (endMean v m n 5 * span x m n 0 - endMean v m n 3 * span x m n 2)) / span x m n 0,
    (v n 2 - v m 2 - (endMean v m n 3 * span x m n 1 - endMean v m n 4 * span x m n 0)) / span x m n 0]

/-- Change of the rotation about axis `j` along a beam: twist for `j = 0`, curvatures for `j = 1, 2`. -/
def bend (x : List (Vec ℝ)) (m n : ℕ) (v : ℕ → ℕ → ℝ) (j : ℕ) : ℝ := (v n (3 + j) - v m (3 + j)) / span x m n 0

/-- Shear modulus with the shear correction of a rectangular section. -/
def beamShear (E V : ℝ) : ℝ := E / (2 * (1 + V)) / (6 / 5)

/-- Work of the stresses of one beam: axial force, shear forces, torque with the polar moment of the section and the two
bending moments with the moments of area `a b³ / 12` and `a³ b / 12`. -/
def beamForm (x : List (Vec ℝ)) (E V a b : ℝ) (v u : ℕ → ℕ → ℝ) : List ℕ → ℝ
  | [m, n] => span x m n 0 * (E * (a * b) * (slip x m n v 0 * slip x m n u 0)
      + beamShear E V * (a * b) * (slip x m n v 1 * slip x m n u 1 + slip x m n v 2 * slip x m n u 2)
      + beamShear E V * (a * b * (a ^ 2 + b ^ 2) / 12) * (bend x m n v 0 * bend x m n u 0)
      + E * (a * b ^ 3 / 12) * (bend x m n v 1 * bend x m n u 1)
      + E * (a ^ 3 * b / 12) * (bend x m n v 2 * bend x m n u 2))
  | _ => 0

/-- The virtual work of the whole structure. -/
def beamWork (x : List (Vec ℝ)) (elements : List (List ℕ)) (E V a b : ℝ) (v u : ℕ → ℕ → ℝ) : ℝ :=
  (elements.map (beamForm x E V a b v u)).sum

/-- Value of a rigid motion at dof `j` of node `m`: translation `c`, rotation `w` about the origin. -/
def rigid6At (x : List (Vec ℝ)) (c w : Fin 3 → ℝ) (m : ℕ) : ℕ → ℝ
  | 0 => c 0 + (w 1 * coord x m 2 - w 2 * coord x m 1)
  | 1 => c 1 + (w 2 * coord x m 0 - w 0 * coord x m 2)
  | 2 => c 2 + (w 0 * coord x m 1 - w 1 * coord x m 0)
  | 3 => w 0
  | 4 => w 1
  | 5 => w 2
  | _ => 0

/-- Two nodes are joined if a chain of elements leads from one to the other. -/
def Joined (elements : List (List ℕ)) : ℕ → ℕ → Prop :=
  Relation.ReflTransGen fun m n => ∃ e ∈ elements, m ∈ e ∧ n ∈ e

/-- Around every node the supports of the nodes joined to it allow no rigid motion. -/
def Restrained (x : List (Vec ℝ)) (elements : List (List ℕ)) (held : List (ℕ × ℕ)) : Prop :=
  ∀ m < x.length, ∀ c w : Fin 3 → ℝ,
    (∀ p ∈ held, Joined elements m p.1 → rigid6At x c w p.1 p.2 = 0) → c = 0 ∧ w = 0

/-! ### The cantilever -/

/-- Nodes at distance `h` on the first axis. -/
def rodNodes (N : ℕ) (h : ℝ) : List (Vec ℝ) := (List.range (N + 1)).map fun i : ℕ => ⟨[(i : ℝ) * h, 0, 0]⟩

/-- Consecutive nodes form beams. -/
def rodElements (N : ℕ) : List (List ℕ) := (List.range N).map fun i => [i, i + 1]

/-- The first node is clamped. -/
def clamp : List ((ℕ × ℕ) × ℝ) := (List.range 6).map fun j => ((0, j), 0)

/-- Forces and moments `F` at the last node. -/
def tipLoad (N : ℕ) (F : ℕ → ℝ) : List ((ℕ × ℕ) × ℝ) := (List.range 6).map fun j => ((N, j), F j)

/-- Deflection of a cantilever of length `L` at `s`, without the factor `1 / (E I)`: that of bending theory under a unit
force at the tip, except for the last term, which is due to the division into beams of length `h`. -/
def deflection (L h s : ℝ) : ℝ := L * s ^ 2 / 2 - s ^ 3 / 6 - h ^ 2 * s / 12

/-- Slope of a cantilever of length `L` at `s` under a unit force at the tip, without the factor `1 / (E I)`. -/
def inclination (L s : ℝ) : ℝ := L * s - s ^ 2 / 2

/-- Displacements and rotations at distance `s` from the clamp of a cantilever of length `L` that is divided into beams
of length `h`. -/
def cantileverAt (E V a b L h : ℝ) (F : ℕ → ℝ) (s : ℝ) : ℕ → ℝ
  | 0 => F 0 * s / (E * (a * b))
  | 1 => F 1 * s / (beamShear E V * (a * b)) + (F 5 * (s ^ 2 / 2) + F 1 * deflection L h s) / (E * (a ^ 3 * b / 12))
  | 2 => F 2 * s / (beamShear E V * (a * b)) + (F 2 * deflection L h s - F 4 * (s ^ 2 / 2)) / (E * (a * b ^ 3 / 12))
  | 3 => F 3 * s / (beamShear E V * (a * b * (a ^ 2 + b ^ 2) / 12))
  | 4 => (F 4 * s - F 2 * inclination L s) / (E * (a * b ^ 3 / 12))
  | 5 => (F 5 * s + F 1 * inclination L s) / (E * (a ^ 3 * b / 12))
  | _ => 0

end Pansfem
