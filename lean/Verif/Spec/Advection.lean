/-
Linear fields on triangles and their transport, in terms of the coordinates of the corners.
-/
import Verif.Spec.ProgramMesh
import Mathlib.LinearAlgebra.Matrix.Notation

namespace Pansfem

noncomputable section

/-- The derivative along `w` of the linear field with the values `v a`, `v b`, `v c` at the corners. -/
def slope (x : List (Vec ℝ)) (a b c : ℕ) (w : Fin 2 → ℝ) (v : ℕ → ℝ) : ℝ :=
  (v a * (w 0 * (coord x b 1 - coord x c 1) + w 1 * (coord x c 0 - coord x b 0)) +
   v b * (w 0 * (coord x c 1 - coord x a 1) + w 1 * (coord x a 0 - coord x c 0)) +
   v c * (w 0 * (coord x a 1 - coord x b 1) + w 1 * (coord x b 0 - coord x a 0))) / triArea x a b c

/-- The sum of the absolute values of the slopes of the three hat functions. -/
def slopeSum (x : List (Vec ℝ)) (a b c : ℕ) (w : Fin 2 → ℝ) : ℝ :=
  (|w 0 * (coord x b 1 - coord x c 1) + w 1 * (coord x c 0 - coord x b 0)| +
   |w 0 * (coord x c 1 - coord x a 1) + w 1 * (coord x a 0 - coord x c 0)| +
   |w 0 * (coord x a 1 - coord x b 1) + w 1 * (coord x b 0 - coord x a 0)|) / triArea x a b c

/-- The stabilisation parameter: `1/S`, reduced to `|w|²/(3 k S²)` where diffusion dominates. -/
def supgTime (x : List (Vec ℝ)) (a b c : ℕ) (w : Fin 2 → ℝ) (k : ℝ) : ℝ :=
  if w 0 ^ 2 + w 1 ^ 2 ≤ 3 * k * slopeSum x a b c w then
    (w 0 ^ 2 + w 1 ^ 2) / (3 * k * slopeSum x a b c w ^ 2)
  else 1 / slopeSum x a b c w

/-- The mean of a linear field. -/
def triMean (a b c : ℕ) (v : ℕ → ℝ) : ℝ := (v a + v b + v c) / 3

/-- `∫ v w·∇u + k ∇v·∇u + tau (w·∇v) (w·∇u)` over a triangle. -/
def transportForm (x : List (Vec ℝ)) (w : Fin 2 → ℝ) (k : ℝ) (v u : ℕ → ℝ) : List ℕ → ℝ
  | [a, b, c] => triArea x a b c / 2 * (triMean a b c v * slope x a b c w u +
      k * (slope x a b c ![1, 0] v * slope x a b c ![1, 0] u + slope x a b c ![0, 1] v * slope x a b c ![0, 1] u) +
      supgTime x a b c w k * (slope x a b c w v * slope x a b c w u))
  | _ => 0

/-- The sum of the forms of the triangles. -/
def transport (x : List (Vec ℝ)) (w : Fin 2 → ℝ) (k : ℝ) (elements : List (List ℕ)) (v u : ℕ → ℝ) : ℝ :=
  (elements.map (transportForm x w k v u)).sum

/-- `∫ k |∇v|² + tau (w·∇v)²` over a triangle. -/
def dissipation (x : List (Vec ℝ)) (w : Fin 2 → ℝ) (k : ℝ) (v : ℕ → ℝ) : List ℕ → ℝ
  | [a, b, c] => triArea x a b c / 2 * (k * (slope x a b c ![1, 0] v ^ 2 + slope x a b c ![0, 1] v ^ 2) +
      supgTime x a b c w k * slope x a b c w v ^ 2)
  | _ => 0

/-- The field that is one at the node `n` and zero at the others. -/
def hat (n m : ℕ) : ℝ := if m = n then 1 else 0

/-- `∫ (v + tau w·∇v) u` over a triangle with the one-point rule. -/
def transportMassForm (x : List (Vec ℝ)) (w : Fin 2 → ℝ) (k : ℝ) (v u : ℕ → ℝ) : List ℕ → ℝ
  | [a, b, c] => triArea x a b c / 2 *
      ((triMean a b c v + supgTime x a b c w k * slope x a b c w v) * triMean a b c u)
  | _ => 0

/-- The sides of a triangle, in its direction of rotation. -/
def triSides : List ℕ → List (ℕ × ℕ)
  | [a, b, c] => [(a, b), (b, c), (c, a)]
  | _ => []

/-- The triangles fit together: every side is a side of a second triangle in the opposite direction, except those of
the boundary. -/
def Conforming (elements : List (List ℕ)) (boundary : List (ℕ × ℕ)) : Prop :=
  ∃ inner : List (ℕ × ℕ), (elements.flatMap triSides).Perm (boundary ++ (inner ++ inner.map Prod.swap))

/-- The flow through a side, positive to its right: out of a triangle that has it in its direction of rotation. -/
def flux (x : List (Vec ℝ)) (w : Fin 2 → ℝ) (s : ℕ × ℕ) : ℝ :=
  w 0 * (coord x s.2 1 - coord x s.1 1) - w 1 * (coord x s.2 0 - coord x s.1 0)

/-- The values are given where the flow enters. -/
def InflowGiven (x : List (Vec ℝ)) (w : Fin 2 → ℝ) (boundary : List (ℕ × ℕ)) (bc : List ((ℕ × ℕ) × ℝ)) : Prop :=
  ∀ s ∈ boundary, 0 ≤ flux x w s ∨ ((s.1, 0) ∈ bc.map Prod.fst ∧ (s.2, 0) ∈ bc.map Prod.fst)

/-- `∫ v²/2 w·n` along a side. -/
def sideEnergy (x : List (Vec ℝ)) (w : Fin 2 → ℝ) (v : ℕ → ℝ) (s : ℕ × ℕ) : ℝ :=
  flux x w s * (v s.1 ^ 2 + v s.1 * v s.2 + v s.2 ^ 2) / 6

/-- The centroid of a triangle. -/
def triCentroid (x : List (Vec ℝ)) (a b c : ℕ) : Fin 2 → ℝ :=
  ![(coord x a 0 + coord x b 0 + coord x c 0) / 3, (coord x a 1 + coord x b 1 + coord x c 1) / 3]

/-- The velocity of an element. -/
def elementWind (x : List (Vec ℝ)) (vel : (Fin 2 → ℝ) → Fin 2 → ℝ) : List ℕ → Fin 2 → ℝ
  | [a, b, c] => vel (triCentroid x a b c)
  | _ => 0

/-- `transport` with a velocity for each triangle. -/
def drift (x : List (Vec ℝ)) (vel : (Fin 2 → ℝ) → Fin 2 → ℝ) (k : ℝ) (elements : List (List ℕ)) (v u : ℕ → ℝ) : ℝ :=
  (elements.map fun e => transportForm x (elementWind x vel e) k v u e).sum

/-- The mass form of all triangles. -/
def driftMass (x : List (Vec ℝ)) (vel : (Fin 2 → ℝ) → Fin 2 → ℝ) (k : ℝ) (elements : List (List ℕ)) (v u : ℕ → ℝ) : ℝ :=
  (elements.map fun e => transportMassForm x (elementWind x vel e) k v u e).sum

/-- The weak form of `(v - u)/dt + w·∇(theta v + (1 - theta) u) - k Δ(theta v + (1 - theta) u)`, tested at `n`. -/
def driftResidual (x : List (Vec ℝ)) (vel : (Fin 2 → ℝ) → Fin 2 → ℝ) (k dt theta : ℝ) (elements : List (List ℕ))
    (u v : ℕ → ℝ) (n : ℕ) : ℝ :=
  driftMass x vel k elements (hat n) (fun m => (v m - u m) / dt) +
    drift x vel k elements (hat n) fun m => theta * v m + (1 - theta) * u m

end

end Pansfem
