/-
Flat shells in terms of the nodes.  A field has six values per node: three displacements and three rotations.
-/
import Verif.Spec.Beam
import Verif.Spec.Mesh

noncomputable section

namespace Pansfem

/-- The first two coordinates of a node. -/
def flatAt (x : List (Vec ℝ)) (m : ℕ) : ℝ × ℝ := (coord x m 0, coord x m 1)

/-- The elements are convex quadrilaterals in planes parallel to the first two axes, passed counter-clockwise. -/
def FlatQuads (x : List (Vec ℝ)) (elements : List (List ℕ)) : Prop :=
  ∀ e ∈ elements, ∃ p q r s, e = [p, q, r, s] ∧ (∀ m ∈ e, ∀ j < 3, (nodal x m j).isSome) ∧
    (∀ m ∈ e, coord x m 2 = coord x p 2) ∧
    0 < turn (flatAt x s) (flatAt x p) (flatAt x q) ∧ 0 < turn (flatAt x p) (flatAt x q) (flatAt x r) ∧
    0 < turn (flatAt x q) (flatAt x r) (flatAt x s) ∧ 0 < turn (flatAt x r) (flatAt x s) (flatAt x p)

/-- Area of a quadrilateral, from its diagonals. -/
def quadArea (x : List (Vec ℝ)) (p q r s : ℕ) : ℝ := (span x p r 0 * span x q s 1 - span x q s 0 * span x p r 1) / 2

/-- Slope along the first axis of a nodal field at the centre of a quadrilateral. -/
def slope0 (x : List (Vec ℝ)) (p q r s : ℕ) (f : ℕ → ℝ) : ℝ :=
  ((f r - f p) * span x q s 1 - (f s - f q) * span x p r 1) / (2 * quadArea x p q r s)

/-- Slope along the second axis. -/
def slope1 (x : List (Vec ℝ)) (p q r s : ℕ) (f : ℕ → ℝ) : ℝ :=
  ((f s - f q) * span x p r 0 - (f r - f p) * span x q s 0) / (2 * quadArea x p q r s)

/-- Mean of a nodal field over a quadrilateral. -/
def mean4 (p q r s : ℕ) (f : ℕ → ℝ) : ℝ := (f p + f q + f r + f s) / 4

/-- Work of plane stress of the field with components `f0`, `f1` under `g0`, `g1`, at the centre, per volume. -/
def planeWork (x : List (Vec ℝ)) (E V : ℝ) (p q r s : ℕ) (f0 f1 g0 g1 : ℕ → ℝ) : ℝ :=
  E / (1 - V ^ 2) * (slope0 x p q r s f0 * (slope0 x p q r s g0 + V * slope1 x p q r s g1)
    + slope1 x p q r s f1 * (V * slope0 x p q r s g0 + slope1 x p q r s g1)
    + (1 - V) / 2 * ((slope1 x p q r s f0 + slope0 x p q r s f1) * (slope1 x p q r s g0 + slope0 x p q r s g1)))

/-- Work of the stresses of one shell element of thickness `t`, integrated with one point in the middle surface: membrane
forces, bending moments (the slopes of the directors `(v 4, -v 3)`), transverse shear forces.  The rotation about the
normal does no work. -/
def plateForm (x : List (Vec ℝ)) (E V t : ℝ) (v u : ℕ → ℕ → ℝ) : List ℕ → ℝ
  | [p, q, r, s] => quadArea x p q r s *
      (t * planeWork x E V p q r s (fun m => v m 0) (fun m => v m 1) (fun m => u m 0) (fun m => u m 1)
      + t ^ 3 / 12 * planeWork x E V p q r s (fun m => v m 4) (fun m => - v m 3) (fun m => u m 4) (fun m => - u m 3)
      + t * beamShear E V *
        ((slope0 x p q r s (fun m => v m 2) + mean4 p q r s fun m => v m 4) *
            (slope0 x p q r s (fun m => u m 2) + mean4 p q r s fun m => u m 4)
          + (slope1 x p q r s (fun m => v m 2) - mean4 p q r s fun m => v m 3) *
            (slope1 x p q r s (fun m => u m 2) - mean4 p q r s fun m => u m 3)))
  | _ => 0

/-- The virtual work of the whole shell. -/
def plateWork (x : List (Vec ℝ)) (elements : List (List ℕ)) (E V t : ℝ) (v u : ℕ → ℕ → ℝ) : ℝ :=
  (elements.map (plateForm x E V t v u)).sum

end Pansfem
