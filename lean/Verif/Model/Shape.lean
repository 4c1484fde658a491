/-
Shape functions and integration rules (src/FEM/Controller/ShapeFunction.h, GaussIntegration.h,
NewtonCotesIntegration.h).  The tables are transcribed expression by expression; decimal literals
are the rationals they denote, `sqrt` and `cbrt` are the exact real functions.
-/
import Mathlib.Analysis.SpecialFunctions.Pow.Real
import Mathlib.Data.Fin.VecNotation
import Mathlib.Data.Matrix.Mul

namespace Pansfem

/-- The interface shared by the `ShapeFunction*` template arguments: `d`, `n`, `Points`, `N`,
`dNdr` (src/FEM/Controller/ShapeFunction.h:20-27 and its repetitions).  `Points` is a list because
its length is not tied to `n` in the code. -/
structure SF (K : Type) (d n : ℕ) where
  points : List (Fin d → K)
  N : (Fin d → K) → Fin n → K
  dNdr : (Fin d → K) → Matrix (Fin d) (Fin n) K

/-- The interface shared by the integration template arguments: `N`, `Points`, `Weights`
(src/FEM/Controller/GaussIntegration.h:17-22 and its repetitions).  Lean accepts a table only if it
has exactly `N` rows. -/
structure IC (K : Type) (d : ℕ) where
  N : ℕ
  points : Fin N → Fin d → K
  weights : Fin N → Fin d → K

namespace SF

variable {K : Type} [Field K]

/-- `ShapeFunction2Line`: src/FEM/Controller/ShapeFunction.h:20-48
(`Points` 31-31, `N` 35-40, `dNdr` 44-48). -/
def line2 : SF K 1 2 where
  points := [![-1], ![1]]
  N := fun r => ![
    1 / 2 * (1 - r 0),
    1 / 2 * (1 + r 0)]
  dNdr := fun r => Matrix.of ![
    ![-(1 / 2),
      1 / 2]]

/-- `ShapeFunction3Line`: src/FEM/Controller/ShapeFunction.h:53-82
(`Points` 64-64, `N` 68-74, `dNdr` 78-82). -/
def line3 : SF K 1 3 where
  points := [![-1], ![1], ![0]]
  N := fun r => ![
    -(1 / 2) * (1 - r 0) * r 0,
    1 / 2 * r 0 * (1 + r 0),
    (1 - r 0) * (1 + r 0)]
  dNdr := fun r => Matrix.of ![
    ![-(1 / 2) * (1 - 2 * r 0),
      1 / 2 * (1 + 2 * r 0),
      -2 * r 0]]

/-- `ShapeFunction3Triangle`: src/FEM/Controller/ShapeFunction.h:87-117
(`Points` 98-98, `N` 102-108, `dNdr` 112-117). -/
def triangle3 : SF K 2 3 where
  points := [![1, 0], ![0, 1], ![0, 0]]
  N := fun r => ![
    r 0,
    r 1,
    1 - r 0 - r 1]
  dNdr := fun r => Matrix.of ![
    ![1,
      0,
      -1],
    ![0,
      1,
      -1]]

/-- `ShapeFunction6Triangle`: src/FEM/Controller/ShapeFunction.h:122-155
(`Points` 133-133, `N` 137-146, `dNdr` 150-155). -/
def triangle6 : SF K 2 6 where
  points := [![1, 0], ![0, 1], ![0, 0], ![1 / 2, 1 / 2], ![0, 1 / 2], ![1 / 2, 0]]
  N := fun r => ![
    r 0 * (2 * r 0 - 1),
    r 1 * (2 * r 1 - 1),
    (1 - r 0 - r 1) * (1 - 2 * r 0 - 2 * r 1),
    4 * r 0 * r 1,
    4 * r 1 * (1 - r 0 - r 1),
    4 * (1 - r 0 - r 1) * r 0]
  dNdr := fun r => Matrix.of ![
    ![4 * r 0 - 1,
      0,
      -3 + 4 * r 0 + 4 * r 1,
      4 * r 1,
      -4 * r 1,
      4 * (1 - 2 * r 0 - r 1)],
    ![0,
      4 * r 1 - 1,
      -3 + 4 * r 0 + 4 * r 1,
      4 * r 0,
      4 * (1 - r 0 - 2 * r 1),
      -4 * r 0]]

/-- `ShapeFunction4Square`: src/FEM/Controller/ShapeFunction.h:160-191
(`Points` 171-171, `N` 175-182, `dNdr` 186-191). -/
def square4 : SF K 2 4 where
  points := [![-1, -1], ![1, -1], ![1, 1], ![-1, 1]]
  N := fun r => ![
    1 / 4 * (1 - r 0) * (1 - r 1),
    1 / 4 * (1 + r 0) * (1 - r 1),
    1 / 4 * (1 + r 0) * (1 + r 1),
    1 / 4 * (1 - r 0) * (1 + r 1)]
  dNdr := fun r => Matrix.of ![
    ![-(1 / 4) * (1 - r 1),
      1 / 4 * (1 - r 1),
      1 / 4 * (1 + r 1),
      -(1 / 4) * (1 + r 1)],
    ![-(1 / 4) * (1 - r 0),
      -(1 / 4) * (1 + r 0),
      1 / 4 * (1 + r 0),
      1 / 4 * (1 - r 0)]]

/-- `ShapeFunction8Square`: src/FEM/Controller/ShapeFunction.h:196-246
(`Points` 207-207, `N` 211-222, `dNdr` 226-246). -/
def square8 : SF K 2 8 where
  points := [![-1, -1], ![1, -1], ![1, 1], ![-1, 1], ![0, -1], ![1, 0],
    ![0, 1], ![-1, 0]]
  N := fun r => ![
    1 / 4 * (1 - r 0) * (1 - r 1) * (-r 0 - r 1 - 1),
    1 / 4 * (1 + r 0) * (1 - r 1) * (r 0 - r 1 - 1),
    1 / 4 * (1 + r 0) * (1 + r 1) * (r 0 + r 1 - 1),
    1 / 4 * (1 - r 0) * (1 + r 1) * (-r 0 + r 1 - 1),
    1 / 2 * (1 - r 0) * (1 + r 0) * (1 - r 1),
    1 / 2 * (1 + r 0) * (1 + r 1) * (1 - r 1),
    1 / 2 * (1 + r 0) * (1 - r 0) * (1 + r 1),
    1 / 2 * (1 - r 0) * (1 + r 1) * (1 - r 1)]
  dNdr := fun r => Matrix.of ![
    ![1 / 4 * (-(1 - r 1) * (-r 0 - r 1 - 1) - (1 - r 0) * (1 - r 1)),
      1 / 4 * ((1 - r 1) * (r 0 - r 1 - 1) + (1 + r 0) * (1 - r 1)),
      1 / 4 * ((1 + r 1) * (r 0 + r 1 - 1) + (1 + r 0) * (1 + r 1)),
      1 / 4 * (-(1 + r 1) * (-r 0 + r 1 - 1) - (1 - r 0) * (1 + r 1)),
      -r 0 * (1 - r 1),
      1 / 2 * (1 + r 1) * (1 - r 1),
      -r 0 * (1 + r 1),
      -(1 / 2) * (1 + r 1) * (1 - r 1)],
    ![1 / 4 * (-(1 - r 0) * (-r 0 - r 1 - 1) - (1 - r 0) * (1 - r 1)),
      1 / 4 * (-(1 + r 0) * (r 0 - r 1 - 1) - (1 + r 0) * (1 - r 1)),
      1 / 4 * ((1 + r 0) * (r 0 + r 1 - 1) + (1 + r 0) * (1 + r 1)),
      1 / 4 * ((1 - r 0) * (-r 0 + r 1 - 1) + (1 - r 0) * (1 + r 1)),
      -(1 / 2) * (1 + r 0) * (1 - r 0),
      -r 1 * (1 + r 0),
      1 / 2 * (1 + r 0) * (1 - r 0),
      -r 1 * (1 - r 0)]]

/-- `ShapeFunction4Tetrahedron`: src/FEM/Controller/ShapeFunction.h:251-283
(`Points` 262-262, `N` 266-273, `dNdr` 277-283). -/
def tetrahedron4 : SF K 3 4 where
  points := [![1, 0, 0], ![0, 1, 0], ![0, 0, 1], ![0, 0, 0]]
  N := fun r => ![
    r 0,
    r 1,
    r 2,
    1 - r 0 - r 1 - r 2]
  dNdr := fun r => Matrix.of ![
    ![1,
      0,
      0,
      -1],
    ![0,
      1,
      0,
      -1],
    ![0,
      0,
      1,
      -1]]

/-- `ShapeFunction8Cubic`: src/FEM/Controller/ShapeFunction.h:288-329
(`Points` 299-299, `N` 303-314, `dNdr` 318-329). -/
def cubic8 : SF K 3 8 where
  points := [![-1, -1, -1], ![1, -1, -1], ![1, 1, -1], ![-1, 1, -1], ![-1, -1, 1], ![1, -1, 1],
    ![1, 1, 1], ![-1, 1, 1]]
  N := fun r => ![
    1 / 8 * (1 - r 0) * (1 - r 1) * (1 - r 2),
    1 / 8 * (1 + r 0) * (1 - r 1) * (1 - r 2),
    1 / 8 * (1 + r 0) * (1 + r 1) * (1 - r 2),
    1 / 8 * (1 - r 0) * (1 + r 1) * (1 - r 2),
    1 / 8 * (1 - r 0) * (1 - r 1) * (1 + r 2),
    1 / 8 * (1 + r 0) * (1 - r 1) * (1 + r 2),
    1 / 8 * (1 + r 0) * (1 + r 1) * (1 + r 2),
    1 / 8 * (1 - r 0) * (1 + r 1) * (1 + r 2)]
  dNdr := fun r => Matrix.of ![
    ![-(1 / 8) * (1 - r 1) * (1 - r 2),
      1 / 8 * (1 - r 1) * (1 - r 2),
      1 / 8 * (1 + r 1) * (1 - r 2),
      -(1 / 8) * (1 + r 1) * (1 - r 2),
      -(1 / 8) * (1 - r 1) * (1 + r 2),
      1 / 8 * (1 - r 1) * (1 + r 2),
      1 / 8 * (1 + r 1) * (1 + r 2),
      -(1 / 8) * (1 + r 1) * (1 + r 2)],
    ![-(1 / 8) * (1 - r 2) * (1 - r 0),
      -(1 / 8) * (1 - r 2) * (1 + r 0),
      1 / 8 * (1 - r 2) * (1 + r 0),
      1 / 8 * (1 - r 2) * (1 - r 0),
      -(1 / 8) * (1 + r 2) * (1 - r 0),
      -(1 / 8) * (1 + r 2) * (1 + r 0),
      1 / 8 * (1 + r 2) * (1 + r 0),
      1 / 8 * (1 + r 2) * (1 - r 0)],
    ![-(1 / 8) * (1 - r 0) * (1 - r 1),
      -(1 / 8) * (1 + r 0) * (1 - r 1),
      -(1 / 8) * (1 + r 0) * (1 + r 1),
      -(1 / 8) * (1 - r 0) * (1 + r 1),
      1 / 8 * (1 - r 0) * (1 - r 1),
      1 / 8 * (1 + r 0) * (1 - r 1),
      1 / 8 * (1 + r 0) * (1 + r 1),
      1 / 8 * (1 - r 0) * (1 + r 1)]]

/-- `ShapeFunction20Cubic`: src/FEM/Controller/ShapeFunction.h:334-461
(`Points` 345-365, `N` 369-392, `dNdr` 396-461). -/
def cubic20 : SF K 3 20 where
  points := [![-1, -1, -1], ![1, -1, -1], ![1, 1, -1], ![-1, 1, -1], ![-1, -1, 1], ![1, -1, 1],
    ![1, 1, 1], ![-1, 1, 1], ![0, -1, -1], ![1, 0, -1], ![0, 1, -1], ![-1, 0, -1],
    ![-1, 1, 1], ![0, -1, 1], ![1, 0, 1], ![0, 1, 1], ![-1, 0, 1], ![-1, -1, 0],
    ![1, -1, 0], ![1, 1, 0], ![-1, 1, 0]]
  N := fun r => ![
    -(1 / 8) * (1 - r 0) * (1 - r 1) * (1 - r 2) * (2 + r 0 + r 1 + r 2),
    -(1 / 8) * (1 + r 0) * (1 - r 1) * (1 - r 2) * (2 - r 0 + r 1 + r 2),
    -(1 / 8) * (1 + r 0) * (1 + r 1) * (1 - r 2) * (2 - r 0 - r 1 + r 2),
    -(1 / 8) * (1 - r 0) * (1 + r 1) * (1 - r 2) * (2 + r 0 - r 1 + r 2),
    -(1 / 8) * (1 - r 0) * (1 - r 1) * (1 + r 2) * (2 + r 0 + r 1 - r 2),
    -(1 / 8) * (1 + r 0) * (1 - r 1) * (1 + r 2) * (2 - r 0 + r 1 - r 2),
    -(1 / 8) * (1 + r 0) * (1 + r 1) * (1 + r 2) * (2 - r 0 - r 1 - r 2),
    -(1 / 8) * (1 - r 0) * (1 + r 1) * (1 + r 2) * (2 + r 0 - r 1 - r 2),
    1 / 4 * (1 + r 0) * (1 - r 0) * (1 - r 1) * (1 - r 2),
    1 / 4 * (1 + r 0) * (1 + r 1) * (1 - r 1) * (1 - r 2),
    1 / 4 * (1 + r 0) * (1 - r 0) * (1 + r 1) * (1 - r 2),
    1 / 4 * (1 - r 0) * (1 + r 1) * (1 - r 1) * (1 - r 2),
    1 / 4 * (1 + r 0) * (1 - r 0) * (1 - r 1) * (1 + r 2),
    1 / 4 * (1 + r 0) * (1 + r 1) * (1 - r 1) * (1 + r 2),
    1 / 4 * (1 + r 0) * (1 - r 0) * (1 + r 1) * (1 + r 2),
    1 / 4 * (1 - r 0) * (1 + r 1) * (1 - r 1) * (1 + r 2),
    1 / 4 * (1 - r 0) * (1 - r 1) * (1 + r 2) * (1 - r 2),
    1 / 4 * (1 + r 0) * (1 - r 1) * (1 + r 2) * (1 - r 2),
    1 / 4 * (1 + r 0) * (1 + r 1) * (1 + r 2) * (1 - r 2),
    1 / 4 * (1 - r 0) * (1 + r 1) * (1 + r 2) * (1 - r 2)]
  dNdr := fun r => Matrix.of ![
    ![1 / 8 * (1 - r 1) * (1 - r 2) * (1 + 2 * r 0 + r 1 + r 2),
      -(1 / 8) * (1 - r 1) * (1 - r 2) * (1 - 2 * r 0 + r 1 + r 2),
      -(1 / 8) * (1 + r 1) * (1 - r 2) * (1 - 2 * r 0 - r 1 + r 2),
      1 / 8 * (1 + r 1) * (1 - r 2) * (1 + 2 * r 0 - r 1 + r 2),
      1 / 8 * (1 - r 1) * (1 + r 2) * (1 + 2 * r 0 + r 1 - r 2),
      -(1 / 8) * (1 - r 1) * (1 + r 2) * (1 - 2 * r 0 + r 1 - r 2),
      -(1 / 8) * (1 + r 1) * (1 + r 2) * (1 - 2 * r 0 - r 1 - r 2),
      1 / 8 * (1 + r 1) * (1 + r 2) * (1 + 2 * r 0 - r 1 - r 2),
      -(1 / 2) * r 0 * (1 - r 1) * (1 - r 2),
      1 / 4 * (1 - r 1 * r 1) * (1 - r 2),
      -(1 / 2) * r 0 * (1 + r 1) * (1 - r 2),
      -(1 / 4) * (1 - r 1 * r 1) * (1 - r 2),
      -(1 / 2) * r 0 * (1 - r 1) * (1 + r 2),
      1 / 4 * (1 - r 1 * r 1) * (1 + r 2),
      -(1 / 2) * r 0 * (1 + r 1) * (1 + r 2),
      -(1 / 4) * (1 - r 1 * r 1) * (1 + r 2),
      -(1 / 4) * (1 - r 1) * (1 - r 2 * r 2),
      1 / 4 * (1 - r 1) * (1 - r 2 * r 2),
      1 / 4 * (1 + r 1) * (1 - r 2 * r 2),
      -(1 / 4) * (1 + r 1) * (1 - r 2 * r 2)],
    ![1 / 8 * (1 - r 0) * (1 - r 2) * (1 + r 0 + 2 * r 1 + r 2),
      1 / 8 * (1 + r 0) * (1 - r 2) * (1 - r 0 + 2 * r 1 + r 2),
      -(1 / 8) * (1 + r 0) * (1 - r 2) * (1 - r 0 - 2 * r 1 + r 2),
      -(1 / 8) * (1 - r 0) * (1 - r 2) * (1 + r 0 - 2 * r 1 + r 2),
      1 / 8 * (1 - r 0) * (1 + r 2) * (1 + r 0 + 2 * r 1 - r 2),
      1 / 8 * (1 + r 0) * (1 + r 2) * (1 - r 0 + 2 * r 1 - r 2),
      -(1 / 8) * (1 + r 0) * (1 + r 2) * (1 - r 0 - 2 * r 1 - r 2),
      -(1 / 8) * (1 - r 0) * (1 + r 2) * (1 + r 0 - 2 * r 1 - r 2),
      -(1 / 4) * (1 - r 0 * r 0) * (1 - r 2),
      -(1 / 2) * (1 + r 0) * r 1 * (1 - r 2),
      1 / 4 * (1 - r 0 * r 0) * (1 - r 2),
      -(1 / 2) * (1 - r 0) * r 1 * (1 - r 2),
      -(1 / 4) * (1 - r 0 * r 0) * (1 + r 2),
      -(1 / 2) * (1 + r 0) * r 1 * (1 + r 2),
      1 / 4 * (1 - r 0 * r 0) * (1 + r 2),
      -(1 / 2) * (1 - r 0) * r 1 * (1 + r 2),
      -(1 / 4) * (1 - r 0) * (1 - r 2 * r 2),
      -(1 / 4) * (1 + r 0) * (1 - r 2 * r 2),
      1 / 4 * (1 + r 0) * (1 - r 2 * r 2),
      1 / 4 * (1 - r 0) * (1 - r 2 * r 2)],
    ![1 / 8 * (1 - r 0) * (1 - r 1) * (1 + r 0 + r 1 + 2 * r 2),
      1 / 8 * (1 + r 0) * (1 - r 1) * (1 - r 0 + r 1 + 2 * r 2),
      1 / 8 * (1 + r 0) * (1 + r 1) * (1 - r 0 - r 1 + 2 * r 2),
      1 / 8 * (1 - r 0) * (1 + r 1) * (1 + r 0 - r 1 + 2 * r 2),
      -(1 / 8) * (1 - r 0) * (1 - r 1) * (1 + r 0 + r 1 - 2 * r 2),
      -(1 / 8) * (1 + r 0) * (1 - r 1) * (1 - r 0 + r 1 - 2 * r 2),
      -(1 / 8) * (1 + r 0) * (1 + r 1) * (1 - r 0 - r 1 - 2 * r 2),
      -(1 / 8) * (1 - r 0) * (1 + r 1) * (1 + r 0 - r 1 - 2 * r 2),
      -(1 / 4) * (1 - r 0 * r 0) * (1 - r 1),
      -(1 / 4) * (1 + r 0) * (1 - r 1 * r 1),
      -(1 / 4) * (1 - r 0 * r 0) * (1 + r 1),
      -(1 / 4) * (1 - r 0) * (1 - r 1 * r 1),
      1 / 4 * (1 - r 0 * r 0) * (1 - r 1),
      1 / 4 * (1 + r 0) * (1 - r 1 * r 1),
      1 / 4 * (1 - r 0 * r 0) * (1 + r 1),
      1 / 4 * (1 - r 0) * (1 - r 1 * r 1),
      -(1 / 2) * (1 - r 0) * (1 - r 1) * r 2,
      -(1 / 2) * (1 + r 0) * (1 - r 1) * r 2,
      -(1 / 2) * (1 + r 0) * (1 + r 1) * r 2,
      -(1 / 2) * (1 - r 0) * (1 + r 1) * r 2]]

end SF

/-- The nine element families of src/FEM/Controller/ShapeFunction.h
(lines src/FEM/Controller/ShapeFunction.h:19-461). -/
inductive Family
  | line2 | line3 | triangle3 | triangle6 | square4 | square8 | tetrahedron4 | cubic8 | cubic20
  deriving DecidableEq

/-- `d` of each class (src/FEM/Controller/ShapeFunction.h:22,55,89,124,162,198,253,290,336). -/
@[reducible] def Family.d : Family → ℕ
  | .line2 => 1 | .line3 => 1 | .triangle3 => 2 | .triangle6 => 2 | .square4 => 2 | .square8 => 2
  | .tetrahedron4 => 3 | .cubic8 => 3 | .cubic20 => 3

/-- `n` of each class (src/FEM/Controller/ShapeFunction.h:23,56,90,125,163,199,254,291,337). -/
@[reducible] def Family.n : Family → ℕ
  | .line2 => 2 | .line3 => 3 | .triangle3 => 3 | .triangle6 => 6 | .square4 => 4 | .square8 => 8
  | .tetrahedron4 => 4 | .cubic8 => 8 | .cubic20 => 20

/-- The class of each family (src/FEM/Controller/ShapeFunction.h:20-460). -/
def Family.sf {K : Type} [Field K] : (f : Family) → SF K f.d f.n
  | .line2 => SF.line2 | .line3 => SF.line3 | .triangle3 => SF.triangle3
  | .triangle6 => SF.triangle6 | .square4 => SF.square4 | .square8 => SF.square8
  | .tetrahedron4 => SF.tetrahedron4 | .cubic8 => SF.cubic8 | .cubic20 => SF.cubic20

/-- `cbrt` of the C library, on the non-negative numbers the tables use
(src/FEM/Controller/GaussIntegration.h:216). -/
noncomputable def cbrt (x : ℝ) : ℝ := x ^ (1 / 3 : ℝ)

namespace IC

/-- `Gauss1Line`: src/FEM/Controller/GaussIntegration.h:18-35 (`Points` 27-29, `Weights` 33-35). -/
noncomputable def gauss1Line : IC ℝ 1 where
  N := 1
  points := ![![0]]
  weights := ![![2]]

/-- `Gauss2Line`: src/FEM/Controller/GaussIntegration.h:40-59 (`Points` 49-52, `Weights` 56-59). -/
noncomputable def gauss2Line : IC ℝ 1 where
  N := 2
  points := ![![-1 / √3], ![1 / √3]]
  weights := ![![1], ![1]]

/-- `Gauss1Triangle`: src/FEM/Controller/GaussIntegration.h:64-81 (`Points` 73-75, `Weights` 79-81). -/
noncomputable def gauss1Triangle : IC ℝ 2 where
  N := 1
  points := ![![1 / 3, 1 / 3]]
  weights := ![![1 / √2, 1 / √2]]

/-- `Gauss3Triangle`: src/FEM/Controller/GaussIntegration.h:86-107 (`Points` 95-99, `Weights` 103-107). -/
noncomputable def gauss3Triangle : IC ℝ 2 where
  N := 3
  points := ![![1 / 6, 1 / 6], ![2 / 3, 1 / 6], ![1 / 6, 2 / 3]]
  weights := ![![1 / √6, 1 / √6], ![1 / √6, 1 / √6], ![1 / √6, 1 / √6]]

/-- `Gauss1Square`: src/FEM/Controller/GaussIntegration.h:112-129 (`Points` 121-123, `Weights` 127-129). -/
noncomputable def gauss1Square : IC ℝ 2 where
  N := 1
  points := ![![0, 0]]
  weights := ![![2, 2]]

/-- `Gauss4Square`: src/FEM/Controller/GaussIntegration.h:134-157 (`Points` 143-148, `Weights` 152-157). -/
noncomputable def gauss4Square : IC ℝ 2 where
  N := 4
  points := ![![-1 / √3, -1 / √3], ![1 / √3, -1 / √3], ![-1 / √3, 1 / √3], ![1 / √3, 1 / √3]]
  weights := ![![1, 1], ![1, 1], ![1, 1], ![1, 1]]

/-- `Gauss9Square`: src/FEM/Controller/GaussIntegration.h:162-195 (`Points` 171-181, `Weights` 185-195). -/
noncomputable def gauss9Square : IC ℝ 2 where
  N := 9
  points := ![![-√(3 / 5), -√(3 / 5)], ![0, -√(3 / 5)], ![√(3 / 5), -√(3 / 5)], ![-√(3 / 5), 0],
    ![0, 0], ![√(3 / 5), 0], ![-√(3 / 5), √(3 / 5)], ![0, √(3 / 5)], ![√(3 / 5), √(3 / 5)]]
  weights := ![![5 / 9, 5 / 9], ![8 / 9, 5 / 9], ![5 / 9, 5 / 9], ![5 / 9, 8 / 9], ![8 / 9, 8 / 9],
    ![5 / 9, 8 / 9], ![5 / 9, 5 / 9], ![8 / 9, 5 / 9], ![5 / 9, 5 / 9]]

/-- `Gauss1Tetrahedron`: src/FEM/Controller/GaussIntegration.h:200-217
(`Points` 209-211, `Weights` 215-217). -/
noncomputable def gauss1Tetrahedron : IC ℝ 3 where
  N := 1
  points := ![![1 / 4, 1 / 4, 1 / 4]]
  weights := ![![1 / cbrt 6, 1 / cbrt 6, 1 / cbrt 6]]

/-- `Gauss8Cubic`: src/FEM/Controller/GaussIntegration.h:222-253 (`Points` 231-240, `Weights` 244-253). -/
noncomputable def gauss8Cubic : IC ℝ 3 where
  N := 8
  points := ![![-1 / √3, -1 / √3, -1 / √3], ![1 / √3, -1 / √3, -1 / √3], ![1 / √3, 1 / √3, -1 / √3],
    ![-1 / √3, 1 / √3, -1 / √3], ![-1 / √3, -1 / √3, 1 / √3], ![1 / √3, -1 / √3, 1 / √3],
    ![1 / √3, 1 / √3, 1 / √3], ![-1 / √3, 1 / √3, 1 / √3]]
  weights := ![![1, 1, 1], ![1, 1, 1], ![1, 1, 1], ![1, 1, 1], ![1, 1, 1], ![1, 1, 1], ![1, 1, 1],
    ![1, 1, 1]]

/-- `Gauss27Cubic`: src/FEM/Controller/GaussIntegration.h:258-327 (`Points` 267-295, `Weights` 299-327). -/
noncomputable def gauss27Cubic : IC ℝ 3 where
  N := 27
  points := ![![-√(3 / 5), -√(3 / 5), -√(3 / 5)], ![0, -√(3 / 5), -√(3 / 5)],
    ![√(3 / 5), -√(3 / 5), -√(3 / 5)], ![-√(3 / 5), 0, -√(3 / 5)], ![0, 0, -√(3 / 5)],
    ![√(3 / 5), 0, -√(3 / 5)], ![-√(3 / 5), √(3 / 5), -√(3 / 5)], ![0, √(3 / 5), -√(3 / 5)],
    ![√(3 / 5), √(3 / 5), -√(3 / 5)], ![-√(3 / 5), -√(3 / 5), 0], ![0, -√(3 / 5), 0],
    ![√(3 / 5), -√(3 / 5), 0], ![-√(3 / 5), 0, 0], ![0, 0, 0], ![√(3 / 5), 0, 0],
    ![-√(3 / 5), √(3 / 5), 0], ![0, √(3 / 5), 0], ![√(3 / 5), √(3 / 5), 0],
    ![-√(3 / 5), -√(3 / 5), √(3 / 5)], ![0, -√(3 / 5), √(3 / 5)],
    ![√(3 / 5), -√(3 / 5), √(3 / 5)], ![-√(3 / 5), 0, √(3 / 5)], ![0, 0, √(3 / 5)],
    ![√(3 / 5), 0, √(3 / 5)], ![-√(3 / 5), √(3 / 5), √(3 / 5)], ![0, √(3 / 5), √(3 / 5)],
    ![√(3 / 5), √(3 / 5), √(3 / 5)]]
  weights := ![![5 / 9, 5 / 9, 5 / 9], ![8 / 9, 5 / 9, 5 / 9], ![5 / 9, 5 / 9, 5 / 9],
    ![5 / 9, 8 / 9, 5 / 9], ![8 / 9, 8 / 9, 5 / 9], ![5 / 9, 8 / 9, 5 / 9],
    ![5 / 9, 5 / 9, 5 / 9], ![8 / 9, 5 / 9, 5 / 9], ![5 / 9, 5 / 9, 5 / 9],
    ![5 / 9, 5 / 9, 8 / 9], ![8 / 9, 5 / 9, 8 / 9], ![5 / 9, 5 / 9, 8 / 9],
    ![5 / 9, 8 / 9, 8 / 9], ![8 / 9, 8 / 9, 8 / 9], ![5 / 9, 8 / 9, 8 / 9],
    ![5 / 9, 5 / 9, 8 / 9], ![8 / 9, 5 / 9, 8 / 9], ![5 / 9, 5 / 9, 8 / 9],
    ![5 / 9, 5 / 9, 5 / 9], ![8 / 9, 5 / 9, 5 / 9], ![5 / 9, 5 / 9, 5 / 9],
    ![5 / 9, 8 / 9, 5 / 9], ![8 / 9, 8 / 9, 5 / 9], ![5 / 9, 8 / 9, 5 / 9],
    ![5 / 9, 5 / 9, 5 / 9], ![8 / 9, 5 / 9, 5 / 9], ![5 / 9, 5 / 9, 5 / 9]]

/-- `NewtonCotes1Line`: src/FEM/Controller/NewtonCotesIntegration.h:18-35
(`Points` 27-29, `Weights` 33-35). -/
noncomputable def newtonCotes1Line : IC ℝ 1 where
  N := 1
  points := ![![0]]
  weights := ![![2]]

/-- `NewtonCotes3Line`: src/FEM/Controller/NewtonCotesIntegration.h:40-61
(`Points` 49-53, `Weights` 57-61). -/
noncomputable def newtonCotes3Line : IC ℝ 1 where
  N := 3
  points := ![![-1], ![0], ![1]]
  weights := ![![2 / 6], ![8 / 6], ![2 / 6]]

/-- `NewtonCotes5Line`: src/FEM/Controller/NewtonCotesIntegration.h:66-91
(`Points` 75-81, `Weights` 85-91). -/
noncomputable def newtonCotes5Line : IC ℝ 1 where
  N := 5
  points := ![![-1], ![-1 / 2], ![0], ![1 / 2], ![1]]
  weights := ![![14 / 90], ![64 / 90], ![24 / 90], ![64 / 90], ![14 / 90]]

/-- `NewtonCotes7Line`: src/FEM/Controller/NewtonCotesIntegration.h:96-125
(`Points` 105-113, `Weights` 117-125). -/
noncomputable def newtonCotes7Line : IC ℝ 1 where
  N := 7
  points := ![![-1], ![-2 / 3], ![-1 / 3], ![0], ![1 / 3], ![2 / 3], ![1]]
  weights := ![![82 / 840], ![432 / 840], ![54 / 840], ![544 / 840], ![54 / 840], ![432 / 840],
    ![82 / 840]]

end IC

end Pansfem
