/-
What the properties of sample_stokes_static.cpp refer to.
-/
import Verif.Model.ProgramStokes
import Verif.Spec.ProgramFlow

noncomputable section

namespace Pansfem

namespace FlowMesh
variable {m n : ℕ} (G : FlowMesh m n)

/-- The work of the body force `f`. -/
def bodyWork (f : (Fin 2 → ℝ) → Fin 2 → ℝ) (w : ℕ → ℕ → ℝ) : ℝ :=
  G.integral fun e g => ∑ a : Fin 2, f (place (G.sfp.N (G.ic.points g)) (G.coords e)) a * G.vel e w g a

/-- The equations of steady flow tested with `w`: `- div (mu (grad v + div v)) + grad p = f`, `div v = 0`. -/
def steady (mu : ℝ) (f : (Fin 2 → ℝ) → Fin 2 → ℝ) (v w : ℕ → ℕ → ℝ) : ℝ :=
  G.laplace mu w v - G.expand v w - G.expand w v - G.bodyWork f w

end FlowMesh

/-- The elements of sample_stokes_static.cpp. -/
def steadyMesh (x : List (Vec ℝ)) (elements : List (List ℕ × List ℕ)) : FlowMesh 8 4 :=
  ⟨SF.square8, SF.square4, IC.gauss9Square, x, elements⟩

/-- `v` has the given values and meets the equations of steady flow for all test fields that vanish where values are given. -/
structure SteadyFlow {m n : ℕ} (G : FlowMesh m n) (bc : List ((ℕ × ℕ) × ℝ)) (mu : ℝ) (f : (Fin 2 → ℝ) → Fin 2 → ℝ)
    (v : ℕ → ℕ → ℝ) : Prop where
  boundary : ∀ a d c, lastValue bc a d = some c → v a d = c
  equation : ∀ w, Vanishing bc w → G.steady mu f v w = 0

/-- The number of the corner `(i, j)` of a square mesh with quadratic elements. -/
def cornerNo (ny i j : ℕ) : ℕ := (ny + 1) * i + j

/-- The number of the middle node above the corner `(i, j)`. -/
def uprightNo (nx ny i j : ℕ) : ℕ := ny * i + j + (nx + 1) * (ny + 1)

/-- The number of the middle node to the right of the corner `(i, j)`. -/
def levelNo (nx ny i j : ℕ) : ℕ := (ny + 1) * i + j + (nx + 1) * (2 * ny + 1)

/-- The nodes of the cavity: on the lid velocity `(value, 0)`, on the other sides velocity zero, inside nothing given. -/
structure Cavity8 (nx ny : ℕ) (value : ℝ) (x : List (Vec ℝ)) (elements : List (List ℕ × List ℕ))
    (bc : List ((ℕ × ℕ) × ℝ)) : Prop where
  corner : ∀ i ≤ nx, ∀ j ≤ ny, x[cornerNo ny i j]? = some ⟨[(i : ℝ) / nx, (j : ℝ) / ny]⟩
  upright : ∀ i ≤ nx, ∀ j < ny, x[uprightNo nx ny i j]? = some ⟨[(i : ℝ) / nx, (j + 1 / 2 : ℝ) / ny]⟩
  level : ∀ i < nx, ∀ j ≤ ny, x[levelNo nx ny i j]? = some ⟨[(i + 1 / 2 : ℝ) / nx, (j : ℝ) / ny]⟩
  size : x.length = (nx + 1) * (ny + 1) + (nx + 1) * ny + nx * (ny + 1)
  cells : elements = (grid nx ny Prod.mk).map fun c =>
    ([cornerNo ny c.1 c.2, cornerNo ny (c.1 + 1) c.2, cornerNo ny (c.1 + 1) (c.2 + 1), cornerNo ny c.1 (c.2 + 1),
      levelNo nx ny c.1 c.2, uprightNo nx ny (c.1 + 1) c.2, levelNo nx ny c.1 (c.2 + 1), uprightNo nx ny c.1 c.2],
     [cornerNo ny c.1 c.2, cornerNo ny (c.1 + 1) c.2, cornerNo ny (c.1 + 1) (c.2 + 1), cornerNo ny c.1 (c.2 + 1)])
  given : ∀ a d, lastValue bc a d = (x[a]?.bind fun p =>
    match p.values with
    | [X, Y] => if d = 0 ∧ Y = 1 then some value else if d < 2 ∧ (X = 0 ∨ X = 1 ∨ Y = 0 ∨ Y = 1) then some 0 else none
    | _ => none)

end Pansfem
