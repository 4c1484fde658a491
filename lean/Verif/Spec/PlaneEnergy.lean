/-
The strain energy of an isotropic material in the plane, without reference to the matrices of the code.
-/
import Verif.Lemmas.Elastic
import Verif.Lemmas.Quads

noncomputable section

namespace Pansfem

/-- The integral of `a (tr ε)² + 2 b ε:ε` over an element for the strain `ε` of a field, by the rule with four points. -/
def isotropicEnergy (a b : ℝ) (x : List (Vec ℝ)) (e : List ℕ) (v : ℕ → ℕ → ℝ) : ℝ :=
  ∑ g, measure2 SF.square4 IC.gauss4Square (nodeCoords x e) g *
    (let s := strain2 (gradAt SF.square4 (nodeCoords x e) (IC.gauss4Square.points g))
      (fun p : Fin 4 × Fin 2 => v (e[(p.1 : ℕ)]?.getD 0) p.2)
    a * (s 0 + s 1) ^ 2 + b * (2 * s 0 ^ 2 + 2 * s 1 ^ 2 + s 2 ^ 2))

end Pansfem
