/-
Specification side of the iterative solvers.
-/
import Verif.Spec.Sparse
import Verif.Model.Krylov

namespace Pansfem

/-- `A` is a well formed `n` by `n` sparse matrix whose entries, as returned by `get`, are those of
the mathematical matrix `M`. -/
structure IsCSR (n : ℕ) (A : CSR ℝ) (M : Matrix (Fin n) (Fin n) ℝ) : Prop where
  wf : A.WF
  inb : A.InBounds
  rows : A.rows = n
  cols : A.cols = n
  entries : ∀ i j : Fin n, A.get i j = some (M i j)

/-- Symmetric positive definite, in elementary terms. -/
def SPD {n : ℕ} (M : Matrix (Fin n) (Fin n) ℝ) : Prop :=
  (∀ i j, M i j = M j i) ∧ ∀ v : Fin n → ℝ, v ≠ 0 → 0 < v ⬝ᵥ M.mulVec v

/-- `k` iterations of a step that can be undefined. -/
def iterM {S : Type} (f : S → Option S) : ℕ → S → Option S
  | 0, s => some s
  | k + 1, s => (iterM f k s).bind f

end Pansfem
