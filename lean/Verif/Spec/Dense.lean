/-
Specification side of the dense classes: which C++ object represents a mathematical matrix.
-/
import Verif.Model.Dense
import Mathlib.Data.Matrix.Basic

namespace Pansfem

variable {K : Type*}

/-- The `Matrix<T>` object that holds the mathematical `r × c` matrix `M`: its rows, written one
after the other. -/
def dense {r c : ℕ} (M : Matrix (Fin r) (Fin c) K) : Mat K :=
  ⟨r, c, (List.ofFn fun i => List.ofFn fun j => M i j).flatten⟩

/-- The `Vector<T>` object that holds the mathematical vector `v`. -/
def densev {n : ℕ} (v : Fin n → K) : Vec K := ⟨List.ofFn v⟩

end Pansfem
