/-
Counting loops over mutable state, shared by the models of the numerical routines.

Arrays are total functions of natural numbers; the loop bounds of the modelled routines keep every
subscript inside the array, so reads outside cannot occur and are not represented.  Where a routine
can leave the array the model uses lists instead.
-/
import Mathlib.Algebra.BigOperators.Intervals
import Mathlib.Algebra.BigOperators.Fin
import Mathlib.Data.List.Range

namespace Pansfem

/-- `for (i = lo; i < hi; i++) s = f(i, s)` (for example src/LinearAlgebra/Solvers/LU.h:29, 71). -/
def forUp {S : Type*} (lo hi : ℕ) (f : ℕ → S → S) (s : S) : S :=
  (List.range' lo (hi - lo)).foldl (fun s i => f i s) s

/-- `for (i = lo; i < hi; i++) s = f(i, s)` with a body that can fail
(for example src/LinearAlgebra/Solvers/LU.h:49, 77). -/
def forUpM {S : Type*} (lo hi : ℕ) (f : ℕ → S → Option S) (s : S) : Option S :=
  (List.range' lo (hi - lo)).foldlM (fun s i => f i s) s

/-- `for (i = hi - 1; i >= lo; i--) s = f(i, s)` with a body that can fail (src/LinearAlgebra/Solvers/LU.h:83). -/
def forDownM {S : Type*} (lo hi : ℕ) (f : ℕ → S → Option S) (s : S) : Option S :=
  (List.range' lo (hi - lo)).reverse.foldlM (fun s i => f i s) s

/-- `for (i = hi - 1; i >= lo; i--) s = f(i, s)` (src/LinearAlgebra/Solvers/LU.h:83). -/
def forDown {S : Type*} (lo hi : ℕ) (f : ℕ → S → S) (s : S) : S :=
  (List.range' lo (hi - lo)).reverse.foldl (fun s i => f i s) s

/-- Write one element of a vector (for example src/LinearAlgebra/Solvers/LU.h:76-81). -/
def upd1 {K : Type*} (v : ℕ → K) (i : ℕ) (x : K) : ℕ → K := fun i' => if i' = i then x else v i'

/-- Write one element of a matrix (for example src/LinearAlgebra/Solvers/LU.h:49-55). -/
def upd2 {K : Type*} (A : ℕ → ℕ → K) (i j : ℕ) (x : K) : ℕ → ℕ → K :=
  fun i' j' => if i' = i ∧ j' = j then x else A i' j'

end Pansfem
