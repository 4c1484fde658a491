/-
Specification side of the sparse matrices: finite maps, and what a sequence of writes means.
-/
import Verif.Model.Sparse
import Mathlib.Data.Matrix.Mul

namespace Pansfem

variable {K : Type}

/-- A write `(row, column, value)`. -/
abbrev Write (K : Type) := ℕ × ℕ × K

/-- Perform the writes one after the other through a `set` operation, collecting the returned
flags. -/
def runSets {M : Type} (setf : M → ℕ → ℕ → K → Option (M × Bool)) :
    M → List (Write K) → Option (M × List Bool)
  | m, [] => some (m, [])
  | m, o :: ops => do
    let (m1, b) ← setf m o.1 o.2.1 o.2.2
    let (m2, bs) ← runSets setf m1 ops
    return (m2, b :: bs)

/-- The value of the last write to position `(i, j)`, if there is one. -/
def lastWrite (ops : List (Write K)) (i j : ℕ) : Option K :=
  (ops.reverse.find? fun o => decide (o.1 = i ∧ o.2.1 = j)).map fun o => o.2.2

/-- For each write, whether its position was written before. -/
def writtenBefore : List (ℕ × ℕ) → List (Write K) → List Bool
  | _, [] => []
  | seen, o :: ops =>
    decide ((o.1, o.2.1) ∈ seen) :: writtenBefore ((o.1, o.2.1) :: seen) ops

/-- Well formed `LILCSR`: one list per row and no column twice in a row. -/
def LIL.WF (m : LIL K) : Prop :=
  m.data.length = m.rows ∧ ∀ row ∈ m.data, (row.map Prod.fst).Nodup

/-- All stored columns are inside the matrix. -/
def LIL.InBounds (m : LIL K) : Prop := ∀ row ∈ m.data, ∀ p ∈ row, p.1 < m.cols

/-- Row pointers of the concatenation of `R` starting at `s`. -/
def rowPtrs : ℕ → List (List (ℕ × K)) → List ℕ
  | s, [] => [s]
  | s, r :: R => s :: rowPtrs (s + r.length) R

/-- The `CSR` object that holds the rows `R`, written one after the other. -/
def csrOf (cols : ℕ) (R : List (List (ℕ × K))) : CSR K :=
  ⟨R.length, cols, rowPtrs 0 R, R.flatten.map Prod.fst, R.flatten.map Prod.snd⟩

/-- Strictly increasing columns. -/
def RowSorted (row : List (ℕ × K)) : Prop := row.Pairwise fun a b => a.1 < b.1

/-- Well formed `CSR`: it holds rows with strictly increasing columns. -/
def CSR.WF (m : CSR K) : Prop :=
  ∃ R : List (List (ℕ × K)), m = csrOf m.cols R ∧ ∀ row ∈ R, RowSorted row

/-- All stored columns are inside the matrix. -/
def CSR.InBounds (m : CSR K) : Prop := ∀ j ∈ m.indices, j < m.cols

/-- The mathematical matrix an object represents, read through `get`. -/
def LIL.toMatrix [Zero K] (m : LIL K) : Matrix (Fin m.rows) (Fin m.cols) K :=
  Matrix.of fun i j => (m.get i j).getD 0

/-- The mathematical matrix an object represents, read through `get`. -/
def CSR.toMatrix [Zero K] (m : CSR K) : Matrix (Fin m.rows) (Fin m.cols) K :=
  Matrix.of fun i j => (m.get i j).getD 0

end Pansfem
