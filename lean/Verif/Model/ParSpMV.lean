/-
Parallel execution of `CSR<T>::operator*(std::vector)` (CSR.h:109-122).

The loop over rows is an OpenMP `parallel for`: each row index is executed by some thread.  The
body of row `i` performs `v[i] += data[j]*_vec[indices[j]]` for the entries of the row in order; each
`+=` is a load of `v[i]`, and later a store.  A schedule is an arbitrary list of row indices telling
whose next memory access happens; every interleaving of the OpenMP threads, for every assignment of
rows to threads, is such a list.  No law of arithmetic is assumed about `+` and `*`.
-/
import Verif.Model.Sparse

namespace Pansfem

variable {K : Type}

/-- Shared result vector, and for each row the number of finished additions and the value loaded by
a pending `+=` (CSR.h:110-119). -/
structure ParState (n : ℕ) (K : Type) where
  v : Fin n → K
  pc : Fin n → ℕ
  reg : Fin n → Option K

/-- Initial state: `std::vector<T> v(ROWS, T())` (CSR.h:110). -/
def ParState.init [Zero K] (n : ℕ) : ParState n K := ⟨fun _ => 0, fun _ => 0, fun _ => none⟩

/-- Next memory access of row `i` of the `n = ROWS` rows (CSR.h:116-118).  `none` is a read outside a vector. -/
def parStep [Add K] [Mul K] {n : ℕ} (m : CSR K) (x : List K) (s : ParState n K) (i : Fin n) :
    Option (ParState n K) := do
  let b ← m.indptr[(i : ℕ)]?
  let e ← m.indptr[(i : ℕ) + 1]?
  if s.pc i < e - b then
    match s.reg i with
    | none => return { s with reg := Function.update s.reg i (some (s.v i)) }
    | some a =>
      let j ← m.indices[b + s.pc i]?
      let d ← m.data[b + s.pc i]?
      let xj ← x[j]?
      return { v := Function.update s.v i (a + d * xj)
               pc := Function.update s.pc i (s.pc i + 1)
               reg := Function.update s.reg i none }
  else return s

/-- Run a schedule (CSR.h:114-119). -/
def parRun [Add K] [Mul K] {n : ℕ} (m : CSR K) (x : List K) (s : ParState n K)
    (sched : List (Fin n)) : Option (ParState n K) :=
  sched.foldlM (parStep m x) s

/-- All rows are finished: the barrier at the end of the parallel loop is passed (CSR.h:119). -/
def ParState.done {n : ℕ} (m : CSR K) (s : ParState n K) : Prop :=
  ∀ i : Fin n, ∃ b e, m.indptr[(i : ℕ)]? = some b ∧ m.indptr[(i : ℕ) + 1]? = some e ∧
    e - b ≤ s.pc i

end Pansfem
