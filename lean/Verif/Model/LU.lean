/-
LU decomposition with partial pivoting and the linear solver of the MMA optimizer.

Models /repo/src/LinearAlgebra/Solvers/LU.h and `MMA<T>::solvels` in
/repo/src/Optimize/Solver/MMA.h:465-509, over an exact ordered field.  All subscripts are bounded by
the loops.  A division by zero is an undefined result: `none`.
-/
import Verif.Model.Loops
import Mathlib.Algebra.Order.Field.Basic

namespace Pansfem

variable {K : Type} [Field K] [LinearOrder K]

/-- Pivot search (LU.h:29-36, MMA.h:469-476): first row of `[k, n)` with the largest modulus in
column `k`. -/
def pivotSearch (n k : ℕ) (A : ℕ → ℕ → K) : ℕ :=
  (forUp (k + 1) n (fun i (s : K × ℕ) => if s.1 < |A i k| then (|A i k|, i) else s)
    (|A k k|, k)).2

/-- `std::swap` of two entries of the pivot array (LU.h:40). -/
def swap1 {α : Type} (v : ℕ → α) (a b : ℕ) : ℕ → α :=
  fun i => if i = a then v b else if i = b then v a else v i

/-- The loop exchanging rows `a` and `b` in columns `[lo, n)` (LU.h:41-43, MMA.h:483-487). -/
def swapRows (n a b lo : ℕ) (A : ℕ → ℕ → K) : ℕ → ℕ → K :=
  forUp lo n (fun j A => upd2 (upd2 A a j (A b j)) b j (A a j)) A

/-- One step of `LU` (LU.h:28-55). -/
def luStep (n k : ℕ) (s : (ℕ → ℕ → K) × (ℕ → ℕ)) : Option ((ℕ → ℕ → K) × (ℕ → ℕ)) :=
  let p := pivotSearch n k s.1
  let A := if k ≠ p then swapRows n k p 0 s.1 else s.1
  let piv := if k ≠ p then swap1 s.2 k p else s.2
  if A k k = 0 then none
  else
    let A := forUp (k + 1) n (fun i A => upd2 A i k (A i k / A k k)) A
    let A := forUp (k + 1) n (fun j A =>
      forUp (k + 1) n (fun i A => upd2 A i j (A i j - A i k * A k j)) A) A
    some (A, piv)

/-- `LU` (LU.h:22-58); the pivot array starts as `0, 1, 2, ...` (`std::iota`). -/
def lu (n : ℕ) (A : ℕ → ℕ → K) : Option ((ℕ → ℕ → K) × (ℕ → ℕ)) :=
  forUpM 0 (n - 1) (luStep n) (A, fun i => i)

/-- `SolveLU` (LU.h:63-89). -/
def solveLU (n : ℕ) (LU : ℕ → ℕ → K) (b : ℕ → K) (piv : ℕ → ℕ) : Option (ℕ → K) :=
  let b1 := forUp 0 n (fun i v => upd1 v i (b (piv i))) b
  let b2 := forUp 0 n (fun i v => forUp 0 i (fun j v => upd1 v i (v i - LU i j * v j)) v) b1
  forDownM 0 n (fun i v =>
    let v := forUp (i + 1) n (fun j v => upd1 v i (v i - LU i j * v j)) v
    if LU i i = 0 then none else some (upd1 v i (v i / LU i i))) b2

/-- One elimination step of `solvels` (MMA.h:467-496). -/
def lsStep (n i : ℕ) (s : (ℕ → ℕ → K) × (ℕ → K)) : Option ((ℕ → ℕ → K) × (ℕ → K)) :=
  let p := pivotSearch n i s.1
  let b := if p ≠ i then swap1 s.2 i p else s.2
  let A := if p ≠ i then swapRows n i p i s.1 else s.1
  if A i i = 0 then none
  else some (forUp (i + 1) n (fun j (t : (ℕ → ℕ → K) × (ℕ → K)) =>
    let A' := forUp (i + 1) n (fun k A => upd2 A j k (A j k - A i k * A j i / A i i)) t.1
    (A', upd1 t.2 j (t.2 j - t.2 i * A' j i / A' i i))) (A, b))

/-- Back substitution of `solvels` (MMA.h:499-507). -/
def lsBack (n : ℕ) (A : ℕ → ℕ → K) (b x : ℕ → K) : Option (ℕ → K) :=
  forDownM 0 n (fun i x =>
    let x := upd1 x i (b i)
    let x := forDown (i + 1) n (fun j x => upd1 x i (x i - x j * A i j)) x
    if A i i = 0 then none else some (upd1 x i (x i / A i i))) x

/-- `solvels` (MMA.h:465-509, CONLIN.h:410-454 is the same).  For an empty system `_b.size() - 1` wraps around and the first loop
reads outside the matrix. -/
def solvels (n : ℕ) (A : ℕ → ℕ → K) (b : ℕ → K) : Option (ℕ → K) :=
  if n = 0 then none else do
    let s ← forUpM 0 (n - 1) (lsStep n) (A, b)
    lsBack n s.1 s.2 (fun _ => 0)

end Pansfem
