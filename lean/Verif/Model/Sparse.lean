/-
Sparse matrices `LILCSR<T>` and `CSR<T>`.

Models /repo/src/LinearAlgebra/Models/LILCSR.h and /repo/src/LinearAlgebra/Models/CSR.h.

* `int` row and column arguments are natural numbers (a negative row is undefined behaviour in the
  code; negative columns are not matrix positions).
* Reading or writing outside a `std::vector`, and a failed `assert`, are `none`.
* The scalar type is an exact ring/field `K`.
-/
import Mathlib.Algebra.Field.Defs
import Mathlib.Data.List.Sort
import Mathlib.Data.List.Basic

namespace Pansfem

variable {K : Type}

/-! ### LILCSR.h -/

/-- `LILCSR<T>` (LILCSR.h:24-64): one list of (column, value) pairs per row. -/
structure LIL (K : Type) where
  rows : ℕ
  cols : ℕ
  data : List (List (ℕ × K))
  deriving DecidableEq, Repr

/-- The loop over one row in `set` (LILCSR.h:93-101): overwrite the first pair with that column,
else append; the flag tells whether the column was found. -/
def rowSet : List (ℕ × K) → ℕ → K → List (ℕ × K) × Bool
  | [], j, x => ([(j, x)], false)
  | (c, v) :: l, j, x =>
    if c = j then ((c, x) :: l, true)
    else ((c, v) :: (rowSet l j x).1, (rowSet l j x).2)

/-- The loop over one row in `get` (LILCSR.h:107-113). -/
def rowGet [Zero K] : List (ℕ × K) → ℕ → K
  | [], _ => 0
  | (c, v) :: l, j => if c = j then v else rowGet l j

namespace LIL

/-- `LILCSR(int, int)` (LILCSR.h:75-77). -/
def new (r c : ℕ) : LIL K := ⟨r, c, List.replicate r []⟩

/-- `set` (LILCSR.h:92-102). -/
def set (m : LIL K) (i j : ℕ) (x : K) : Option (LIL K × Bool) := do
  let row ← m.data[i]?
  let (row', b) := rowSet row j x
  return ({ m with data := m.data.set i row' }, b)

/-- `get` (LILCSR.h:106-114). -/
def get [Zero K] (m : LIL K) (i j : ℕ) : Option K := do
  return rowGet (← m.data[i]?) j

/-- `operator*(LILCSR, std::vector)` (LILCSR.h:117-131). -/
def mulVec [Zero K] [Add K] [Mul K] (m : LIL K) (x : List K) : Option (List K) :=
  if m.cols = x.length then
    (List.range m.rows).mapM fun i => do
      (← m.data[i]?).foldlM (fun acc p => do return acc + p.2 * (← x[p.1]?)) 0
  else none

/-- One pass of the inner loop of `operator+`/`operator-` (LILCSR.h:138-144, 154-160):
`m.set(i, j, op (m.get(i, j)) v)` for the pairs of row `i` of the second matrix. -/
def accRow [Zero K] (op : K → K → K) (i : ℕ) (m : LIL K) (row : List (ℕ × K)) : Option (LIL K) :=
  row.foldlM (fun m p => do return (← m.set i p.1 (op (← m.get i p.1) p.2)).1) m

/-- The nested loops of `operator+`/`operator-` (LILCSR.h:135-147, 151-163). -/
def acc [Zero K] (op : K → K → K) (a b : LIL K) : Option (LIL K) :=
  if a.rows = b.rows ∧ a.cols = b.cols then
    (List.range b.rows).foldlM (fun m i => do accRow op i m (← b.data[i]?)) a
  else none

/-- `operator+` (LILCSR.h:134-147). -/
def add [Zero K] [Add K] (a b : LIL K) : Option (LIL K) := acc (· + ·) a b

/-- `operator-` (LILCSR.h:150-163). -/
def sub [Zero K] [Sub K] (a b : LIL K) : Option (LIL K) := acc (· - ·) a b

/-- `operator*` with a scalar on either side (LILCSR.h:166-187). -/
def smul [Mul K] (m : LIL K) (a : K) : LIL K :=
  { m with data := m.data.map fun row => row.map fun p => (p.1, p.2 * a) }

/-- `operator/` (LILCSR.h:190-199); dividing a stored entry by zero is undefined in the exact
model. -/
def sdiv [Div K] [Zero K] [DecidableEq K] (m : LIL K) (a : K) : Option (LIL K) :=
  if a = 0 ∧ m.data.flatten ≠ [] then none
  else some { m with data := m.data.map fun row => row.map fun p => (p.1, p.2 / a) }

end LIL

/-! ### CSR.h -/

/-- `CSR<T>` (CSR.h:24-77). -/
structure CSR (K : Type) where
  rows : ℕ
  cols : ℕ
  indptr : List ℕ
  indices : List ℕ
  data : List K
  deriving DecidableEq, Repr

/-- `std::lower_bound` on `idx[first .. first+len)` (used at CSR.h:128, 157): the halving loop of
the standard library.  The result is a position in `idx`. -/
def lowerBound (idx : List ℕ) (x : ℕ) (len first : ℕ) : Option ℕ :=
  if _h : len = 0 then some first
  else
    match idx[first + len / 2]? with
    | none => none
    | some v =>
      if v < x then lowerBound idx x (len - len / 2 - 1) (first + len / 2 + 1)
      else lowerBound idx x (len / 2) first
termination_by len
decreasing_by all_goals omega

namespace CSR

/-- `CSR(int, int)` (CSR.h:87-89). -/
def new (r c : ℕ) : CSR K := ⟨r, c, List.replicate (r + 1) 0, [], []⟩

/-- The search shared by `set` and `get` (CSR.h:127-128, 156-157): the end of the row's range and
the position returned by `lower_bound`.  The range must lie inside `indices`. -/
def locate (m : CSR K) (i j : ℕ) : Option (ℕ × ℕ) := do
  let b ← m.indptr[i]?
  let e ← m.indptr[i + 1]?
  if b ≤ e ∧ e ≤ m.indices.length then return (e, ← lowerBound m.indices j (e - b) b) else none

/-- Insertion of a new entry at position `p` (CSR.h:130-134, 142-146). -/
def insertAt (m : CSR K) (i j p : ℕ) (x : K) : Option (CSR K) :=
  if p ≤ m.data.length ∧ p ≤ m.indices.length then
    some { m with
      data := m.data.take p ++ x :: m.data.drop p
      indices := m.indices.take p ++ j :: m.indices.drop p
      indptr := m.indptr.mapIdx fun k v => if i + 1 ≤ k then v + 1 else v }
  else none

/-- `set` (CSR.h:126-151). -/
def set (m : CSR K) (i j : ℕ) (x : K) : Option (CSR K × Bool) := do
  let (e, p) ← m.locate i j
  if p = e then return (← m.insertAt i j p x, false)
  else
    let c ← m.indices[p]?
    if c = j then
      if p < m.data.length then return ({ m with data := m.data.set p x }, true) else none
    else return (← m.insertAt i j p x, false)

/-- `get` (CSR.h:155-167). -/
def get [Zero K] (m : CSR K) (i j : ℕ) : Option K := do
  let (e, p) ← m.locate i j
  if p = e then return 0
  else
    let c ← m.indices[p]?
    if c = j then m.data[p]? else return 0

/-- The inner loop `for k in [b, e)` reading `indices[k]`, `data[k]` (for example CSR.h:116-118). -/
def rowEntries (m : CSR K) (i : ℕ) : Option (List (ℕ × K)) := do
  let b ← m.indptr[i]?
  let e ← m.indptr[i + 1]?
  (List.range (e - b)).mapM fun k => do return (← m.indices[b + k]?, ← m.data[b + k]?)

/-- Sequential execution of `operator*(std::vector)` (CSR.h:109-122).  The parallel execution is
modelled in `Verif/Model/ParSpMV.lean`. -/
def mulVec [Zero K] [Add K] [Mul K] (m : CSR K) (x : List K) : Option (List K) :=
  (List.range m.rows).mapM fun i => do
    (← m.rowEntries i).foldlM (fun acc p => do return acc + p.2 * (← x[p.1]?)) 0

/-- The nested loops of `operator+`/`operator-` (CSR.h:185-190, 202-207). -/
def acc [Zero K] (op : K → K → K) (a b : CSR K) : Option (CSR K) :=
  if a.rows = b.rows ∧ a.cols = b.cols then
    (List.range b.rows).foldlM (fun m i => do
      (← b.rowEntries i).foldlM
        (fun m p => do return (← m.set i p.1 (op (← m.get i p.1) p.2)).1) m) a
  else none

/-- `operator+` (CSR.h:180-194). -/
def add [Zero K] [Add K] (a b : CSR K) : Option (CSR K) := acc (· + ·) a b

/-- `operator-` (CSR.h:197-211). -/
def sub [Zero K] [Sub K] (a b : CSR K) : Option (CSR K) := acc (· - ·) a b

/-- `operator*` with a scalar on either side (CSR.h:170-177, 214-231). -/
def smul [Mul K] (m : CSR K) (a : K) : CSR K := { m with data := m.data.map (· * a) }

/-- `operator/` (CSR.h:234-241); dividing a stored entry by zero is undefined in the exact
model. -/
def sdiv [Div K] [Zero K] [DecidableEq K] (m : CSR K) (a : K) : Option (CSR K) :=
  if a = 0 ∧ m.data ≠ [] then none else some { m with data := m.data.map (· / a) }

/-- `CSR(LILCSR&)` (CSR.h:93-105).  Returns the new matrix and the source, whose rows the
constructor sorts in place.  `std::sort` on pairs is modelled by a sort on the column; the columns
of a row are distinct, which makes the sorted row unique. -/
def ofLIL (s : LIL K) : Option (CSR K × LIL K) :=
  (List.range s.rows).foldlM
    (fun (st : CSR K × LIL K) i => do
      let row ← st.2.data[i]?
      let p ← st.1.indptr[i]?
      if i + 1 < st.1.indptr.length then
        let row' := row.mergeSort (fun a b => decide (a.1 ≤ b.1))
        return ({ st.1 with
            indptr := st.1.indptr.set (i + 1) (p + row.length)
            indices := st.1.indices ++ row'.map Prod.fst
            data := st.1.data ++ row'.map Prod.snd },
          { st.2 with data := st.2.data.set i row' })
      else none)
    (CSR.new s.rows s.cols, s)

end CSR

/-- `LILCSR(CSR)` (LILCSR.h:81-88). -/
def LIL.ofCSR (m : CSR K) : Option (LIL K) := do
  return ⟨m.rows, m.cols, ← (List.range m.rows).mapM m.rowEntries⟩

end Pansfem
