/-
Incomplete LU factorisation without fill-in.

Models `ILU0` of /repo/src/LinearAlgebra/Solvers/CG.h.
-/
import Verif.Model.Krylov

namespace Pansfem

/-- `std::binary_search` for column `j` in row `i` (CG.h:265, 266): `lower_bound` followed by the
test that the position is inside the row and not greater than `j`. -/
def csrHas (m : CSR ℝ) (i j : ℕ) : Option Bool := do
  let (e, p) ← m.locate i j
  if p = e then return false
  else
    let c ← m.indices[p]?
    return !decide (j < c)

/-- The loop over `k` in `ILU0` (CG.h:264-274); `m` is the number of values of `k` left. -/
noncomputable def iluInner (A : CSR ℝ) (q : LIL ℝ) (i j : ℕ) : ℕ → ℕ → ℝ → Option ℝ
  | 0, _, v => some v
  | m + 1, k, v => do
    if ← csrHas A i k then
      if ← csrHas A k j then
        if (i ≤ j ∧ k < i) ∨ (i > j ∧ k < j) then
          iluInner A q i j m (k + 1) (v - (← q.get i k) * (← q.get k j))
        else return v
      else iluInner A q i j m (k + 1) v
    else iluInner A q i j m (k + 1) v

/-- Division by the pivot below the diagonal (CG.h:275-277). -/
noncomputable def iluDiv (q : LIL ℝ) (i j : ℕ) (v : ℝ) : Option ℝ :=
  if i > j then do sdivide v (← q.get j j) else some v

/-- Computation of one entry (CG.h:262-279). -/
noncomputable def iluEntry (A : CSR ℝ) (i : ℕ) (q : LIL ℝ) (p : ℕ × ℝ) : Option (LIL ℝ) := do
  let v ← iluInner A q i p.1 A.rows 0 p.2
  let v ← iluDiv q i p.1 v
  return (← q.set i p.1 v).1

/-- `ILU0` (CG.h:256-284). -/
noncomputable def ilu0 (A : CSR ℝ) : Option (CSR ℝ) := do
  let q ← LIL.ofCSR A
  let q ← (List.range A.rows).foldlM
    (fun q i => do (← A.rowEntries i).foldlM (iluEntry A i) q) q
  return (← CSR.ofLIL q).1

end Pansfem
