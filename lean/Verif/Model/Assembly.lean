/-
Degree of freedom tables, boundary conditions, assembling and disassembling.

Models /repo/src/FEM/Controller/Assembling.h, /repo/src/FEM/Controller/BoundaryCondition.h and the
element vectors of /repo/src/FEM/Equation/General.h.

* `nodetoglobal` is a list of lists of integers with the mark -1 for a fixed degree of freedom, as in
  the code.  Node, dof and local indices in the other tables are natural numbers (a negative one is
  undefined behaviour in the code).
* Reading or writing outside a `std::vector`, using a negative equation number other than -1 as a
  subscript, and a failed `assert` are `none`.
* `int` counters do not overflow.
-/
import Verif.Model.Dense
import Verif.Model.Sparse

namespace Pansfem

variable {K : Type}

/-- `_nodetoglobal[node][dof]` (src/FEM/Controller/Assembling.h:25, 29). -/
def dofNum (ntg : List (List ℤ)) (node dof : ℕ) : Option ℤ := do (← ntg[node]?)[dof]?

/-- `_nodetoglobal[node][dof] = x` (src/FEM/Controller/BoundaryCondition.h:23, 32, 57). -/
def dofPut (ntg : List (List ℤ)) (node dof : ℕ) (x : ℤ) : Option (List (List ℤ)) := do
  let row ← ntg[node]?
  if dof < row.length then some (ntg.set node (row.set dof x)) else none

/-- `_u[node](dof)` (src/FEM/Controller/Assembling.h:34, 59). -/
def nodal (u : List (Vec K)) (node dof : ℕ) : Option K := do (← u[node]?).at? dof

/-- `_u[node](dof) = x` (src/FEM/Controller/Assembling.h:167). -/
def nodalPut (u : List (Vec K)) (node dof : ℕ) (x : K) : Option (List (Vec K)) := do
  let v ← u[node]?
  return u.set node (← v.put? dof x)

/-- An equation number used as a subscript (src/FEM/Controller/Assembling.h:30, 34, 38). -/
def subscript (g : ℤ) : Option ℕ := if 0 ≤ g then some g.toNat else none

/-! ### Renumbering -/

/-- The inner loop of `Renumbering` (Assembling.h:178-183) on the dofs of one node. -/
def renumNode : List ℤ → ℕ → List ℤ × ℕ
  | [], k => ([], k)
  | g :: l, k =>
    if g ≠ -1 then ((k : ℤ) :: (renumNode l (k + 1)).1, (renumNode l (k + 1)).2)
    else (g :: (renumNode l k).1, (renumNode l k).2)

/-- The outer loop of `Renumbering` (Assembling.h:177-184), continuing from the counter `k`. -/
def renumFrom : List (List ℤ) → ℕ → List (List ℤ) × ℕ
  | [], k => ([], k)
  | l :: t, k =>
    ((renumNode l k).1 :: (renumFrom t (renumNode l k).2).1, (renumFrom t (renumNode l k).2).2)

/-- `Renumbering` (Assembling.h:175-186): new table and returned `KDEGREE`. -/
def renumbering (ntg : List (List ℤ)) : List (List ℤ) × ℕ := renumFrom ntg 0

/-! ### Boundary conditions -/

/-- `SetDirichlet` with values (BoundaryCondition.h:20-25). -/
def setDirichlet (u : List (Vec K)) (ntg : List (List ℤ)) (ufixed : List ((ℕ × ℕ) × K)) :
    Option (List (Vec K) × List (List ℤ)) :=
  ufixed.foldlM (fun st p => do
    let u ← nodalPut st.1 p.1.1 p.1.2 p.2
    let ntg ← dofPut st.2 p.1.1 p.1.2 (-1)
    return (u, ntg)) (u, ntg)

/-- `SetDirichlet` without values (BoundaryCondition.h:30-34). -/
def setDirichletMarks (ntg : List (List ℤ)) (ufixed : List ((ℕ × ℕ) × K)) :
    Option (List (List ℤ)) :=
  ufixed.foldlM (fun ntg p => dofPut ntg p.1.1 p.1.2 (-1)) ntg

/-- `RemoveBoundaryConditions` (BoundaryCondition.h:66-72). -/
def removeBoundaryConditions (ntg : List (List ℤ)) : List (List ℤ) :=
  ntg.map fun l => l.map fun _ => 0

/-- First loop of `SetPeriodic` (BoundaryCondition.h:39-43): mark all dofs of the slaves. -/
def markSlaves (ntg : List (List ℤ)) (pairs : List (ℕ × ℕ)) : Option (List (List ℤ)) :=
  pairs.foldlM (fun ntg p => do
    let row ← ntg[p.2]?
    return ntg.set p.2 (row.map fun _ => -1)) ntg

/-- Body of the last loop of `SetPeriodic` (BoundaryCondition.h:56-58): copy the numbers of the
master dof by dof. -/
def copyMaster (ntg : List (List ℤ)) (p : ℕ × ℕ) : Option (List (List ℤ)) := do
  let row ← ntg[p.2]?
  (List.range row.length).foldlM (fun ntg i => do dofPut ntg p.2 i (← dofNum ntg p.1 i)) ntg

/-- `SetPeriodic` (BoundaryCondition.h:38-62). -/
def setPeriodic (ntg : List (List ℤ)) (pairs : List (ℕ × ℕ)) :
    Option (List (List ℤ) × ℕ) := do
  let marked ← markSlaves ntg pairs
  let out ← pairs.foldlM copyMaster (renumbering marked).1
  return (out, (renumbering marked).2)

/-! ### Assembling -/

/-- The double loop `for i < _element.size(), for (auto dou : _nodetoelement[i])` all overloads are
made of (for example Assembling.h:23-24); the body receives `_element[i]` and `dou`. -/
def forDofs {S : Type} (nte : List (List (ℕ × ℕ))) (element : List ℕ)
    (f : ℕ → ℕ × ℕ → S → Option S) (s : S) : Option S :=
  (List.range element.length).foldlM (fun s i => do
    (← nte[i]?).foldlM (fun s d => do f (← element[i]?) d s) s) s

/-- The triple loop of the multi-field overload (Assembling.h:72-74 and 76-78). -/
def forDofs2 {S : Type} (ntes : List (List (List (ℕ × ℕ)))) (elements : List (List ℕ))
    (f : ℕ → ℕ × ℕ → S → Option S) (s : S) : Option S :=
  (List.range elements.length).foldlM (fun s i => do
    let element ← elements[i]?
    (List.range element.length).foldlM (fun s j => do
      (← (← ntes[i]?)[j]?).foldlM (fun s d => do f (← element[j]?) d s) s) s) s

/-- `_K.set(gi, gj, _K.get(gi, gj) + x)` (Assembling.h:30). -/
def addK [Zero K] [Add K] (A : LIL K) (gi gj : ℤ) (x : K) : Option (LIL K) := do
  let i ← subscript gi
  let j ← subscript gj
  return (← A.set i j ((← A.get i j) + x)).1

/-- `_F[gi] += x` (Assembling.h:39). -/
def addF [Add K] (F : List K) (gi : ℤ) (x : K) : Option (List K) := do
  let i ← subscript gi
  return F.set i ((← F[i]?) + x)

/-- `_F[gi] -= x` (Assembling.h:34). -/
def subF [Sub K] (F : List K) (gi : ℤ) (x : K) : Option (List K) := do
  let i ← subscript gi
  return F.set i ((← F[i]?) - x)

/-- The body shared by the overloads that fill `K` and `F` (Assembling.h:28-35, 53-60, 79-86): the
column dof `dj` of node `nj` for the row dof number `gi`, local index `li`. -/
def asmCol [Ring K] (u : List (Vec K)) (Ke : Mat K) (ntg : List (List ℤ)) (gi : ℤ) (li : ℕ)
    (nj : ℕ) (dj : ℕ × ℕ) (st : LIL K × List K) : Option (LIL K × List K) := do
  let gj ← dofNum ntg nj dj.1
  if gj ≠ -1 then
    let A ← addK st.1 gi gj (← Ke.at? li dj.2)
    return (A, st.2)
  else
    let F ← subF st.2 gi ((← Ke.at? li dj.2) * (← nodal u nj dj.1))
    return (st.1, F)

/-- `Assembling` of `K`, `F` from `Ke`, `Fe` (Assembling.h:22-42). -/
def asmKFe [Ring K] (u : List (Vec K)) (Ke : Mat K) (Fe : Vec K) (ntg : List (List ℤ))
    (nte : List (List (ℕ × ℕ))) (element : List ℕ) (st : LIL K × List K) :
    Option (LIL K × List K) :=
  forDofs nte element (fun ni di st => do
    let gi ← dofNum ntg ni di.1
    if gi ≠ -1 then
      let st ← forDofs nte element (asmCol u Ke ntg gi di.2) st
      let F ← addF st.2 gi (← Fe.at? di.2)
      return (st.1, F)
    else return st) st

/-- `Assembling` of `K`, `F` from `Ke` (Assembling.h:47-66). -/
def asmKF [Ring K] (u : List (Vec K)) (Ke : Mat K) (ntg : List (List ℤ))
    (nte : List (List (ℕ × ℕ))) (element : List ℕ) (st : LIL K × List K) :
    Option (LIL K × List K) :=
  forDofs nte element (fun ni di st => do
    let gi ← dofNum ntg ni di.1
    if gi ≠ -1 then forDofs nte element (asmCol u Ke ntg gi di.2) st
    else return st) st

/-- `Assembling` with several node lists (Assembling.h:71-94). -/
def asmKF2 [Ring K] (u : List (Vec K)) (Ke : Mat K) (ntg : List (List ℤ))
    (ntes : List (List (List (ℕ × ℕ)))) (elements : List (List ℕ)) (st : LIL K × List K) :
    Option (LIL K × List K) :=
  forDofs2 ntes elements (fun ni di st => do
    let gi ← dofNum ntg ni di.1
    if gi ≠ -1 then forDofs2 ntes elements (asmCol u Ke ntg gi di.2) st
    else return st) st

/-- `Assembling` of `K` alone (Assembling.h:99-114). -/
def asmK [Ring K] (Ke : Mat K) (ntg : List (List ℤ)) (nte : List (List (ℕ × ℕ)))
    (element : List ℕ) (A : LIL K) : Option (LIL K) :=
  forDofs nte element (fun ni di A => do
    let gi ← dofNum ntg ni di.1
    if gi ≠ -1 then
      forDofs nte element (fun nj dj A => do
        let gj ← dofNum ntg nj dj.1
        if gj ≠ -1 then addK A gi gj (← Ke.at? di.2 dj.2)
        else return A) A
    else return A) A

/-- `Assembling` of `F` from `Fe` (Assembling.h:119-127). -/
def asmFe [Ring K] (Fe : Vec K) (ntg : List (List ℤ)) (nte : List (List (ℕ × ℕ)))
    (element : List ℕ) (F : List K) : Option (List K) :=
  forDofs nte element (fun ni di F => do
    let gi ← dofNum ntg ni di.1
    if gi ≠ -1 then addF F gi (← Fe.at? di.2)
    else return F) F

/-- `Assembling` of the influence of the prescribed values on `F` (Assembling.h:132-147). -/
def asmFu [Ring K] (u : List (Vec K)) (Ke : Mat K) (ntg : List (List ℤ))
    (nte : List (List (ℕ × ℕ))) (element : List ℕ) (F : List K) : Option (List K) :=
  forDofs nte element (fun ni di F => do
    let gi ← dofNum ntg ni di.1
    if gi ≠ -1 then
      forDofs nte element (fun nj dj F => do
        let gj ← dofNum ntg nj dj.1
        if gj = -1 then subF F gi ((← Ke.at? di.2 dj.2) * (← nodal u nj dj.1))
        else return F) F
    else return F) F

/-- `Assembling` of Neumann conditions (Assembling.h:152-158). -/
def asmNeumann [Ring K] (f : List ((ℕ × ℕ) × K)) (ntg : List (List ℤ)) (F : List K) :
    Option (List K) :=
  f.foldlM (fun F p => do
    let g ← dofNum ntg p.1.1 p.1.2
    if g ≠ -1 then addF F g p.2 else return F) F

/-- `Disassembling` (Assembling.h:163-171). -/
def disassembling (u : List (Vec K)) (result : List K) (ntg : List (List ℤ)) :
    Option (List (Vec K)) :=
  (List.range ntg.length).foldlM (fun u i => do
    let row ← ntg[i]?
    (List.range row.length).foldlM (fun u j => do
      let g ← row[j]?
      if g ≠ -1 then nodalPut u i j (← result[← subscript g]?) else return u) u) u

/-! ### Element vectors -/

/-- `ElementVector` (General.h:82-96). -/
def elementVector [Zero K] (u : List (Vec K)) (nte : List (List (ℕ × ℕ))) (element : List ℕ) :
    Option (Vec K) :=
  (List.range nte.length).foldlM (fun v i => do
    (← nte[i]?).foldlM (fun (v : Vec K) d => do v.put? d.2 (← nodal u (← element[i]?) d.1)) v)
    (Vec.zeros (nte.map List.length).sum)

end Pansfem
