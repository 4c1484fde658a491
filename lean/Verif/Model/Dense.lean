/-
Dense `Vector<T>` and `Matrix<T>`.

Models /repo/src/LinearAlgebra/Models/Vector.h and /repo/src/LinearAlgebra/Models/Matrix.h.

* The scalar type `T` is an exact ring/field `K` (rounding is not modelled).
* `T* values` together with the size is a list.  A subscript outside the list is undefined
  behaviour in C++ and is `none` here; a failed `assert` is `none` as well.
* Loops that fill a fresh block in storage order are `List.mapM` over the index range.
* Storage management (`new`/`delete[]`) is modelled separately in `Verif/Model/Heap.lean`.
-/
import Mathlib.Algebra.Field.Defs
import Mathlib.Data.List.OfFn

namespace Pansfem

variable {K : Type*}

/-- `Vector<T>` (Vector.h:24-80): `size` and the block `values` of that length. -/
structure Vec (K : Type*) where
  values : List K
  deriving DecidableEq, Repr

/-- `Matrix<T>` (Matrix.h:23-89): `row`, `col` and the row-major block `values`. -/
structure Mat (K : Type*) where
  row : ℕ
  col : ℕ
  values : List K
  deriving DecidableEq, Repr

/-- The nested loop `for i < r, for j < c : values[i*c + j] = f i j` that fills a fresh block of
`r*c` entries in storage order; `none` if some `f i j` is undefined
(for example src/LinearAlgebra/Models/Matrix.h:246-253). -/
def fillM (r c : ℕ) (f : ℕ → ℕ → Option K) : Option (List K) :=
  ((List.range r).mapM fun i => (List.range c).mapM fun j => f i j).map List.flatten

/-- The accumulation `value = T(); for i < n : value += f i`
(for example src/LinearAlgebra/Models/Matrix.h:248-251). -/
def sumM [Zero K] [Add K] (n : ℕ) (f : ℕ → Option K) : Option K :=
  (List.range n).foldlM (fun acc i => do return acc + (← f i)) 0

/-! ### Vector.h -/
namespace Vec

/-- `SIZE()` (Vector.h:143-146). -/
def size (v : Vec K) : ℕ := v.values.length

/-- `Vector(int _size)` (Vector.h:95-99): value-initialised block. -/
def zeros [Zero K] (n : ℕ) : Vec K := ⟨List.replicate n 0⟩

/-- `Vector(const std::vector<T>&)` and the initializer-list constructor (Vector.h:112-129). -/
def ofList (l : List K) : Vec K := ⟨l⟩

/-- Read through `operator()(int)` (Vector.h:149-153). -/
def at? (v : Vec K) (i : ℤ) : Option K :=
  if 0 ≤ i ∧ i < v.size then v.values[i.toNat]? else none

/-- Write through the reference returned by `operator()(int)` (Vector.h:149-153). -/
def put? (v : Vec K) (i : ℤ) (x : K) : Option (Vec K) :=
  if 0 ≤ i ∧ i < v.size then some ⟨v.values.set i.toNat x⟩ else none

/-- `operator+` and `operator+=` (Vector.h:173-180, 211-219). -/
def add [Add K] (v w : Vec K) : Option (Vec K) :=
  if v.size = w.size then do
    return ⟨← (List.range v.size).mapM fun i => do return (← v.values[i]?) + (← w.values[i]?)⟩
  else none

/-- `operator-` and `operator-=` (Vector.h:183-190, 222-230). -/
def sub [Sub K] (v w : Vec K) : Option (Vec K) :=
  if v.size = w.size then do
    return ⟨← (List.range v.size).mapM fun i => do return (← v.values[i]?) - (← w.values[i]?)⟩
  else none

/-- Unary `operator-` (Vector.h:233-240): multiplies by -1. -/
def neg [Mul K] [Neg K] [One K] (v : Vec K) : Option (Vec K) := do
  return ⟨← (List.range v.size).mapM fun i => do return (← v.values[i]?) * (-1)⟩

/-- Inner product `operator*` (Vector.h:243-251). -/
def dot [Zero K] [Add K] [Mul K] (v w : Vec K) : Option K :=
  if v.size = w.size then sumM v.size fun i => do return (← v.values[i]?) * (← w.values[i]?)
  else none

/-- Outer product `Vector * Matrix` (Vector.h:254-264). -/
def outer [Mul K] (v : Vec K) (A : Mat K) : Option (Mat K) :=
  if A.row = 1 then do
    return ⟨v.size, A.col, ← fillM v.size A.col fun i j => do
      return (← v.values[i]?) * (← A.values[j]?)⟩
  else none

/-- `operator*(T)`, `operator*=` and the friend `operator*(U, Vector)`
(Vector.h:193-199, 267-274, 347-354). -/
def smul [Mul K] (v : Vec K) (a : K) : Option (Vec K) := do
  return ⟨← (List.range v.size).mapM fun i => do return (← v.values[i]?) * a⟩

/-- `operator/(T)` and `operator/=` (Vector.h:202-208, 277-284).  Division by zero is an
undefined result in the exact model. -/
def sdiv [Div K] [Zero K] [DecidableEq K] (v : Vec K) (a : K) : Option (Vec K) :=
  if a = 0 ∧ v.size ≠ 0 then none else do
    return ⟨← (List.range v.size).mapM fun i => do return (← v.values[i]?) / a⟩

/-- The radicand of `Norm()` (Vector.h:296-303); the square root is taken in the real model. -/
def normSq [Zero K] [Add K] [Monoid K] (v : Vec K) : Option K :=
  sumM v.size fun i => do return (← v.values[i]?) ^ 2

/-- `Transpose()` (Vector.h:306-313): a one-row matrix. -/
def transpose (v : Vec K) : Option (Mat K) := do
  return ⟨1, v.size, ← (List.range (1 * v.size)).mapM fun i => v.values[i]?⟩

/-- `Vstack` (Vector.h:316-326). -/
def vstack (v w : Vec K) : Option (Vec K) := do
  return ⟨(← (List.range v.size).mapM fun i => v.values[i]?) ++
    (← (List.range w.size).mapM fun i => w.values[i]?)⟩

/-- `Segment(head, tail)` (Vector.h:329-337). -/
def segment (v : Vec K) (head tail : ℤ) : Option (Vec K) :=
  if head ≥ 0 ∧ tail ≤ v.size ∧ head < tail then do
    return ⟨← (List.range (tail - head).toNat).mapM fun i => v.values[head.toNat + i]?⟩
  else none

/-- `VectorProduct` (Vector.h:357-366). -/
def cross [Mul K] [Sub K] (v w : Vec K) : Option (Vec K) :=
  if v.size = 3 ∧ w.size = 3 then do
    return ⟨[(← v.at? 1) * (← w.at? 2) - (← v.at? 2) * (← w.at? 1),
      (← v.at? 2) * (← w.at? 0) - (← v.at? 0) * (← w.at? 2),
      (← v.at? 0) * (← w.at? 1) - (← v.at? 1) * (← w.at? 0)]⟩
  else none

end Vec

/-! ### Matrix.h -/
namespace Mat

/-- Storage invariant: the block has `row * col` entries (`new T[row*col]`, Matrix.h:109). -/
def WF (A : Mat K) : Prop := A.values.length = A.row * A.col

/-- `Matrix(int, int)` (Matrix.h:105-110): value-initialised block. -/
def zeros [Zero K] (r c : ℕ) : Mat K := ⟨r, c, List.replicate (r * c) 0⟩

/-- `Matrix(const Vector<T>&)` (Matrix.h:124-132): a one-column matrix. -/
def ofVec (v : Vec K) : Option (Mat K) := do
  return ⟨v.size, 1, ← (List.range (v.size * 1)).mapM fun i => v.values[i]?⟩

/-- Read through `operator()(int, int)` (Matrix.h:147-151). -/
def at? (A : Mat K) (i j : ℤ) : Option K :=
  if 0 ≤ i ∧ i < A.row ∧ 0 ≤ j ∧ j < A.col then A.values[(i * A.col + j).toNat]? else none

/-- Write through the reference returned by `operator()(int, int)` (Matrix.h:147-151). -/
def put? (A : Mat K) (i j : ℤ) (x : K) : Option (Mat K) :=
  if 0 ≤ i ∧ i < A.row ∧ 0 ≤ j ∧ j < A.col then
    some { A with values := A.values.set (i * A.col + j).toNat x }
  else none

/-- `operator+`, `operator+=` (Matrix.h:172-179, 210-218). -/
def add [Add K] (A B : Mat K) : Option (Mat K) :=
  if A.row = B.row ∧ A.col = B.col then do
    return ⟨A.row, A.col, ← (List.range (A.row * A.col)).mapM fun i => do
      return (← A.values[i]?) + (← B.values[i]?)⟩
  else none

/-- `operator-`, `operator-=` (Matrix.h:182-189, 221-229). -/
def sub [Sub K] (A B : Mat K) : Option (Mat K) :=
  if A.row = B.row ∧ A.col = B.col then do
    return ⟨A.row, A.col, ← (List.range (A.row * A.col)).mapM fun i => do
      return (← A.values[i]?) - (← B.values[i]?)⟩
  else none

/-- Unary `operator-` (Matrix.h:232-239). -/
def neg [Mul K] [Neg K] [One K] (A : Mat K) : Option (Mat K) := do
  return ⟨A.row, A.col, ← (List.range (A.row * A.col)).mapM fun i => do
    return (← A.values[i]?) * (-1)⟩

/-- `operator*(Matrix)` (Matrix.h:242-255). -/
def mul [Zero K] [Add K] [Mul K] (A B : Mat K) : Option (Mat K) :=
  if A.col = B.row then do
    return ⟨A.row, B.col, ← fillM A.row B.col fun i j =>
      sumM A.col fun k => do return (← A.values[i * A.col + k]?) * (← B.values[k * B.col + j]?)⟩
  else none

/-- `operator*(Vector)` (Matrix.h:258-268). -/
def mulVec [Zero K] [Add K] [Mul K] (A : Mat K) (v : Vec K) : Option (Vec K) :=
  if A.col = v.size then do
    return ⟨← (List.range A.row).mapM fun i =>
      sumM A.col fun j => do return (← A.values[i * A.col + j]?) * (← v.values[j]?)⟩
  else none

/-- `operator*(T)`, `operator*=` and the friend `operator*(U, Matrix)`
(Matrix.h:192-198, 271-278, 303-310). -/
def smul [Mul K] (A : Mat K) (a : K) : Option (Mat K) := do
  return ⟨A.row, A.col, ← (List.range (A.row * A.col)).mapM fun i => do
    return (← A.values[i]?) * a⟩

/-- `operator/(T)`, `operator/=` (Matrix.h:201-207, 281-288).  Division by zero is an undefined
result in the exact model. -/
def sdiv [Div K] [Zero K] [DecidableEq K] (A : Mat K) (a : K) : Option (Mat K) :=
  if a = 0 ∧ A.row * A.col ≠ 0 then none else do
    return ⟨A.row, A.col, ← (List.range (A.row * A.col)).mapM fun i => do
      return (← A.values[i]?) / a⟩

/-- `Transpose()` (Matrix.h:313-322). -/
def transpose (A : Mat K) : Option (Mat K) := do
  return ⟨A.col, A.row, ← fillM A.col A.row fun i j => A.values[j * A.col + i]?⟩

/-- `Cofactor(i, j)` (Matrix.h:363-385): the minor with row `i` and column `j` removed. -/
def cofactor (A : Mat K) (i₀ j₀ : ℤ) : Option (Mat K) :=
  if 0 ≤ i₀ ∧ i₀ < A.row ∧ 0 ≤ j₀ ∧ j₀ < A.col then do
    return ⟨A.row - 1, A.col - 1, ← fillM (A.row - 1) (A.col - 1) fun i j =>
      if (i : ℤ) < i₀ then
        if (j : ℤ) < j₀ then A.values[i * A.col + j]? else A.values[i * A.col + (j + 1)]?
      else
        if (j : ℤ) < j₀ then A.values[(i + 1) * A.col + j]?
        else A.values[(i + 1) * A.col + (j + 1)]?⟩
  else none

/-- Body of `Determinant()` (Matrix.h:325-342).  The first argument bounds the depth of the
recursion; it is the size of the matrix, which every recursive call decreases by one. -/
def detAux [CommRing K] : ℕ → Mat K → Option K
  | 0, _ => none
  | fuel + 1, A =>
    if A.row = A.col ∧ A.row ≠ 0 then
      if A.row = 1 then A.values[0]?
      else if A.row = 2 then do
        return (← A.values[0]?) * (← A.values[3]?) - (← A.values[1]?) * (← A.values[2]?)
      else if A.row = 3 then do
        return - (← A.values[8]?) * (← A.values[1]?) * (← A.values[3]?)
          - (← A.values[7]?) * (← A.values[5]?) * (← A.values[0]?)
          - (← A.values[2]?) * (← A.values[4]?) * (← A.values[6]?)
          + (← A.values[6]?) * (← A.values[1]?) * (← A.values[5]?)
          + (← A.values[7]?) * (← A.values[3]?) * (← A.values[2]?)
          + (← A.values[0]?) * (← A.values[4]?) * (← A.values[8]?)
      else sumM A.row fun i => do
        return (-1) ^ i * (← A.values[i * A.col]?) * (← detAux fuel (← A.cofactor i 0))
    else none

/-- `Determinant()` (Matrix.h:325-342). -/
def determinant [CommRing K] (A : Mat K) : Option K := detAux A.row A

/-- `Inverse()` (Matrix.h:345-360). -/
def inverse [Field K] [DecidableEq K] (A : Mat K) : Option (Mat K) :=
  if A.row = A.col then
    if A.row = 1 then do
      let a ← A.values[0]?
      if a = 0 then none else return ⟨1, 1, [1 / a]⟩
    else do
      let adj ← fillM A.row A.col fun i j => do
        return (-1) ^ (i + j) * (← (← A.cofactor j i).determinant)
      (⟨A.row, A.col, adj⟩ : Mat K).sdiv (← A.determinant)
  else none

/-- `Vstack` (Matrix.h:388-403). -/
def vstack (A B : Mat K) : Option (Mat K) :=
  if A.col = B.col then do
    return ⟨A.row + B.row, A.col,
      (← fillM A.row A.col fun i j => A.values[i * A.col + j]?) ++
      (← fillM B.row B.col fun i j => B.values[i * B.col + j]?)⟩
  else none

/-- `Hstack` (Matrix.h:406-421). -/
def hstack (A B : Mat K) : Option (Mat K) :=
  if A.row = B.row then do
    return ⟨A.row, A.col + B.col, ← fillM A.row (A.col + B.col) fun i j =>
      if j < A.col then A.values[i * A.col + j]? else B.values[i * B.col + (j - A.col)]?⟩
  else none

/-- `Block(row, col, h, w)` (Matrix.h:424-435). -/
def block (A : Mat K) (r₀ c₀ h w : ℤ) : Option (Mat K) :=
  if r₀ ≥ 0 ∧ c₀ ≥ 0 ∧ h > 0 ∧ w > 0 ∧ r₀ + h ≤ A.row ∧ c₀ + w ≤ A.col then do
    return ⟨h.toNat, w.toNat, ← fillM h.toNat w.toNat fun i j =>
      A.values[(r₀.toNat + i) * A.col + (c₀.toNat + j)]?⟩
  else none

/-- `Identity<U>(n)` (Matrix.h:438-445): zero block with ones written on the diagonal. -/
def identity [Zero K] [One K] (n : ℕ) : Option (Mat K) :=
  (List.range n).foldlM (fun (m : Mat K) (i : ℕ) => m.put? i i 1) (zeros n n)

/-- `Diagonal(vec)` (Matrix.h:448-455): zero block with the vector written on the diagonal. -/
def diagonal [Zero K] (v : Vec K) : Option (Mat K) :=
  (List.range v.size).foldlM (fun (m : Mat K) (i : ℕ) => do m.put? i i (← v.values[i]?))
    (zeros v.size v.size)

end Mat

/-- `Vector(const Matrix<T>&)` (Vector.h:132-140): needs one column. -/
def Vec.ofMat (A : Mat K) : Option (Vec K) :=
  if A.col = 1 then do return ⟨← (List.range A.row).mapM fun i => A.values[i]?⟩ else none

end Pansfem
