/-
Storage of dense vectors and matrices: /repo/src/LinearAlgebra/Models/Vector.h (constructors and
destructor 84-140, element access 150-153, assignment 157-171) and Matrix.h (92-169).

* An object holds its kind, its dimensions and the pointer `values`, which the default constructors leave
  uninitialised.
* The heap hands out the addresses 0, 1, 2, ... and never the same twice.  `new T[n]` of no elements
  gives a block too.
* A history is a list of commands on named objects.  A command ends in a new state, in a failing
  `assert`, in undefined behaviour of the memory (a `delete[]` of an uninitialised pointer or of a
  released block, an access through such a pointer or beyond the block) or, for a history that is not a
  program at all, in a misuse of names.
* Dimensions are natural numbers; an allocation always succeeds.
* A loop that copies the elements of another object is one read of that many elements.
* The operators `+=`, `*`, `Transpose`, ... are constructions followed by element accesses.
-/
import Mathlib.Data.List.Basic

namespace Pansfem.Heap

/-- The pointer `values` (src/LinearAlgebra/Models/Vector.h:79, Matrix.h:88). -/
inductive Ptr
  | wild
  | addr (a : ℕ)
  deriving DecidableEq

/-- Vector.h:78-79 or Matrix.h:86-88. -/
inductive Kind
  | vec
  | mat
  deriving DecidableEq

/-- A vector or matrix object; a vector has its size in `row` and one column
(src/LinearAlgebra/Models/Vector.h:78-79, Matrix.h:86-88). -/
structure Obj where
  kind : Kind
  row : ℕ
  col : ℕ
  ptr : Ptr

/-- How a command can fail
(an assertion such as Matrix.h:175, a bad `delete[]` or access as in Matrix.h:101, or a name that is not declared). -/
inductive Fail
  | assert
  | memory
  | scope
  deriving DecidableEq

/-- The state: live blocks with their contents, the next address, the released addresses and the live
objects
(the members `values`, `row`, `col` of Matrix.h and Vector.h; the blocks of `new` in Vector.h:98, Matrix.h:109). -/
structure State (α : Type) where
  mem : ℕ → Option (List α)
  next : ℕ
  released : List ℕ
  objs : ℕ → Option Obj

/-- No blocks, no objects (before the first constructor, Vector.h:84-86, Matrix.h:92-96). -/
def State.init (α : Type) : State α := ⟨fun _ => none, 0, [], fun _ => none⟩

/-- What a program can do with vectors and matrices; the names are those of the objects
(the constructors, `operator=`, `operator()` and destructors, Vector.h:84-170, Matrix.h:92-171). -/
inductive Cmd (α : Type)
  | vecDefault (x : ℕ)
  | vecSized (x n : ℕ)
  | vecList (x : ℕ) (l : List α)
  | matDefault (x : ℕ)
  | matSized (x r c : ℕ)
  | copy (k : Kind) (x y : ℕ)
  | assign (x y : ℕ)
  | write (x i j : ℕ) (a : α)
  | destroy (x : ℕ)

variable {α : Type}

/-- `f` changed at `x` (one assignment to a member, as in Vector.h:97-98). -/
def put {β : Type} (f : ℕ → β) (x : ℕ) (b : β) : ℕ → β := fun y => if y = x then b else f y

/-- The object with a name, if it is live (the object `*this` of Vector.h:89-93, Matrix.h:99-103). -/
def State.get (s : State α) (x : ℕ) : Except Fail Obj :=
  match s.objs x with
  | none => .error .scope
  | some o => .ok o

/-- `delete[] this->values` (src/LinearAlgebra/Models/Vector.h:91, Matrix.h:101). -/
def State.free (s : State α) (p : Ptr) : Except Fail (State α) :=
  match p with
  | .wild => .error .memory
  | .addr a =>
    match s.mem a with
    | none => .error .memory
    | some _ => .ok { s with mem := put s.mem a none, released := s.released ++ [a] }

/-- `this->values = new T[...]` with the given contents
(src/LinearAlgebra/Models/Vector.h:98, 105, Matrix.h:109, 117). -/
def State.alloc (s : State α) (l : List α) : State α :=
  { s with mem := put s.mem s.next (some l), next := s.next + 1 }

/-- The first `n` elements behind a pointer (src/LinearAlgebra/Models/Vector.h:106-108,
Matrix.h:118-120). -/
def State.read (s : State α) (p : Ptr) (n : ℕ) : Except Fail (List α) :=
  if n = 0 then .ok []
  else match p with
    | .wild => .error .memory
    | .addr a =>
      match s.mem a with
      | none => .error .memory
      | some l => if n ≤ l.length then .ok (l.take n) else .error .memory

/-- A constructor: a new object with a new block of the given contents
(src/LinearAlgebra/Models/Vector.h:96-140, Matrix.h:106-132). -/
def State.construct (s : State α) (x : ℕ) (k : Kind) (r c : ℕ) (l : List α) : Except Fail (State α) :=
  match s.objs x with
  | some _ => .error .scope
  | none => .ok { s.alloc l with objs := put s.objs x (some ⟨k, r, c, .addr s.next⟩) }

/-- The default constructors, which leave `values` alone (src/LinearAlgebra/Models/Vector.h:84-86,
Matrix.h:92-96). -/
def State.default (s : State α) (x : ℕ) (k : Kind) (c : ℕ) : Except Fail (State α) :=
  match s.objs x with
  | some _ => .error .scope
  | none => .ok { s with objs := put s.objs x (some ⟨k, 0, c, .wild⟩) }

/-- The number of elements of an object (src/LinearAlgebra/Models/Vector.h:105, Matrix.h:117). -/
def Obj.count (o : Obj) : ℕ :=
  match o.kind with
  | .vec => o.row
  | .mat => o.row * o.col

/-- The constructors from a vector or a matrix (src/LinearAlgebra/Models/Vector.h:103-109, 133-140,
Matrix.h:113-132); `Vector(const Matrix<T>&)` asserts one column. -/
def State.copy (s : State α) (k : Kind) (x y : ℕ) : Except Fail (State α) :=
  (s.get y).bind fun o =>
    if k = .vec ∧ o.kind = .mat ∧ o.col ≠ 1 then .error .assert
    else (s.read o.ptr (if k = .vec then o.row else o.count)).bind fun l =>
      s.construct x k o.row (if k = .vec ∨ o.kind = .vec then 1 else o.col) l

/-- The test of the assignment before `delete[]` (src/LinearAlgebra/Models/Vector.h:159,
Matrix.h:157). -/
def Obj.holds (o : Obj) : Bool :=
  match o.kind with
  | .vec => o.row ≠ 0
  | .mat => o.row ≠ 0 ∧ o.col ≠ 0

/-- `operator=` (src/LinearAlgebra/Models/Vector.h:157-171, Matrix.h:155-169). -/
def State.assign (s : State α) (x y : ℕ) : Except Fail (State α) :=
  (s.get x).bind fun o => (s.get y).bind fun o' =>
    if o.kind ≠ o'.kind then .error .scope
    else if x = y then .ok s
    else (if o.holds then s.free o.ptr else .ok s).bind fun s =>
      (s.read o'.ptr o'.count).bind fun l =>
        .ok { s.alloc l with objs := put s.objs x (some ⟨o.kind, o'.row, o'.col, .addr s.next⟩) }

/-- The position of an element in the block, `none` where the `assert` fails
(src/LinearAlgebra/Models/Vector.h:150-153, Matrix.h:148-151). -/
def Obj.index (o : Obj) (i j : ℕ) : Option ℕ :=
  match o.kind with
  | .vec => if i < o.row then some i else none
  | .mat => if i < o.row ∧ j < o.col then some (i * o.col + j) else none

/-- A write through the reference that `operator()` returns (src/LinearAlgebra/Models/Vector.h:150-153,
Matrix.h:148-151). -/
def State.write (s : State α) (x i j : ℕ) (a : α) : Except Fail (State α) :=
  (s.get x).bind fun o =>
    match o.index i j with
    | none => .error .assert
    | some k =>
      match o.ptr with
      | .wild => .error .memory
      | .addr p =>
        match s.mem p with
        | none => .error .memory
        | some l =>
          if k < l.length then .ok { s with mem := put s.mem p (some (l.set k a)) }
          else .error .memory

/-- The destructors (src/LinearAlgebra/Models/Vector.h:90-92, Matrix.h:100-102). -/
def State.destroy (s : State α) (x : ℕ) : Except Fail (State α) :=
  (s.get x).bind fun o => (s.free o.ptr).bind fun s => .ok { s with objs := put s.objs x none }

variable [Zero α]

/-- One command: Vector.h:84-86, 96-99, 113-129; Matrix.h:92-96, 106-110; the other constructors,
assignments, accesses and destructors as above. -/
def exec (s : State α) : Cmd α → Except Fail (State α)
  | .vecDefault x => s.default x .vec 1
  | .vecSized x n => s.construct x .vec n 1 (List.replicate n 0)
  | .vecList x l => s.construct x .vec l.length 1 l
  | .matDefault x => s.default x .mat 0
  | .matSized x r c => s.construct x .mat r c (List.replicate (r * c) 0)
  | .copy k x y => s.copy k x y
  | .assign x y => s.assign x y
  | .write x i j a => s.write x i j a
  | .destroy x => s.destroy x

/-- A history (a sequence of statements with the functions of Vector.h:84-170, Matrix.h:92-171). -/
def run (s : State α) : List (Cmd α) → Except Fail (State α)
  | [] => .ok s
  | c :: cs => (exec s c).bind fun s => run s cs

end Pansfem.Heap
