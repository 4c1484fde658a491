/-
Vectors and matrices as values: what a history of constructions, copies, assignments and writes means
when nothing is shared.
-/
import Verif.Model.Heap

namespace Pansfem.Heap

/-- The value of an object: its kind, dimensions and elements, row by row. `unset`: default-constructed
and not assigned since. -/
structure Val (α : Type) where
  kind : Kind
  row : ℕ
  col : ℕ
  vals : List α
  unset : Bool

/-- The values of the live objects. -/
abbrev VState (α : Type) : Type := ℕ → Option (Val α)

variable {α : Type}

/-- A live object. -/
def VState.get (v : VState α) (x : ℕ) : Except Fail (Val α) :=
  match v x with
  | none => .error .scope
  | some w => .ok w

/-- A new object. -/
def VState.new (v : VState α) (x : ℕ) (w : Val α) : Except Fail (VState α) :=
  match v x with
  | some _ => .error .scope
  | none => .ok (put v x (some w))

/-- The meaning of a command on values. -/
def vexec [Zero α] (v : VState α) : Cmd α → Except Fail (VState α)
  | .vecDefault x => v.new x ⟨.vec, 0, 1, [], true⟩
  | .vecSized x n => v.new x ⟨.vec, n, 1, List.replicate n 0, false⟩
  | .vecList x l => v.new x ⟨.vec, l.length, 1, l, false⟩
  | .matDefault x => v.new x ⟨.mat, 0, 0, [], true⟩
  | .matSized x r c => v.new x ⟨.mat, r, c, List.replicate (r * c) 0, false⟩
  | .copy k x y => (v.get y).bind fun w =>
    if k = .vec ∧ w.kind = .mat ∧ w.col ≠ 1 then .error .assert
    else v.new x ⟨k, w.row, if k = .vec ∨ w.kind = .vec then 1 else w.col, w.vals, false⟩
  | .assign x y => (v.get x).bind fun o => (v.get y).bind fun w =>
    if o.kind ≠ w.kind then .error .scope
    else if x = y then .ok v
    else .ok (put v x (some ⟨w.kind, w.row, w.col, w.vals, false⟩))
  | .write x i j a => (v.get x).bind fun w =>
    match w.kind with
    | .vec => if i < w.row then .ok (put v x (some { w with vals := w.vals.set i a })) else .error .assert
    | .mat => if i < w.row ∧ j < w.col then .ok (put v x (some { w with vals := w.vals.set (i * w.col + j) a }))
      else .error .assert
  | .destroy x => (v.get x).bind fun _ => .ok (put v x none)

/-- The meaning of a history. -/
def vrun [Zero α] (v : VState α) : List (Cmd α) → Except Fail (VState α)
  | [] => .ok v
  | c :: cs => (vexec v c).bind fun v => vrun v cs

/-- A command that does not destroy an object which was default-constructed and never assigned. -/
def Careful (v : VState α) : Cmd α → Prop
  | .destroy x => ∀ w, v x = some w → w.unset = false
  | _ => True

/-- A command that does not assign to an object with no elements, unless it was default-constructed. -/
def NoEmptyTarget (v : VState α) : Cmd α → Prop
  | .assign x y => x = y ∨ ∀ w, v x = some w → w.unset = true ∨ w.vals ≠ []
  | _ => True

/-- A condition on every command of a history, as far as it runs. -/
def Along [Zero α] (P : VState α → Cmd α → Prop) (v : VState α) : List (Cmd α) → Prop
  | [] => True
  | c :: cs => P v c ∧ ∀ v', vexec v c = .ok v' → Along P v' cs

end Pansfem.Heap
