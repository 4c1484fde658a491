/-
What is assumed of the conversion of scalars to text and back.
-/
import Verif.Model.Vtk

namespace Pansfem

/-- What is assumed of the conversions of the library: a scalar is written as a text without blanks,
and reading this text, at the end or with a blank behind it, takes all of its characters and gives the
value `val x`.  (`operator<<` writes six significant digits, so that `val x` is `x` rounded.) -/
structure Converts {K : Type} (prt : K → List Char) (rd : List Char → Option (K × ℕ))
    (val : K → K) : Prop where
  /-- something is written -/
  ne : ∀ x, prt x ≠ []
  /-- no blanks are written -/
  plain : ∀ x, ∀ c ∈ prt x, isBlank c = false
  /-- no capital letters are written -/
  small : ∀ x, ∀ c ∈ prt x, c.isUpper = false
  /-- the value read -/
  read : ∀ x s, (∀ c ∈ s.head?, isBlank c = true) → rd (prt x ++ s) = some (val x, (prt x).length)

/-- The range of an `int`. -/
def InRange (z : ℤ) : Prop := -2147483648 ≤ z ∧ z < 2147483648

/-- A point with its coordinates followed by zeros up to the third one. -/
def padded {K : Type} [Zero K] (x : List K) : List K := x ++ List.replicate (3 - x.length) 0

end Pansfem
