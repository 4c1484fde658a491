/-
What a well-formed CSV file is, written down without the functions that read it.
-/
import Verif.Model.Text

namespace Pansfem

/-- A field of a record: not empty, without blanks and commas. -/
def IsField (f : List Char) : Prop := f ≠ [] ∧ ∀ c ∈ f, isBlank c = false ∧ c ≠ ','

/-- A record of a CSV file: the identifier and the other fields. -/
structure Record where
  /-- the first field -/
  id : List Char
  /-- the fields after the first one -/
  fields : List (List Char)

/-- All fields of the record are fields. -/
def Record.Ok (r : Record) : Prop := IsField r.id ∧ ∀ f ∈ r.fields, IsField f

/-- The text of a record: its fields with commas between them. -/
def Record.text (r : Record) : List Char := r.id ++ r.fields.flatMap fun f => ',' :: f

/-- `Layout rs t`: the text `t` consists of the words `rs`, with blanks (spaces, tabs, ends of lines of
either kind, empty lines) before, between and possibly after them. -/
inductive Layout : List (List Char) → List Char → Prop
  | blank {b : List Char} (hb : ∀ c ∈ b, isBlank c = true) : Layout [] b
  | last {b r : List Char} (hb : ∀ c ∈ b, isBlank c = true) (hr : r ≠ [])
      (hc : ∀ c ∈ r, isBlank c = false) : Layout [r] (b ++ r)
  | cons {b r : List Char} {c : Char} {t : List Char} {rs : List (List Char)}
      (hb : ∀ c ∈ b, isBlank c = true) (hr : r ≠ []) (hc : ∀ c ∈ r, isBlank c = false)
      (hs : isBlank c = true) (h : Layout rs (c :: t)) : Layout (r :: rs) (b ++ r ++ c :: t)

/-- A CSV file: a first line without meaning, then the records. -/
def IsCsv (recs : List Record) (file : List Char) : Prop :=
  ∃ head body, file = head ++ '\n' :: body ∧ (∀ c ∈ head, c ≠ '\n') ∧ (∀ r ∈ recs, r.Ok) ∧
    Layout (recs.map Record.text) body

end Pansfem
