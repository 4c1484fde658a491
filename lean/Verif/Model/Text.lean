/-
Character streams of the C++ library, as far as the importers of /repo/src/PrePost/Import use them, and
the importers from CSV files: /repo/src/PrePost/Import/ImportFromCSV.h.

* A file is the list of its characters, `none` if it cannot be opened.  A `std::string` is the list of
  its characters.
* A stream is what is left to be read, with the flag that it is still good: neither the end of the file
  was met nor an operation failed.  This is what `std::getline` and `operator>>` test before they read.
* `std::stoi` and `>>` into an `int` are written out, with the range of a 32 bit `int`.  The conversion
  of a decimal fraction is a parameter `rd`: it takes the longest numeral at the front of a text and
  gives its value and the number of its characters, `none` if there is no numeral.
* An exception (`std::stod` of a text which is no number) and a subscript outside of the vector are
  `none`.
-/
import Mathlib.Data.List.Basic
import Mathlib.Data.Int.Notation

namespace Pansfem

/-- `std::isspace` in the "C" locale, used by `operator>>` (ImportFromCSV.h:38). -/
def isBlank (c : Char) : Bool :=
  c == ' ' || c == '\t' || c == '\n' || c == '\x0b' || c == '\x0c' || c == '\r'

/-- A `std::ifstream` or `std::istringstream` (ImportFromCSV.h:24 and 39). -/
structure Stream where
  /-- the characters not read yet -/
  rest : List Char
  /-- neither `eofbit` nor `failbit` is set -/
  good : Bool

/-- The outcome of `std::getline` and of `operator>>` into a `std::string`: whether the operation
succeeded, the string afterwards and the stream afterwards (ImportFromCSV.h:33, 38, 43). -/
structure Got where
  /-- the value of the stream as a condition -/
  ok : Bool
  /-- the string argument afterwards -/
  str : List Char
  /-- the stream afterwards -/
  stream : Stream

/-- A stream on a text (`std::ifstream ifs(_fname)`, `std::istringstream sbuf(buf)`,
ImportFromCSV.h:24 and 39). -/
def Stream.ofText (t : List Char) : Stream := ⟨t, true⟩

/-- `std::getline(s, str, d)` (ImportFromCSV.h:33, 43, 47): if the stream is not good the string keeps
its value; otherwise it receives the characters before the next `d`, which is taken off the stream.
The end of the text ends the string too; it is a failure if there was nothing to read. -/
def getline (d : Char) (s : Stream) (str : List Char) : Got :=
  if s.good then
    if s.rest = [] then ⟨false, [], ⟨[], false⟩⟩
    else
      match s.rest.dropWhile (· != d) with
      | [] => ⟨true, s.rest, ⟨[], false⟩⟩
      | _ :: t => ⟨true, s.rest.takeWhile (· != d), ⟨t, true⟩⟩
  else ⟨false, str, s⟩

/-- `s >> str` for a `std::string` (ImportFromCSV.h:38): blanks are skipped, and the string receives
the characters before the next blank.  If there is none the string keeps its value. -/
def readWord (s : Stream) (str : List Char) : Got :=
  if s.good then
    let t := s.rest.dropWhile isBlank
    if t = [] then ⟨false, str, ⟨[], false⟩⟩
    else
      let r := t.dropWhile fun c => !isBlank c
      ⟨true, t.takeWhile fun c => !isBlank c, ⟨r, !r.isEmpty⟩⟩
  else ⟨false, str, s⟩

/-- The value of a sequence of decimal digits (`std::stoi`, ImportFromCSV.h:88). -/
def digitsValue (t : List Char) : ℕ := t.foldl (fun a c => 10 * a + (c.toNat - 48)) 0

/-- The digits at the front of a text and what is left (`std::stoi`, ImportFromCSV.h:88). -/
def parseNat (t : List Char) : Option (ℕ × List Char) :=
  let d := t.takeWhile Char.isDigit
  if d = [] then none else some (digitsValue d, t.dropWhile Char.isDigit)

/-- The digits at the front of a text, possibly with a sign (`std::stoi`, ImportFromCSV.h:88). -/
def parseSigned (t : List Char) : Option (ℤ × List Char) :=
  match t with
  | '-' :: t => (parseNat t).map fun p => (-(p.1 : ℤ), p.2)
  | '+' :: t => (parseNat t).map fun p => ((p.1 : ℤ), p.2)
  | t => (parseNat t).map fun p => ((p.1 : ℤ), p.2)

/-- The integer at the front of a text without leading blanks, in the range of a 32 bit `int`
(`std::stoi`, ImportFromCSV.h:88; `>>` into an `int`, ImportFromVTK2.h:41). -/
def parseInt (t : List Char) : Option (ℤ × List Char) :=
  (parseSigned t).bind fun p => if -2147483648 ≤ p.1 ∧ p.1 < 2147483648 then some p else none

/-- `std::stoi(str)` (ImportFromCSV.h:88, 126): characters behind the number are ignored; `none` is an
exception. -/
def stoi (str : List Char) : Option ℤ := (parseInt (str.dropWhile isBlank)).map Prod.fst

/-- `stod(str)` (ImportFromCSV.h:48, 129). -/
def stod {K : Type} (rd : List Char → Option (K × ℕ)) (str : List Char) : Option K :=
  (rd (str.dropWhile isBlank)).map Prod.fst

/-- The stream behind a string that was read is shorter. -/
theorem getline_shorter {d : Char} {s : Stream} {str : List Char} (h : (getline d s str).ok = true) :
    (getline d s str).stream.rest.length < s.rest.length := by
  unfold getline at *
  by_cases hg : s.good <;> simp only [hg, if_true] at h ⊢
  · by_cases hr : s.rest = []
    · simp [hr] at h
    · simp only [hr, if_false]
      have hlen := (List.dropWhile_suffix (l := s.rest) (fun c => c != d)).length_le
      cases hd : s.rest.dropWhile (· != d) with
      | nil => simpa using List.length_pos_of_ne_nil hr
      | cons a t => rw [hd] at hlen; simp at hlen ⊢; omega
  · simp at h

/-- The stream behind a word that was read is shorter. -/
theorem readWord_shorter {s : Stream} {str : List Char}
    (h : (readWord s str).stream.good = true) :
    (readWord s str).stream.rest.length < s.rest.length := by
  unfold readWord at *
  by_cases hg : s.good
  · simp only [hg, if_true] at h ⊢
    have hlen := (List.dropWhile_suffix (l := s.rest) isBlank).length_le
    cases ht : s.rest.dropWhile isBlank with
    | nil => simp [ht] at h
    | cons c t =>
      have hc : isBlank c = false := by
        have := List.head_dropWhile_not isBlank (l := s.rest) (by simp [ht])
        simpa [ht] using this
      rw [ht] at hlen
      simp only [ht, reduceCtorEq, if_false] at h ⊢
      have := (List.dropWhile_suffix (l := t) (fun c => !isBlank c)).length_le
      simp [hc] at hlen ⊢
      omega
  · simp only [hg] at h
    simp [hg] at h

/-! ### ImportFromCSV.h -/

/-- The loop `while(std::getline(sbuf, str, ',')) x.push_back(f(str));` (ImportFromCSV.h:47-49 and
87-89). -/
def pushFields {α : Type} (f : List Char → Option α) (s : Stream) (str : List Char) :
    Option (List α) :=
  if _h : (getline ',' s str).ok = true then do
    let a ← f (getline ',' s str).str
    let as ← pushFields f (getline ',' s str).stream (getline ',' s str).str
    return a :: as
  else some []
termination_by s.rest.length
decreasing_by exact getline_shorter _h

/-- The loop over the records (ImportFromCSV.h:35-54, and the same in the other five functions). -/
def csvLoop {σ : Type} (body : σ → List Char → Option σ) (s : Stream) (x : σ) : Option σ :=
  if s.good then do
    let y ← body x (readWord s []).str
    if (readWord s []).stream.good = true then csvLoop body (readWord s []).stream y else some y
  else some x
termination_by s.rest.length
decreasing_by exact readWord_shorter ‹_›

/-- The frame of the six functions (ImportFromCSV.h:24-35 and 56-58): a file that does not open gives
`false`, the first line is skipped. -/
def csvImport {σ : Type} (body : σ → List Char → Option σ) (file : Option (List Char)) (x : σ) :
    Option (Bool × σ) :=
  match file with
  | none => some (false, x)
  | some t => (csvLoop body (getline '\n' (Stream.ofText t) []).stream x).map fun y => (true, y)

/-- The body of `ImportNodesFromCSV` for the record `buf` (ImportFromCSV.h:39-53). -/
def nodesRow {K : Type} (rd : List Char → Option (K × ℕ)) (nodes : List (List K))
    (buf : List Char) : Option (List (List K)) :=
  let g := getline ',' (Stream.ofText buf) []
  if g.str = [] then some nodes
  else do
    let x ← pushFields (stod rd) g.stream g.str
    return nodes ++ [x]

/-- `ImportNodesFromCSV` (ImportFromCSV.h:22-59). -/
def importNodes {K : Type} (rd : List Char → Option (K × ℕ)) (nodes : List (List K))
    (file : Option (List Char)) : Option (Bool × List (List K)) :=
  csvImport (nodesRow rd) file nodes

/-- The body of `ImportElementsFromCSV` for the record `buf` (ImportFromCSV.h:79-93). -/
def elementsRow (elements : List (List ℤ)) (buf : List Char) : Option (List (List ℤ)) :=
  let g := getline ',' (Stream.ofText buf) []
  if g.str = [] then some elements
  else do
    let x ← pushFields stoi g.stream g.str
    return elements ++ [x]

/-- `ImportElementsFromCSV` (ImportFromCSV.h:63-99). -/
def importElements (elements : List (List ℤ)) (file : Option (List Char)) :
    Option (Bool × List (List ℤ)) :=
  csvImport elementsRow file elements

/-- The loop over the fields of a boundary condition (ImportFromCSV.h:127-131), from the field `i`
on. -/
def pushConditions {K : Type} (rd : List Char → Option (K × ℕ)) (idn : ℤ) (i : ℕ) (s : Stream)
    (str : List Char) : Option (List ((ℤ × ℕ) × K)) :=
  if h : (getline ',' s str).ok = true then
    if (getline ',' s str).str ≠ "free".toList then do
      let v ← stod rd (getline ',' s str).str
      let vs ← pushConditions rd idn (i + 1) (getline ',' s str).stream (getline ',' s str).str
      return ((idn, i), v) :: vs
    else pushConditions rd idn (i + 1) (getline ',' s str).stream (getline ',' s str).str
  else some []
termination_by s.rest.length
decreasing_by all_goals exact getline_shorter h

/-- The body of `ImportDirichletFromCSV` and of `ImportNeumannFromCSV` for the record `buf`
(ImportFromCSV.h:119-132 and 158-171, the same text). -/
def conditionsRow {K : Type} (rd : List Char → Option (K × ℕ))
    (fixed : List ((ℤ × ℕ) × K)) (buf : List Char) : Option (List ((ℤ × ℕ) × K)) :=
  let g := getline ',' (Stream.ofText buf) []
  if g.str = [] then some fixed
  else do
    let idn ← stoi g.str
    let vs ← pushConditions rd idn 0 g.stream g.str
    return fixed ++ vs

/-- `ImportDirichletFromCSV` (ImportFromCSV.h:103-138). -/
def importDirichlet {K : Type} (rd : List Char → Option (K × ℕ)) (ufixed : List ((ℤ × ℕ) × K))
    (file : Option (List Char)) : Option (Bool × List ((ℤ × ℕ) × K)) :=
  csvImport (conditionsRow rd) file ufixed

/-- `ImportNeumannFromCSV` (ImportFromCSV.h:142-177). -/
def importNeumann {K : Type} (rd : List Char → Option (K × ℕ)) (qfixed : List ((ℤ × ℕ) × K))
    (file : Option (List Char)) : Option (Bool × List ((ℤ × ℕ) × K)) :=
  csvImport (conditionsRow rd) file qfixed

/-- The loop over the components of `_u[idn]` (ImportFromCSV.h:205-210): a component is assigned unless
the string is "free".  The outcome of `getline` is not tested: without a further field the string keeps
its value. -/
def assignFields {K : Type} (rd : List Char → Option (K × ℕ)) :
    List K → Stream → List Char → Option (List K)
  | [], _, _ => some []
  | v :: vs, s, str => do
    let g := getline ',' s str
    let w ← if g.str ≠ "free".toList then stod rd g.str else some v
    let ws ← assignFields rd vs g.stream g.str
    return w :: ws

/-- The body of `ImportInitialFromCSV` for the record `buf` (ImportFromCSV.h:197-211). -/
def initialRow {K : Type} (rd : List Char → Option (K × ℕ)) (u : List (List K))
    (buf : List Char) : Option (List (List K)) :=
  let g := getline ',' (Stream.ofText buf) []
  if g.str = [] then some u
  else do
    let idn ← stoi g.str
    if 0 ≤ idn then
      let x ← u[idn.toNat]?
      let y ← assignFields rd x g.stream g.str
      return u.set idn.toNat y
    else none

/-- `ImportInitialFromCSV` (ImportFromCSV.h:181-217). -/
def importInitial {K : Type} (rd : List Char → Option (K × ℕ)) (u : List (List K))
    (file : Option (List Char)) : Option (Bool × List (List K)) :=
  csvImport (initialRow rd) file u

/-- The body of `ImportPeriodicFromCSV` for the record `buf` (ImportFromCSV.h:236-247). -/
def periodicRow (fixed : List (ℤ × ℤ)) (buf : List Char) : Option (List (ℤ × ℤ)) :=
  let g := getline ',' (Stream.ofText buf) []
  if g.str = [] then some fixed
  else do
    let master ← stoi g.str
    let slave ← stoi (getline ',' g.stream g.str).str
    return fixed ++ [(master, slave)]

/-- `ImportPeriodicFromCSV` (ImportFromCSV.h:221-253). -/
def importPeriodic (fixed : List (ℤ × ℤ)) (file : Option (List Char)) :
    Option (Bool × List (ℤ × ℤ)) :=
  csvImport periodicRow file fixed

end Pansfem
