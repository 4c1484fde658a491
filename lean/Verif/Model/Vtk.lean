/-
Writing and reading of VTK files: /repo/src/PrePost/Export/ExportToVTK.h,
/repo/src/PrePost/Import/ImportFromVTK.h (by lines) and /repo/src/PrePost/Import/ImportFromVTK2.h (by
words).

* A text is the list of its characters.  The functions that write give the text they append.
* The conversions of scalars are parameters: `prt` writes (`operator<<`), `rd` reads (see
  `Verif/Model/Text.lean`).  Integers are written out.
* Where `ImportFromVTK2.h` goes on with the value of an extraction that failed (an indeterminate value,
  or zero), the model gives `none`.  In `ImportFromVTK.h` the entries are zero before they are read and
  stay so, which the model follows; a size that is read where nothing is left is `none` for an element
  (indeterminate) and keeps the old value for the data members.
* A negative size of a vector (`std::length_error`) is `none`.
-/
import Verif.Model.Text
import Mathlib.Data.List.Infix
import Mathlib.Algebra.Group.Defs

namespace Pansfem

/-! ### ExportToVTK.h -/

/-- The character of a digit (`operator<<`, ExportToVTK.h:30). -/
def digitChar (n : ℕ) : Char := Char.ofNat (48 + n)

/-- `_fout << n` for a size (ExportToVTK.h:30, 51). -/
def showNat (n : ℕ) : List Char :=
  if n < 10 then [digitChar n] else showNat (n / 10) ++ [digitChar (n % 10)]
termination_by n
decreasing_by omega

/-- `_fout << n` for an `int` (ExportToVTK.h:55). -/
def showInt (z : ℤ) : List Char := if z < 0 then '-' :: showNat z.natAbs else showNat z.natAbs

/-- `MakeHeadderToVTK` (ExportToVTK.h:19-24). -/
def vtkHeader : List Char :=
  "# vtk DataFile Version 4.1\n".toList ++ "vtk output\n".toList ++ "ASCII\n".toList ++
    "DATASET UNSTRUCTURED_GRID\n".toList

/-- The line of a vector in `AddPointsToVTK` and `AddPointVectors` (ExportToVTK.h:32-39 and 110-117):
the components and `T()` up to the third one, each with a tab behind. -/
def vtkRow {K : Type} [Zero K] (prt : K → List Char) (x : List K) : List Char :=
  (x ++ List.replicate (3 - x.length) 0).flatMap (fun a => prt a ++ ['\t']) ++ ['\n']

/-- `AddPointsToVTK` (ExportToVTK.h:28-41). -/
def addPoints {K : Type} [Zero K] (prt : K → List Char) (nodes : List (List K)) : List Char :=
  '\n' :: "POINTS".toList ++ ['\t'] ++ showNat nodes.length ++ '\t' :: "float".toList ++ ['\n'] ++
    nodes.flatMap (vtkRow prt)

/-- The line of an element (ExportToVTK.h:53-57). -/
def cellRow (element : List ℤ) : List Char :=
  showNat element.length ++ ['\t'] ++ element.flatMap (fun k => showInt k ++ ['\t']) ++ ['\n']

/-- `AddElementToVTK` (ExportToVTK.h:45-59). -/
def addElements (elements : List (List ℤ)) : List Char :=
  '\n' :: "CELLS".toList ++ [' '] ++ showNat elements.length ++ ['\t'] ++
    showNat (elements.map fun e => e.length + 1).sum ++ ['\n'] ++ elements.flatMap cellRow

/-- `AddElementTypes` (ExportToVTK.h:63-68). -/
def addElementTypes (types : List ℤ) : List Char :=
  '\n' :: "CELL_TYPES".toList ++ ['\t'] ++ showNat types.length ++ ['\n'] ++
    types.flatMap fun t => showInt t ++ ['\n']

/-- The optional line before the values of the points (ExportToVTK.h:74-76, 89-91, 104-106). -/
def pointDataLine (isheader : Bool) (n : ℕ) : List Char :=
  if isheader then '\n' :: "POINT_DATA".toList ++ ['\t'] ++ showNat n ++ ['\n'] else []

/-- The optional line before the values of the elements (ExportToVTK.h:128-130). -/
def cellDataLine (isheader : Bool) (n : ℕ) : List Char :=
  if isheader then '\n' :: "CELL_DATA".toList ++ ['\t'] ++ showNat n ++ ['\n'] else []

/-- The two lines before a sequence of scalars (ExportToVTK.h:77-78, 92-93, 131-132). -/
def scalarsHead (symbol : List Char) : List Char :=
  "SCALARS".toList ++ [' '] ++ symbol ++ " float".toList ++ ['\n'] ++
    "LOOKUP_TABLE default".toList ++ ['\n']

/-- `AddPointScalers` for scalars (ExportToVTK.h:72-83). -/
def addPointScalers {K : Type} (prt : K → List Char) (values : List K) (symbol : List Char)
    (isheader : Bool) : List Char :=
  pointDataLine isheader values.length ++ scalarsHead symbol ++
    values.flatMap fun v => prt v ++ ['\n']

/-- `AddPointScalers` for vectors (ExportToVTK.h:87-98, with `operator<<` of a vector,
src/LinearAlgebra/Models/Vector.h:287-293): every component on a line of its own. -/
def addPointScalersVector {K : Type} (prt : K → List Char) (values : List (List K))
    (symbol : List Char) (isheader : Bool) : List Char :=
  pointDataLine isheader values.length ++ scalarsHead symbol ++
    values.flatMap fun x => x.flatMap fun v => prt v ++ ['\n']

/-- `AddPointVectors` (ExportToVTK.h:102-119). -/
def addPointVectors {K : Type} [Zero K] (prt : K → List Char) (values : List (List K))
    (symbol : List Char) (isheader : Bool) : List Char :=
  pointDataLine isheader values.length ++ ("VECTORS".toList ++ [' '] ++ symbol ++ " float".toList ++ ['\n']) ++
    values.flatMap (vtkRow prt)

/-- `AddElementScalers` (ExportToVTK.h:126-137). -/
def addElementScalers {K : Type} (prt : K → List Char) (values : List K) (symbol : List Char)
    (isheader : Bool) : List Char :=
  cellDataLine isheader values.length ++ scalarsHead symbol ++
    values.flatMap fun v => prt v ++ ['\n']

/-! ### Extraction of numbers -/

/-- `s >> n` for an `int` (ImportFromVTK2.h:41, ImportFromVTK.h:118). -/
def readInt (s : Stream) : Option (ℤ × Stream) :=
  if s.good then
    (parseInt (s.rest.dropWhile isBlank)).map fun p => (p.1, ⟨p.2, !p.2.isEmpty⟩)
  else none

/-- `s >> x` for a scalar (ImportFromVTK2.h:45, ImportFromVTK.h:85). -/
def readNum {K : Type} (rd : List Char → Option (K × ℕ)) (s : Stream) : Option (K × Stream) :=
  if s.good then
    let t := s.rest.dropWhile isBlank
    (rd t).map fun p => (p.1, ⟨t.drop p.2, !(t.drop p.2).isEmpty⟩)
  else none

/-- A loop that reads `n` things one after the other (ImportFromVTK2.h:43-47, 64-74). -/
def readTimes {α : Type} (f : Stream → Option (α × Stream)) : ℕ → Stream → Option (List α × Stream)
  | 0, s => some ([], s)
  | n + 1, s => do
    let p ← f s
    let q ← readTimes f n p.2
    return (p.1 :: q.1, q.2)

/-- A function that reads leaves no more than there was
(the extractions of ImportFromVTK2.h:41-74; used for proofs of termination only). -/
def NoLonger {α : Type} (f : Stream → Option (α × Stream)) : Prop :=
  ∀ s p, f s = some p → p.2.rest.length ≤ s.rest.length

theorem noLonger_readNum {K : Type} (rd : List Char → Option (K × ℕ)) : NoLonger (readNum rd) := by
  intro s p h
  unfold readNum at h
  by_cases hg : s.good <;> simp only [hg, if_true] at h
  · obtain ⟨q, -, rfl⟩ := Option.map_eq_some_iff.1 h
    have h1 := (List.dropWhile_suffix (l := s.rest) isBlank).length_le
    simp only [List.length_drop]
    omega
  · simp at h

theorem parseNat_shorter {t : List Char} {p : ℕ × List Char} (h : parseNat t = some p) :
    p.2.length ≤ t.length := by
  unfold parseNat at h
  simp only at h
  split at h
  · simp at h
  · obtain rfl := Option.some.inj h
    exact (List.dropWhile_suffix (l := t) _).length_le

theorem parseSigned_shorter {t : List Char} {p : ℤ × List Char} (h : parseSigned t = some p) :
    p.2.length ≤ t.length := by
  unfold parseSigned at h
  split at h <;> obtain ⟨r, hr, rfl⟩ := Option.map_eq_some_iff.1 h
  · have := parseNat_shorter hr; simp; omega
  · have := parseNat_shorter hr; simp; omega
  · exact parseNat_shorter hr

theorem parseInt_shorter {t : List Char} {p : ℤ × List Char} (h : parseInt t = some p) :
    p.2.length ≤ t.length := by
  unfold parseInt at h
  obtain ⟨q, hq, h⟩ := Option.bind_eq_some_iff.1 h
  split at h
  · obtain rfl := Option.some.inj h
    exact parseSigned_shorter hq
  · simp at h

theorem noLonger_readInt : NoLonger readInt := by
  intro s p h
  unfold readInt at h
  by_cases hg : s.good <;> simp only [hg, if_true] at h
  · obtain ⟨q, hq, rfl⟩ := Option.map_eq_some_iff.1 h
    exact (parseInt_shorter hq).trans (List.dropWhile_suffix (l := s.rest) isBlank).length_le
  · simp at h

theorem noLonger_readTimes {α : Type} {f : Stream → Option (α × Stream)} (hf : NoLonger f) :
    ∀ n, NoLonger (readTimes f n)
  | 0, s, p, h => by simp [readTimes] at h; simp [← h]
  | n + 1, s, p, h => by
    simp only [readTimes, Option.bind_eq_bind, Option.bind_eq_some_iff] at h
    obtain ⟨q, hq, r, hr, h⟩ := h
    obtain rfl := Option.some.inj h
    exact (noLonger_readTimes hf n _ _ hr).trans (hf _ _ hq)

theorem readWord_ok_shorter {s : Stream} {str : List Char} (h : (readWord s str).ok = true) :
    (readWord s str).stream.rest.length < s.rest.length := by
  unfold readWord at *
  by_cases hg : s.good
  · simp only [hg, if_true] at h ⊢
    have hlen := (List.dropWhile_suffix (l := s.rest) isBlank).length_le
    cases ht : s.rest.dropWhile isBlank with
    | nil => simp [ht] at h
    | cons c t =>
      have hc : isBlank c = false := by
        have := List.head_dropWhile_not isBlank (l := s.rest) (by simp [ht])
        simpa [ht] using this
      rw [ht] at hlen
      simp only [reduceCtorEq, if_false]
      have := (List.dropWhile_suffix (l := t) (fun c => !isBlank c)).length_le
      simp [hc] at hlen ⊢
      omega
  · simp [hg] at h

theorem readWord_noLonger {s : Stream} {str : List Char} :
    (readWord s str).stream.rest.length ≤ s.rest.length := by
  by_cases h : (readWord s str).ok = true
  · exact (readWord_ok_shorter h).le
  · unfold readWord at *
    split at h
    · simp only at h ⊢
      split at h
      · simp_all
      · simp at h
    · simp_all

/-! ### ImportFromVTK2.h -/

/-- `ifs >> x >> y >> z; nodes.push_back({ x, y, z })` (ImportFromVTK2.h:44-46). -/
def readTriple {K : Type} (rd : List Char → Option (K × ℕ)) : Stream → Option (List K × Stream) :=
  readTimes (readNum rd) 3

/-- The body for one element (ImportFromVTK2.h:65-73). -/
def readCell (s : Stream) : Option (List ℤ × Stream) :=
  (readInt s).bind fun p => readTimes readInt p.1.toNat p.2

theorem noLonger_readCell : NoLonger readCell := by
  intro s p h
  obtain ⟨q, hq, h⟩ := Option.bind_eq_some_iff.1 h
  exact (noLonger_readTimes noLonger_readInt _ _ _ h).trans (noLonger_readInt _ _ hq)

/-- The body behind a keyword: a number, a word that is skipped, and the number of things
(ImportFromVTK2.h:40-47 and 61-74). -/
def readBlock {α : Type} (f : Stream → Option (α × Stream)) (s : Stream) :
    Option (List α × Stream) :=
  (readInt s).bind fun p => readTimes f p.1.toNat (readWord p.2 []).stream

theorem noLonger_readBlock {α : Type} {f : Stream → Option (α × Stream)} (hf : NoLonger f) :
    NoLonger (readBlock f) := by
  intro s p h
  obtain ⟨q, hq, h⟩ := Option.bind_eq_some_iff.1 h
  exact (noLonger_readTimes hf _ _ _ h).trans
    (readWord_noLonger.trans (noLonger_readInt _ _ hq))

/-- The loop `while (ifs >> tmp)` of `GenerateNodes` and `GenerateElements` (ImportFromVTK2.h:38-49 and
59-76). -/
def scanWords {α : Type} (key : List Char) (f : Stream → Option (α × Stream)) (hf : NoLonger f)
    (s : Stream) (out : List α) : Option (List α) :=
  if _h : (readWord s []).ok = true then
    if (readWord s []).str = key then
      match _hb : readBlock f (readWord s []).stream with
      | none => none
      | some p => scanWords key f hf p.2 (out ++ p.1)
    else scanWords key f hf (readWord s []).stream out
  else some out
termination_by s.rest.length
decreasing_by
  · exact (noLonger_readBlock hf _ _ _hb).trans_lt (readWord_ok_shorter _h)
  · exact readWord_ok_shorter _h

/-- `GenerateNodes` (ImportFromVTK2.h:33-51): the stream is set to the beginning of the file first. -/
def generateNodes {K : Type} (rd : List Char → Option (K × ℕ)) (file : List Char) :
    Option (List (List K)) :=
  scanWords "POINTS".toList (readTriple rd) (noLonger_readTimes (noLonger_readNum rd) 3)
    (Stream.ofText file) []

/-- `GenerateElements` (ImportFromVTK2.h:54-78). -/
def generateElements (file : List Char) : Option (List (List ℤ)) :=
  scanWords "CELLS".toList readCell noLonger_readCell (Stream.ofText file) []

/-! ### ImportFromVTK.h -/

/-- An object of the class `ImportModelFromVTK` (ImportFromVTK.h:35-40), with the text of its file. -/
structure VtkReader where
  /-- the text of the file -/
  file : List Char
  /-- `ifs` -/
  ifs : Stream
  /-- `dimension` -/
  dimension : ℕ
  /-- `mode` -/
  mode : ℕ
  /-- `pointssize` -/
  pointssize : ℤ
  /-- `cellssize` -/
  cellssize : ℤ

/-- The constructor (ImportFromVTK.h:44-52), the file being there; the assertion is `none`. -/
def VtkReader.open (file : List Char) (dimension : ℕ) : Option VtkReader :=
  if 0 < dimension ∧ dimension < 4 then some ⟨file, Stream.ofText file, dimension, 0, 0, 0⟩ else none

/-- `linestrings.find(key) != std::string::npos` (ImportFromVTK.h:69). -/
def contains (key line : List Char) : Bool := decide (key <:+: line)

/-- `keywordstream >> linestrings >> size` (ImportFromVTK.h:70-71): the new value of `size`.  Nothing
behind the first word leaves it unchanged, something which is no number makes it zero (a number out of
range would make it the largest `int`; the model says zero). -/
def keywordSize (line : List Char) (old : ℤ) : ℤ :=
  let s := (readWord (Stream.ofText line) []).stream
  if s.good = true ∧ s.rest.dropWhile isBlank ≠ [] then
    match readInt s with
    | some p => p.1
    | none => 0
  else old

/-- The second word of a line, `keywordstream >> linestrings >> linestrings`
(ImportFromVTK.h:147-148): the first one if there is no second one. -/
def secondWord (line : List Char) : List Char :=
  let g := readWord (Stream.ofText line) line
  (readWord g.stream g.str).str

/-- The loop over the lines common to the six functions (for example ImportFromVTK.h:68-93): the lines
with `POINT_DATA` and `CELL_DATA` set the sizes and the mode; `hit` says whether a line is the one
looked for (`none`: it is not; `some none`: a failure).  At the end of the file the stream is set to its
beginning and the result is the empty vector. -/
def VtkReader.scan {α : Type} (hit : VtkReader → List Char → Option (Option (List α × VtkReader)))
    (r : VtkReader) : Option (List α × VtkReader) :=
  if _h : (getline '\n' r.ifs []).ok = true then
    let line := (getline '\n' r.ifs []).str
    let r' := { r with ifs := (getline '\n' r.ifs []).stream }
    if contains "POINT_DATA".toList line then
      VtkReader.scan hit { r' with pointssize := keywordSize line r.pointssize, mode := 1 }
    else if contains "CELL_DATA".toList line then
      VtkReader.scan hit { r' with cellssize := keywordSize line r.cellssize, mode := 2 }
    else
      match hit r' line with
      | some res => res
      | none => VtkReader.scan hit r'
  else some ([], { r with ifs := Stream.ofText r.file })
termination_by r.ifs.rest.length
decreasing_by all_goals exact getline_shorter _h

/-- `for(i…) valuestream >> node(i)` (ImportFromVTK.h:84-86): once an extraction has failed the entries
stay zero. -/
def readEntries {α : Type} [Zero α] (f : Stream → Option (α × Stream)) : ℕ → Stream → List α
  | 0, _ => []
  | n + 1, s =>
    match f s with
    | some p => p.1 :: readEntries f n p.2
    | none => List.replicate (n + 1) 0

/-- A loop that reads `n` lines (ImportFromVTK.h:81-87): the lines and the stream behind them.  `str` is
the string `linestrings`, which keeps its value when there is nothing to read from any more. -/
def readLines : ℕ → Stream → List Char → List (List Char) × Stream
  | 0, s, _ => ([], s)
  | n + 1, s, str =>
    let g := getline '\n' s str
    let p := readLines n g.stream g.str
    (g.str :: p.1, p.2)

/-- The lines of vectors (ImportFromVTK.h:80-88, 150-158, 219-227). -/
def VtkReader.vectors {K : Type} [Zero K] (rd : List Char → Option (K × ℕ)) (r : VtkReader)
    (size : ℤ) (str : List Char) : Option (List (List K) × VtkReader) :=
  if size < 0 then none
  else
    let p := readLines size.toNat r.ifs str
    some (p.1.map fun l => readEntries (readNum rd) r.dimension (Stream.ofText l),
      { r with ifs := p.2 })

/-- The lines of scalars (ImportFromVTK.h:185-192, 254-261): one line is skipped first. -/
def VtkReader.scalars {K : Type} [Zero K] (rd : List Char → Option (K × ℕ)) (r : VtkReader)
    (size : ℤ) (str : List Char) : Option (List K × VtkReader) :=
  if size < 0 then none
  else
    let g := getline '\n' r.ifs str
    let p := readLines size.toNat g.stream g.str
    some (p.1.map fun l => (readEntries (readNum rd) 1 (Stream.ofText l)).headD 0,
      { r with ifs := p.2 })

/-- The line of an element (ImportFromVTK.h:115-121). -/
def lineCell (l : List Char) : Option (List ℤ) :=
  let s := Stream.ofText l
  if s.rest.dropWhile isBlank = [] then none
  else
    match readInt s with
    | none => some []
    | some p => if p.1 < 0 then none else some (readEntries readInt p.1.toNat p.2)

/-- `ImportPOINTS` (ImportFromVTK.h:64-94). -/
def VtkReader.importPoints {K : Type} [Zero K] (rd : List Char → Option (K × ℕ)) (r : VtkReader) :
    Option (List (List K) × VtkReader) :=
  r.scan fun r line =>
    if contains "POINTS".toList line then
      let r := { r with pointssize := keywordSize line r.pointssize }
      some (r.vectors rd r.pointssize ((readWord (Stream.ofText line) line).str))
    else none

/-- `ImportCELLS` (ImportFromVTK.h:98-131). -/
def VtkReader.importCells (r : VtkReader) : Option (List (List ℤ) × VtkReader) :=
  r.scan fun r line =>
    if contains "CELLS".toList line then
      let r := { r with cellssize := keywordSize line r.cellssize }
      if r.cellssize < 0 then some none
      else
        let p := readLines r.cellssize.toNat r.ifs ((readWord (Stream.ofText line) line).str)
        some ((p.1.mapM lineCell).map fun es => (es, { r with ifs := p.2 }))
    else none

/-- `ImportPOINTVECTORS` (ImportFromVTK.h:134-166). -/
def VtkReader.importPointVectors {K : Type} [Zero K] (rd : List Char → Option (K × ℕ))
    (keyword : List Char) (r : VtkReader) : Option (List (List K) × VtkReader) :=
  r.scan fun r line =>
    if r.mode = 1 ∧ contains "VECTORS".toList line = true ∧ secondWord line = keyword then
      some (r.vectors rd r.pointssize (secondWord line))
    else none

/-- `ImportPOINTSCALARS` (ImportFromVTK.h:169-200). -/
def VtkReader.importPointScalars {K : Type} [Zero K] (rd : List Char → Option (K × ℕ))
    (keyword : List Char) (r : VtkReader) : Option (List K × VtkReader) :=
  r.scan fun r line =>
    if r.mode = 1 ∧ contains "SCALARS".toList line = true ∧ secondWord line = keyword then
      some (r.scalars rd r.pointssize (secondWord line))
    else none

/-- `ImportCELLVECTORS` (ImportFromVTK.h:203-235). -/
def VtkReader.importCellVectors {K : Type} [Zero K] (rd : List Char → Option (K × ℕ))
    (keyword : List Char) (r : VtkReader) : Option (List (List K) × VtkReader) :=
  r.scan fun r line =>
    if r.mode = 2 ∧ contains "VECTORS".toList line = true ∧ secondWord line = keyword then
      some (r.vectors rd r.cellssize (secondWord line))
    else none

/-- `ImportCELLSCALARS` (ImportFromVTK.h:238-269). -/
def VtkReader.importCellScalars {K : Type} [Zero K] (rd : List Char → Option (K × ℕ))
    (keyword : List Char) (r : VtkReader) : Option (List K × VtkReader) :=
  r.scan fun r line =>
    if r.mode = 2 ∧ contains "SCALARS".toList line = true ∧ secondWord line = keyword then
      some (r.scalars rd r.cellssize (secondWord line))
    else none

end Pansfem
