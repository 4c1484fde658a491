/-
C58: points and cells written to a VTK file are read back by the importer by lines (ImportFromVTK.h).
C96: so are the values written for points and elements.
C97: the order in which the functions of the importer are called.
-/
import Verif.Lemmas.VtkLines
import Verif.Props.C58_Vtk

namespace Pansfem

variable {K : Type} [Zero K] {prt : K → List Char} {rd : List Char → Option (K × ℕ)} {val : K → K}

/-- A line that belongs to no section of the file: it has neither the keyword nor one of the words
`POINT_DATA` and `CELL_DATA`. -/
def Dull (key line : List Char) : Prop :=
  (∀ c ∈ line, c ≠ '\n') ∧ contains "POINT_DATA".toList line = false ∧
    contains "CELL_DATA".toList line = false ∧ contains key line = false

/-- The line of a point without its end. -/
def rowLine (prt : K → List Char) (x : List K) : List Char :=
  (padded x).flatMap fun a => prt a ++ ['\t']

theorem vtkRow_eq (x : List K) : vtkRow prt x = rowLine prt x ++ ['\n'] := rfl

theorem ne_nl_of_plain {w : List Char} (h : ∀ c ∈ w, isBlank c = false) : ∀ c ∈ w, c ≠ '\n' := by
  rintro c hc rfl
  have := h _ hc
  revert this; decide

theorem rowLine_nl (hc : Converts prt rd val) (x : List K) : ∀ c ∈ rowLine prt x, c ≠ '\n' := by
  intro c h
  simp only [rowLine, List.mem_flatMap, List.mem_append, List.mem_singleton] at h
  obtain ⟨a, -, h | rfl⟩ := h
  · exact ne_nl_of_plain (hc.plain a) c h
  · decide

theorem readRow_eq (hc : Converts prt rd val) (x : List K) {d : ℕ} (h0 : 0 < d) (hd : d < 4) :
    readEntries (readNum rd) d (Stream.ofText (rowLine prt x)) = ((padded x).map val).take d := by
  have h3 : 3 ≤ (padded x).length := by simp [padded]; omega
  have hne : rowLine prt x ≠ [] := by
    unfold rowLine
    cases h : padded x with
    | nil => rw [h] at h3; simp at h3
    | cons a l => simp
  have := readEntries_eq (f := readNum rd) (T := fun a => prt a ++ ['\t']) (V := val) (l := padded x)
    (fun a _ => readsAs_num hc a blank_tab) (n := d) (by omega) blanks_nil
  rw [List.nil_append] at this
  have e : Stream.ofText (rowLine prt x) =
      atText ((padded x).flatMap fun a => prt a ++ ['\t']) := (atText_good hne).symm
  rw [e, this]

theorem rows_asLines (l : List (List K)) :
    l.flatMap (vtkRow prt) = asLines (l.map (rowLine prt)) := by
  rw [asLines, List.flatMap_map]; rfl

theorem vectors_eq (hc : Converts prt rd val) {l : List (List K)} {r : VtkReader} {post : List Char}
    (hr : r.ifs = ⟨l.flatMap (vtkRow prt) ++ post, true⟩) (h0 : 0 < r.dimension) (hd : r.dimension < 4)
    (str : List Char) :
    r.vectors rd (l.length : ℤ) str =
      some (l.map fun x => ((padded x).map val).take r.dimension,
        { r with ifs := ⟨post, true⟩ }) := by
  unfold VtkReader.vectors
  rw [if_neg (by omega), hr, rows_asLines, Int.toNat_natCast,
    show l.length = (l.map (rowLine prt)).length by simp,
    readLines_eq (by
      intro l' hl'
      obtain ⟨x, -, rfl⟩ := List.mem_map.1 hl'
      exact rowLine_nl hc x)]
  simp only [List.map_map, Function.comp_def]
  congr 2
  exact List.map_congr_left fun x _ => readRow_eq hc x h0 hd

/-- The points line is a line of its own. -/
theorem pointsLine (n : ℕ) :
    (∀ c ∈ "POINTS".toList ++ '\t' :: (showNat n ++ "\tfloat".toList), c ≠ '\n') ∧
    contains "POINT_DATA".toList ("POINTS".toList ++ '\t' :: (showNat n ++ "\tfloat".toList)) = false ∧
    contains "CELL_DATA".toList ("POINTS".toList ++ '\t' :: (showNat n ++ "\tfloat".toList)) = false := by
  have hu : '_' ∉ "POINTS".toList ++ '\t' :: (showNat n ++ "\tfloat".toList) := by
    simp only [List.mem_append, List.mem_cons, not_or]
    refine ⟨by decide, by decide, fun h => ?_, by decide⟩
    have := showNat_digits n _ h
    revert this; decide
  refine ⟨?_, not_contains (c := '_') (by decide) hu, not_contains (c := '_') (by decide) hu⟩
  intro c hc
  simp only [List.mem_append, List.mem_cons] at hc
  rcases hc with hc | rfl | hc | hc
  · revert c; decide
  · decide
  · exact ne_nl_of_plain (showNat_plain n) c hc
  · revert c; decide

/-- **C58, points by lines.**  If the lines before the points belong to no section, `ImportPOINTS`
gives the points written by `AddPointsToVTK`, as many coordinates as the dimension says, every
coordinate as the conversion to text and back makes it; the stream is then just behind them. -/
theorem C58_points_lines (hc : Converts prt rd val) {nodes : List (List K)}
    (hn : (nodes.length : ℤ) < 2147483648) {r : VtkReader} {ls : List (List Char)} {post : List Char}
    (hls : ∀ l ∈ ls, Dull "POINTS".toList l) (h0 : 0 < r.dimension) (hd : r.dimension < 4)
    (hr : r.ifs = ⟨asLines ls ++ addPoints prt nodes ++ post, true⟩) :
    r.importPoints rd = some (nodes.map fun x => ((padded x).map val).take r.dimension,
      { r with ifs := ⟨post, true⟩, pointssize := nodes.length }) := by
  have hdull : ∀ l ∈ ls ++ [[]], Dull "POINTS".toList l := by
    intro l hl
    rcases List.mem_append.1 hl with hl | hl
    · exact hls l hl
    · rw [List.mem_singleton.1 hl]; exact ⟨by simp, by decide, by decide, by decide⟩
  have e : asLines ls ++ addPoints prt nodes ++ post = asLines (ls ++ [[]]) ++
      (("POINTS".toList ++ '\t' :: (showNat nodes.length ++ "\tfloat".toList)) ++ '\n' ::
        (nodes.flatMap (vtkRow prt) ++ post)) := by
    have e1 : "\tfloat".toList = '\t' :: "float".toList := by decide +kernel
    rw [e1, addPoints_eq, asLines, asLines, List.flatMap_append]
    simp only [List.flatMap_cons, List.flatMap_nil, List.append_assoc, List.cons_append,
      List.nil_append]
  rw [e] at hr
  obtain ⟨h1, h2, h3⟩ := pointsLine nodes.length
  unfold VtkReader.importPoints
  rw [scan_skip _ _ r _ (by
    intro l hl
    obtain ⟨a, b, c, d⟩ := hdull l hl
    exact ⟨a, b, c, fun s => by simp only [d, Bool.false_eq_true, if_false]⟩) hr,
    scan_step _ _ rfl h1, h2, h3]
  simp only [Bool.false_eq_true, if_false, contains_prefix, if_true]
  rw [keywordSize_eq hn (by decide) (by decide) blank_tab (by decide)]
  exact vectors_eq (r := { r with ifs := ⟨nodes.flatMap (vtkRow prt) ++ post, true⟩,
                                  pointssize := nodes.length }) hc rfl h0 hd _

/-- The line of an element without its end. -/
def cellLine (e : List ℤ) : List Char :=
  showNat e.length ++ ['\t'] ++ e.flatMap (fun k => showInt k ++ ['\t'])

theorem cellLine_nl (e : List ℤ) : ∀ c ∈ cellLine e, c ≠ '\n' := by
  intro c h
  simp only [cellLine, List.mem_append, List.mem_flatMap, List.mem_singleton] at h
  rcases h with (h | rfl) | ⟨k, -, h | rfl⟩
  · exact ne_nl_of_plain (showNat_plain _) c h
  · decide
  · exact ne_nl_of_plain (showInt_plain _) c h
  · decide

theorem lineCell_eq {e : List ℤ} (hl : (e.length : ℤ) < 2147483648) (hk : ∀ k ∈ e, InRange k) :
    lineCell (cellLine e) = some e := by
  have hne : cellLine e ≠ [] := by simp [cellLine]
  have h1 := readInt_word (b := []) (s := '\t' :: e.flatMap fun k => showInt k ++ ['\t'])
    (z := e.length) ⟨by omega, hl⟩ blanks_nil (by intro c hc; simp at hc; subst hc; exact blank_tab)
  have h2 := dropWhile_word (b := []) (s := '\t' :: e.flatMap fun k => showInt k ++ ['\t']) blanks_nil
    (showNat_ne e.length) (showNat_plain _)
  rw [showInt_natCast] at h1
  have e1 : [] ++ showNat e.length ++ ('\t' :: e.flatMap fun k => showInt k ++ ['\t']) = cellLine e := by
    simp [cellLine]
  rw [e1] at h1 h2
  have e2 : Stream.ofText (cellLine e) = atText (cellLine e) := by rw [atText_good hne]; rfl
  unfold lineCell
  rw [e2]
  simp only [atText_good hne]
  rw [h2, if_neg (by simp [showNat_ne]), ← atText_good hne, h1]
  simp only
  rw [if_neg (by omega), Int.toNat_natCast]
  have := readEntries_eq (f := readInt) (T := fun k => showInt k ++ ['\t']) (V := id) (l := e)
    (fun k hk' => readsAs_int (hk k hk') blank_tab) (n := e.length) le_rfl (b := ['\t'])
    (blanks_cons blank_tab blanks_nil)
  rw [List.singleton_append] at this
  rw [this]
  simp

theorem cells_asLines (l : List (List ℤ)) : l.flatMap cellRow = asLines (l.map cellLine) := by
  rw [asLines, List.flatMap_map]; rfl

/-- The line with the number of elements is a line of its own. -/
theorem cellsLine (n m : ℕ) :
    (∀ c ∈ "CELLS".toList ++ ' ' :: (showNat n ++ '\t' :: showNat m), c ≠ '\n') ∧
    contains "POINT_DATA".toList ("CELLS".toList ++ ' ' :: (showNat n ++ '\t' :: showNat m)) = false ∧
    contains "CELL_DATA".toList ("CELLS".toList ++ ' ' :: (showNat n ++ '\t' :: showNat m)) = false := by
  have hu : '_' ∉ "CELLS".toList ++ ' ' :: (showNat n ++ '\t' :: showNat m) := by
    simp only [List.mem_append, List.mem_cons, not_or]
    refine ⟨by decide, by decide, fun h => ?_, by decide, fun h => ?_⟩
    · have := showNat_digits n _ h
      revert this; decide
    · have := showNat_digits m _ h
      revert this; decide
  refine ⟨?_, not_contains (c := '_') (by decide) hu, not_contains (c := '_') (by decide) hu⟩
  intro c hc
  simp only [List.mem_append, List.mem_cons] at hc
  rcases hc with hc | rfl | hc | rfl | hc
  · revert c; decide
  · decide
  · exact ne_nl_of_plain (showNat_plain n) c hc
  · decide
  · exact ne_nl_of_plain (showNat_plain m) c hc

theorem mapM_map_some {α β : Type} {f : α → Option β} {g : α → β} : ∀ {l : List α},
    (∀ a ∈ l, f a = some (g a)) → l.mapM f = some (l.map g)
  | [], _ => rfl
  | a :: l, h => by
    rw [List.mapM_cons, h a (by simp), mapM_map_some fun a ha => h a (by simp [ha])]; rfl

/-- **C58, cells by lines.** -/
theorem C58_cells_lines {elements : List (List ℤ)} (hn : (elements.length : ℤ) < 2147483648)
    (hk : ∀ e ∈ elements, (e.length : ℤ) < 2147483648 ∧ ∀ k ∈ e, InRange k)
    {r : VtkReader} {ls : List (List Char)} {post : List Char} (hls : ∀ l ∈ ls, Dull "CELLS".toList l)
    (hr : r.ifs = ⟨asLines ls ++ addElements elements ++ post, true⟩) :
    r.importCells = some (elements,
      { r with ifs := ⟨post, true⟩, cellssize := elements.length }) := by
  have hdull : ∀ l ∈ ls ++ [[]], Dull "CELLS".toList l := by
    intro l hl
    rcases List.mem_append.1 hl with hl | hl
    · exact hls l hl
    · rw [List.mem_singleton.1 hl]; exact ⟨by simp, by decide, by decide, by decide⟩
  have e : asLines ls ++ addElements elements ++ post = asLines (ls ++ [[]]) ++
      (("CELLS".toList ++ ' ' :: (showNat elements.length ++ '\t' ::
        showNat (elements.map fun e => e.length + 1).sum)) ++ '\n' ::
          (elements.flatMap cellRow ++ post)) := by
    rw [addElements_eq, asLines, asLines, List.flatMap_append]
    simp only [List.flatMap_cons, List.flatMap_nil, List.append_assoc, List.cons_append,
      List.nil_append]
  rw [e] at hr
  obtain ⟨h1, h2, h3⟩ := cellsLine elements.length (elements.map fun e => e.length + 1).sum
  unfold VtkReader.importCells
  rw [scan_skip _ _ r _ (by
    intro l hl
    obtain ⟨a, b, c, d⟩ := hdull l hl
    exact ⟨a, b, c, fun s => by simp only [d, Bool.false_eq_true, if_false]⟩) hr,
    scan_step _ _ rfl h1, h2, h3]
  simp only [Bool.false_eq_true, if_false, contains_prefix, if_true]
  rw [keywordSize_eq hn (by decide) (by decide) blank_sp (by simpa using blank_tab)]
  rw [if_neg (by omega)]
  simp only
  rw [cells_asLines, Int.toNat_natCast,
    show elements.length = (elements.map cellLine).length by simp,
    readLines_eq (by
      intro l' hl'
      obtain ⟨x, -, rfl⟩ := List.mem_map.1 hl'
      exact cellLine_nl x)]
  simp only
  rw [show (elements.map cellLine).mapM lineCell = some elements by
    rw [List.mapM_map]
    have := mapM_map_some (f := fun e => lineCell (cellLine e)) (g := id) (l := elements)
      (fun e he => lineCell_eq (hk e he).1 (hk e he).2)
    rw [List.map_id] at this
    exact this]
  simp

/-- The lines of the header. -/
def headerLines : List (List Char) :=
  ["# vtk DataFile Version 4.1".toList, "vtk output".toList, "ASCII".toList,
    "DATASET UNSTRUCTURED_GRID".toList]

theorem header_asLines : vtkHeader = asLines headerLines := by decide +kernel

theorem headerLines_dull : ∀ l ∈ headerLines, Dull "POINTS".toList l := by
  intro l hl
  simp only [headerLines, List.mem_cons, List.not_mem_nil, or_false] at hl
  rcases hl with rfl | rfl | rfl | rfl
  · exact ⟨by decide, by decide +kernel, by decide +kernel, by decide +kernel⟩
  · exact ⟨by decide, by decide +kernel, by decide +kernel, by decide +kernel⟩
  · exact ⟨by decide, by decide +kernel, by decide +kernel, by decide +kernel⟩
  · exact ⟨by decide, by decide +kernel, by decide +kernel, by decide +kernel⟩

/-- **C58, the whole file by lines**: an importer opened on a file as the samples write it gives the
points and then the cells, for all meshes and dimensions. -/
theorem C58_file_lines (hc : Converts prt rd val) {nodes : List (List K)}
    (hn : (nodes.length : ℤ) < 2147483648) {elements : List (List ℤ)}
    (he : (elements.length : ℤ) < 2147483648)
    (hk : ∀ e ∈ elements, (e.length : ℤ) < 2147483648 ∧ ∀ k ∈ e, InRange k) (types : List ℤ)
    (post : List Char) {d : ℕ} (h0 : 0 < d) (hd : d < 4) :
    ∃ r r1 : VtkReader, VtkReader.open (vtkFile prt nodes elements types post) d = some r ∧
      r.importPoints rd = some (nodes.map fun x => ((padded x).map val).take d, r1) ∧
      r1.importCells = some (elements, ⟨vtkFile prt nodes elements types post,
        ⟨addElementTypes types ++ post, true⟩, d, 0, nodes.length, elements.length⟩) := by
  refine ⟨⟨vtkFile prt nodes elements types post, Stream.ofText (vtkFile prt nodes elements types post),
    d, 0, 0, 0⟩, ⟨vtkFile prt nodes elements types post,
    ⟨addElements elements ++ (addElementTypes types ++ post), true⟩, d, 0, nodes.length, 0⟩,
    by rw [VtkReader.open, if_pos ⟨h0, hd⟩], ?_, ?_⟩
  · exact C58_points_lines hc hn headerLines_dull h0 hd (post := addElements elements ++
      (addElementTypes types ++ post)) (by
        simp only [vtkFile, header_asLines, Stream.ofText, List.append_assoc])
  · exact C58_cells_lines he hk (ls := []) (post := addElementTypes types ++ post) (by simp) (by
      simp [asLines])

/-! ### C96: values -/

/-- The name of a data set: a word that contains neither `POINT_DATA` nor `CELL_DATA`. -/
def IsSymbol (symbol : List Char) : Prop :=
  symbol ≠ [] ∧ (∀ c ∈ symbol, isBlank c = false) ∧ contains "POINT_DATA".toList symbol = false ∧
    contains "CELL_DATA".toList symbol = false

/-- A line to be passed over when the data set `symbol` of the kind `kw` is looked for: it does not
change the mode, and it is not the first line of this data set. -/
def Passed (kw symbol line : List Char) : Prop :=
  (∀ c ∈ line, c ≠ '\n') ∧ contains "POINT_DATA".toList line = false ∧
    contains "CELL_DATA".toList line = false ∧
    ¬(contains kw line = true ∧ secondWord line = symbol)

/-- The first line of a data set. -/
def dataLine (kw symbol : List Char) : List Char := kw ++ ' ' :: (symbol ++ " float".toList)

theorem dataLine_parts {kw symbol : List Char} (hs : IsSymbol symbol)
    (hkw : kw ≠ [] ∧ (∀ c ∈ kw, isBlank c = false) ∧ '_' ∉ kw) :
    (∀ c ∈ dataLine kw symbol, c ≠ '\n') ∧ contains "POINT_DATA".toList (dataLine kw symbol) = false ∧
      contains "CELL_DATA".toList (dataLine kw symbol) = false ∧
      contains kw (dataLine kw symbol) = true ∧ secondWord (dataLine kw symbol) = symbol := by
  have e1 : " float".toList = ' ' :: "float".toList := by decide +kernel
  have key : ∀ key : List Char, '_' ∈ key → ' ' ∉ key → contains key symbol = false →
      contains key (dataLine kw symbol) = false := by
    intro key hk hsp hno
    rw [contains, decide_eq_false_iff_not] at hno ⊢
    intro h
    rcases infix_split hsp h with h | h
    · exact hkw.2.2 (h.subset hk)
    · rw [e1] at h
      rcases infix_split hsp h with h | h
      · exact hno h
      · exact absurd (h.subset hk) (by decide)
  refine ⟨?_, key _ (by decide) (by decide) hs.2.2.1, key _ (by decide) (by decide) hs.2.2.2,
    contains_prefix _ _, ?_⟩
  · intro c hc
    simp only [dataLine, List.mem_append, List.mem_cons] at hc
    rcases hc with hc | rfl | hc | hc
    · exact ne_nl_of_plain hkw.2.1 c hc
    · decide
    · exact ne_nl_of_plain hs.2.1 c hc
    · revert c; decide
  · exact secondWord_eq hkw.1 hkw.2.1 blank_sp hs.1 hs.2.1 (by
      intro c hc
      rw [e1] at hc
      simp only [List.head?_cons, Option.mem_some_iff] at hc
      rw [← hc]; exact blank_sp)

theorem vectorsWord : "VECTORS".toList ≠ [] ∧ (∀ c ∈ "VECTORS".toList, isBlank c = false) ∧
    '_' ∉ "VECTORS".toList := ⟨by decide, by decide, by decide⟩

theorem scalarsWord : "SCALARS".toList ≠ [] ∧ (∀ c ∈ "SCALARS".toList, isBlank c = false) ∧
    '_' ∉ "SCALARS".toList := ⟨by decide, by decide, by decide⟩

/-- The line with the number of values. -/
theorem numberLine {kw : List Char} (hkw : ∀ c ∈ kw, isBlank c = false) (n : ℕ) :
    ∀ c ∈ kw ++ '\t' :: showNat n, c ≠ '\n' := by
  intro c hc
  simp only [List.mem_append, List.mem_cons] at hc
  rcases hc with hc | rfl | hc
  · exact ne_nl_of_plain hkw c hc
  · decide
  · exact ne_nl_of_plain (showNat_plain n) c hc

/-- The scan arrives at the first line of the data set of the points. -/
theorem scan_points {α : Type} {hit : VtkReader → List Char → Option (Option (List α × VtkReader))}
    {kw symbol : List Char} {r : VtkReader} {ls : List (List Char)} {isheader : Bool} {n : ℕ}
    {rest : List Char} (hn : (n : ℤ) < 2147483648)
    (hhit : ∀ r l, ¬(contains kw l = true ∧ secondWord l = symbol) → hit r l = none)
    (hkw : contains kw [] = false)
    (hls : ∀ l ∈ ls, Passed kw symbol l)
    (hmode : isheader = false → r.mode = 1 ∧ r.pointssize = n)
    (hr : r.ifs = ⟨asLines ls ++ (pointDataLine isheader n ++ rest), true⟩) :
    r.scan hit = VtkReader.scan hit { r with ifs := ⟨rest, true⟩, mode := 1, pointssize := n } := by
  cases isheader with
  | false =>
    obtain ⟨h1, h2⟩ := hmode rfl
    rw [scan_skip hit ls r rest (fun l hl => ⟨(hls l hl).1, (hls l hl).2.1, (hls l hl).2.2.1,
      fun s => hhit _ l (hls l hl).2.2.2⟩) (by simpa [pointDataLine] using hr)]
    congr 1
    cases r
    simp only at h1 h2
    subst h1 h2
    rfl
  | true =>
    have e : asLines ls ++ (pointDataLine true n ++ rest) = asLines (ls ++ [[]]) ++
        (("POINT_DATA".toList ++ '\t' :: showNat n) ++ '\n' :: rest) := by
      rw [asLines, asLines, List.flatMap_append, pointDataLine, if_pos rfl]
      simp only [List.flatMap_cons, List.flatMap_nil, List.append_assoc, List.cons_append,
        List.nil_append]
    rw [e] at hr
    rw [scan_skip hit _ r _ (by
      intro l hl
      rcases List.mem_append.1 hl with hl | hl
      · exact ⟨(hls l hl).1, (hls l hl).2.1, (hls l hl).2.2.1, fun s => hhit _ l (hls l hl).2.2.2⟩
      · rw [List.mem_singleton.1 hl]
        exact ⟨by simp, by decide, by decide, fun s => hhit _ _ (by simp [hkw])⟩) hr,
      scan_step _ _ rfl (numberLine (by decide) n), if_pos (contains_prefix _ _)]
    have := keywordSize_eq (w := "POINT_DATA".toList) (s := []) hn (by decide) (by decide) blank_tab
      (by simp) r.pointssize
    rw [List.append_nil] at this
    rw [this]

/-- The scan arrives at the first line of the data set of the elements. -/
theorem scan_cells {α : Type} {hit : VtkReader → List Char → Option (Option (List α × VtkReader))}
    {kw symbol : List Char} {r : VtkReader} {ls : List (List Char)} {isheader : Bool} {n : ℕ}
    {rest : List Char} (hn : (n : ℤ) < 2147483648)
    (hhit : ∀ r l, ¬(contains kw l = true ∧ secondWord l = symbol) → hit r l = none)
    (hkw : contains kw [] = false)
    (hls : ∀ l ∈ ls, Passed kw symbol l)
    (hmode : isheader = false → r.mode = 2 ∧ r.cellssize = n)
    (hr : r.ifs = ⟨asLines ls ++ (cellDataLine isheader n ++ rest), true⟩) :
    r.scan hit = VtkReader.scan hit { r with ifs := ⟨rest, true⟩, mode := 2, cellssize := n } := by
  cases isheader with
  | false =>
    obtain ⟨h1, h2⟩ := hmode rfl
    rw [scan_skip hit ls r rest (fun l hl => ⟨(hls l hl).1, (hls l hl).2.1, (hls l hl).2.2.1,
      fun s => hhit _ l (hls l hl).2.2.2⟩) (by simpa [cellDataLine] using hr)]
    congr 1
    cases r
    simp only at h1 h2
    subst h1 h2
    rfl
  | true =>
    have e : asLines ls ++ (cellDataLine true n ++ rest) = asLines (ls ++ [[]]) ++
        (("CELL_DATA".toList ++ '\t' :: showNat n) ++ '\n' :: rest) := by
      rw [asLines, asLines, List.flatMap_append, cellDataLine, if_pos rfl]
      simp only [List.flatMap_cons, List.flatMap_nil, List.append_assoc, List.cons_append,
        List.nil_append]
    rw [e] at hr
    rw [scan_skip hit _ r _ (by
      intro l hl
      rcases List.mem_append.1 hl with hl | hl
      · exact ⟨(hls l hl).1, (hls l hl).2.1, (hls l hl).2.2.1, fun s => hhit _ l (hls l hl).2.2.2⟩
      · rw [List.mem_singleton.1 hl]
        exact ⟨by simp, by decide, by decide, fun s => hhit _ _ (by simp [hkw])⟩) hr,
      scan_step _ _ rfl (numberLine (by decide) n), if_neg (by
        rw [not_contains (c := 'P') (by decide)]
        · simp
        · simp only [List.mem_append, List.mem_cons, not_or]
          refine ⟨by decide, by decide, fun h => ?_⟩
          have := showNat_small n _ h
          revert this; decide), if_pos (contains_prefix _ _)]
    have := keywordSize_eq (w := "CELL_DATA".toList) (s := []) hn (by decide) (by decide) blank_tab
      (by simp) r.cellssize
    rw [List.append_nil] at this
    rw [this]

/-- **C96, vectors at the points.**  Whatever data sets stand before it, `ImportPOINTVECTORS` called
with the symbol gives the vectors written by `AddPointVectors`: as many components as the dimension
says, zeros where the vector has fewer, each as the conversion to text and back makes it. -/
theorem C96_point_vectors (hc : Converts prt rd val) {values : List (List K)}
    (hn : (values.length : ℤ) < 2147483648) {symbol : List Char} (hs : IsSymbol symbol)
    {isheader : Bool} {r : VtkReader} {ls : List (List Char)} {post : List Char}
    (hls : ∀ l ∈ ls, Passed "VECTORS".toList symbol l) (h0 : 0 < r.dimension) (hd : r.dimension < 4)
    (hmode : isheader = false → r.mode = 1 ∧ r.pointssize = values.length)
    (hr : r.ifs = ⟨asLines ls ++ addPointVectors prt values symbol isheader ++ post, true⟩) :
    r.importPointVectors rd symbol =
      some (values.map fun x => ((padded x).map val).take r.dimension,
        { r with ifs := ⟨post, true⟩, mode := 1, pointssize := values.length }) := by
  obtain ⟨h1, h2, h3, h4, h5⟩ := dataLine_parts hs vectorsWord
  have e : asLines ls ++ addPointVectors prt values symbol isheader ++ post = asLines ls ++
      (pointDataLine isheader values.length ++ (dataLine "VECTORS".toList symbol ++ '\n' ::
        (values.flatMap (vtkRow prt) ++ post))) := by
    simp only [addPointVectors, dataLine, List.append_assoc, List.cons_append, List.nil_append]
  rw [e] at hr
  unfold VtkReader.importPointVectors
  rw [scan_points (kw := "VECTORS".toList) (symbol := symbol) hn
    (fun r l h => by rw [if_neg (fun h' => h h'.2)]) (by decide) hls hmode hr,
    scan_step _ _ rfl h1, h2, h3]
  simp only [Bool.false_eq_true, if_false, h4, h5, and_self, if_true]
  exact vectors_eq (r := { r with ifs := ⟨values.flatMap (vtkRow prt) ++ post, true⟩, mode := 1,
                                  pointssize := values.length }) hc rfl h0 hd _

theorem scalars_asLines (l : List K) :
    (l.flatMap fun v => prt v ++ ['\n']) = asLines (l.map prt) := by
  rw [asLines, List.flatMap_map]

theorem scalars_eq (hc : Converts prt rd val) {l : List K} {r : VtkReader} {post : List Char}
    (hr : r.ifs = ⟨"LOOKUP_TABLE default".toList ++ '\n' ::
      ((l.flatMap fun v => prt v ++ ['\n']) ++ post), true⟩) (str : List Char) :
    r.scalars rd (l.length : ℤ) str = some (l.map val, { r with ifs := ⟨post, true⟩ }) := by
  unfold VtkReader.scalars
  rw [if_neg (by omega), hr, getline_stop (by decide)]
  simp only
  rw [scalars_asLines, Int.toNat_natCast,
    show l.length = (l.map prt).length by simp,
    readLines_eq (by
      intro l' hl'
      obtain ⟨x, -, rfl⟩ := List.mem_map.1 hl'
      exact ne_nl_of_plain (hc.plain x))]
  simp only [List.map_map, Function.comp_def]
  congr 2
  refine List.map_congr_left fun x _ => ?_
  have h := readNum_word hc x (b := []) (s := []) blanks_nil (by simp)
  rw [List.nil_append, List.append_nil] at h
  have e : Stream.ofText (prt x) = atText (prt x) := (atText_good (hc.ne x)).symm
  rw [e]
  simp [readEntries, h]

/-- **C96, scalars at the points.** -/
theorem C96_point_scalars (hc : Converts prt rd val) {values : List K}
    (hn : (values.length : ℤ) < 2147483648) {symbol : List Char} (hs : IsSymbol symbol)
    {isheader : Bool} {r : VtkReader} {ls : List (List Char)} {post : List Char}
    (hls : ∀ l ∈ ls, Passed "SCALARS".toList symbol l)
    (hmode : isheader = false → r.mode = 1 ∧ r.pointssize = values.length)
    (hr : r.ifs = ⟨asLines ls ++ addPointScalers prt values symbol isheader ++ post, true⟩) :
    r.importPointScalars rd symbol = some (values.map val,
        { r with ifs := ⟨post, true⟩, mode := 1, pointssize := values.length }) := by
  obtain ⟨h1, h2, h3, h4, h5⟩ := dataLine_parts hs scalarsWord
  have e : asLines ls ++ addPointScalers prt values symbol isheader ++ post = asLines ls ++
      (pointDataLine isheader values.length ++ (dataLine "SCALARS".toList symbol ++ '\n' ::
        ("LOOKUP_TABLE default".toList ++ '\n' ::
          ((values.flatMap fun v => prt v ++ ['\n']) ++ post)))) := by
    unfold addPointScalers scalarsHead dataLine
    generalize "LOOKUP_TABLE default".toList = w
    simp only [List.append_assoc, List.cons_append, List.nil_append]
  rw [e] at hr
  unfold VtkReader.importPointScalars
  rw [scan_points (kw := "SCALARS".toList) (symbol := symbol) hn
    (fun r l h => by rw [if_neg (fun h' => h h'.2)]) (by decide) hls hmode hr,
    scan_step _ _ rfl h1, h2, h3]
  simp only [Bool.false_eq_true, if_false, h4, h5, and_self, if_true]
  exact scalars_eq (r := { r with ifs := ⟨"LOOKUP_TABLE default".toList ++ '\n' ::
    ((values.flatMap fun v => prt v ++ ['\n']) ++ post), true⟩, mode := 1,
                                  pointssize := values.length }) hc rfl _

/-- **C96, scalars at the elements.** -/
theorem C96_cell_scalars (hc : Converts prt rd val) {values : List K}
    (hn : (values.length : ℤ) < 2147483648) {symbol : List Char} (hs : IsSymbol symbol)
    {isheader : Bool} {r : VtkReader} {ls : List (List Char)} {post : List Char}
    (hls : ∀ l ∈ ls, Passed "SCALARS".toList symbol l)
    (hmode : isheader = false → r.mode = 2 ∧ r.cellssize = values.length)
    (hr : r.ifs = ⟨asLines ls ++ addElementScalers prt values symbol isheader ++ post, true⟩) :
    r.importCellScalars rd symbol = some (values.map val,
        { r with ifs := ⟨post, true⟩, mode := 2, cellssize := values.length }) := by
  obtain ⟨h1, h2, h3, h4, h5⟩ := dataLine_parts hs scalarsWord
  have e : asLines ls ++ addElementScalers prt values symbol isheader ++ post = asLines ls ++
      (cellDataLine isheader values.length ++ (dataLine "SCALARS".toList symbol ++ '\n' ::
        ("LOOKUP_TABLE default".toList ++ '\n' ::
          ((values.flatMap fun v => prt v ++ ['\n']) ++ post)))) := by
    unfold addElementScalers scalarsHead dataLine
    generalize "LOOKUP_TABLE default".toList = w
    simp only [List.append_assoc, List.cons_append, List.nil_append]
  rw [e] at hr
  unfold VtkReader.importCellScalars
  rw [scan_cells (kw := "SCALARS".toList) (symbol := symbol) hn
    (fun r l h => by rw [if_neg (fun h' => h h'.2)]) (by decide) hls hmode hr,
    scan_step _ _ rfl h1, h2, h3]
  simp only [Bool.false_eq_true, if_false, h4, h5, and_self, if_true]
  exact scalars_eq (r := { r with ifs := ⟨"LOOKUP_TABLE default".toList ++ '\n' ::
    ((values.flatMap fun v => prt v ++ ['\n']) ++ post), true⟩, mode := 2,
                                  cellssize := values.length }) hc rfl _

/-- **C96, the overload for vectors** writes the same text if every vector has one component. -/
theorem C96_one_component (values : List K) (symbol : List Char) (isheader : Bool) :
    addPointScalersVector prt (values.map fun v => [v]) symbol isheader =
      addPointScalers prt values symbol isheader := by
  simp [addPointScalersVector, addPointScalers, List.flatMap_map]

/-! ### C97: the order of the calls -/

theorem types_asLines (types : List ℤ) : addElementTypes types =
    asLines ([] :: ("CELL_TYPES".toList ++ '\t' :: showNat types.length) :: types.map showInt) := by
  rw [addElementTypes_eq, asLines]
  simp only [List.flatMap_cons, List.append_assoc, List.cons_append, List.nil_append,
    List.flatMap_map]

theorem dull_of_small {key line : List Char} (h : ∀ c ∈ line, isBlank c = false)
    (hu : ∀ c ∈ line, c.isUpper = false) {c : Char} (hc : c ∈ key) (hcu : c.isUpper = true) :
    Dull key line := by
  refine ⟨ne_nl_of_plain h, not_contains (c := 'P') (by decide) fun h => ?_,
    not_contains (c := 'C') (by decide) fun h => ?_, not_contains hc fun h => ?_⟩
  · have := hu _ h; revert this; decide
  · have := hu _ h; revert this; decide
  · rw [hu _ h] at hcu; cases hcu

theorem types_dull (types : List ℤ) : ∀ l ∈ [] :: ("CELL_TYPES".toList ++ '\t' ::
    showNat types.length) :: types.map showInt, Dull "POINTS".toList l := by
  have hn : ∀ c : Char, c.isUpper = true → c ∉ showNat types.length := fun c hc h => by
    rw [showNat_small _ c h] at hc; cases hc
  intro l hl
  rcases List.mem_cons.1 hl with rfl | hl
  · exact ⟨by simp, by decide, by decide, by decide⟩
  rcases List.mem_cons.1 hl with rfl | hl
  · refine ⟨numberLine (by decide) _, not_contains (c := 'O') (by decide) ?_,
      not_contains (c := 'D') (by decide) ?_, not_contains (c := 'O') (by decide) ?_⟩ <;>
    · simp only [List.mem_append, List.mem_cons, not_or]
      exact ⟨by decide, by decide, hn _ (by decide)⟩
  · obtain ⟨z, -, rfl⟩ := List.mem_map.1 hl
    exact dull_of_small (showInt_plain z) (showInt_small z) (c := 'P') (by decide) (by decide)

/-- **C97 is false**, for every mesh: once the cells have been imported, `ImportPOINTS` gives no points
at all, because it goes on from where the stream is.  (It sets the stream to the beginning of the file
then.) -/
theorem C97_order_false (hc : Converts prt rd val) {nodes : List (List K)}
    (hn : (nodes.length : ℤ) < 2147483648) {elements : List (List ℤ)}
    (he : (elements.length : ℤ) < 2147483648)
    (hk : ∀ e ∈ elements, (e.length : ℤ) < 2147483648 ∧ ∀ k ∈ e, InRange k) (types : List ℤ)
    {d : ℕ} (h0 : 0 < d) (hd : d < 4) :
    ∃ r r1 r2 r3 : VtkReader, VtkReader.open (vtkFile prt nodes elements types []) d = some r ∧
      r.importPoints rd = some (nodes.map fun x => ((padded x).map val).take d, r1) ∧
      r1.importCells = some (elements, r2) ∧
      r2.importPoints rd = some (([] : List (List K)), r3) := by
  obtain ⟨r, r1, h1, h2, h3⟩ := C58_file_lines hc hn he hk types [] h0 hd
  refine ⟨r, r1, _, ⟨vtkFile prt nodes elements types [], Stream.ofText (vtkFile prt nodes elements
    types []), d, 0, nodes.length, elements.length⟩, h1, h2, h3, ?_⟩
  unfold VtkReader.importPoints
  rw [scan_skip _ _ _ [] (by
    intro l hl
    obtain ⟨a, b, c, e⟩ := types_dull types l hl
    exact ⟨a, b, c, fun s => by simp only [e, Bool.false_eq_true, if_false]⟩) (by
      simp only [types_asLines, List.append_nil]), scan_end _ _ rfl]

/-- **C97, what is left**: after a call that found nothing the stream is at the beginning of the file
again, and `ImportPOINTS` finds the points.  Missing for C97: the functions find their section
whatever was called before. -/
theorem C97_again_partial (hc : Converts prt rd val) {nodes : List (List K)}
    (hn : (nodes.length : ℤ) < 2147483648) {elements : List (List ℤ)}
    (he : (elements.length : ℤ) < 2147483648)
    (hk : ∀ e ∈ elements, (e.length : ℤ) < 2147483648 ∧ ∀ k ∈ e, InRange k) (types : List ℤ)
    {d : ℕ} (h0 : 0 < d) (hd : d < 4) :
    ∃ r r1 r2 r3 r4 : VtkReader, VtkReader.open (vtkFile prt nodes elements types []) d = some r ∧
      r.importPoints rd = some (nodes.map fun x => ((padded x).map val).take d, r1) ∧
      r1.importCells = some (elements, r2) ∧
      r2.importPoints rd = some (([] : List (List K)), r3) ∧
      r3.importPoints rd = some (nodes.map fun x => ((padded x).map val).take d, r4) := by
  obtain ⟨r, r1, h1, h2, h3⟩ := C58_file_lines hc hn he hk types [] h0 hd
  refine ⟨r, r1, _, ⟨vtkFile prt nodes elements types [], Stream.ofText (vtkFile prt nodes elements
    types []), d, 0, nodes.length, elements.length⟩, _, h1, h2, h3, ?_,
    C58_points_lines hc hn headerLines_dull h0 hd (post := addElements elements ++
      (addElementTypes types ++ [])) (by
        simp only [vtkFile, header_asLines, Stream.ofText, List.append_assoc])⟩
  unfold VtkReader.importPoints
  rw [scan_skip _ _ _ [] (by
    intro l hl
    obtain ⟨a, b, c, e⟩ := types_dull types l hl
    exact ⟨a, b, c, fun s => by simp only [e, Bool.false_eq_true, if_false]⟩) (by
      simp only [types_asLines, List.append_nil]), scan_end _ _ rfl]

/-! ### Cases -/

example : ∃ r r1 r2 : VtkReader,
    VtkReader.open (vtkFile showInt [[1, -2], [30, 4]] [[0, 1], [1, 0]] [3, 3] []) 2 = some r ∧
      r.importPoints rdInt = some ([[1, -2], [30, 4]], r1) ∧
      r1.importCells = some ([[0, 1], [1, 0]], r2) := by
  obtain ⟨r, r1, h1, h2, h3⟩ := C58_file_lines converts_int (nodes := [[1, -2], [30, 4]])
    (elements := [[0, 1], [1, 0]]) (by decide) (by decide) (by simp [InRange]) [3, 3] []
    (d := 2) (by decide) (by decide)
  exact ⟨r, r1, _, h1, by simpa [padded] using h2, h3⟩

/-- The data set `u` of vectors behind the data set `t` of scalars. -/
example : ∃ r' : VtkReader, VtkReader.importPointVectors rdInt ['u']
    ⟨[], ⟨addPointScalers showInt [7, 8] ['t'] true ++
      addPointVectors showInt [[1, -2], [30, 4]] ['u'] false, true⟩, 3, 1, 2, 0⟩ =
    some ([[1, -2, 0], [30, 4, 0]], r') := by
  have e : addPointScalers showInt [7, 8] ['t'] true = asLines [[], "POINT_DATA\t2".toList,
      "SCALARS t float".toList, "LOOKUP_TABLE default".toList, ['7'], ['8']] := by decide +kernel
  have hsym : IsSymbol ['u'] := ⟨by decide, by decide, by decide, by decide⟩
  -- the line with the number of points sets the mode again
  rw [VtkReader.importPointVectors, e]
  rw [scan_step (line := []) (rest := asLines ["POINT_DATA\t2".toList,
      "SCALARS t float".toList, "LOOKUP_TABLE default".toList, ['7'], ['8']] ++
      addPointVectors showInt [[1, -2], [30, 4]] ['u'] false) _ _ (by simp [asLines]) (by simp)]
  simp only [show contains "POINT_DATA".toList [] = false by decide,
    show contains "CELL_DATA".toList [] = false by decide,
    show contains "VECTORS".toList [] = false by decide, Bool.false_eq_true, if_false, false_and,
    and_false]
  rw [scan_step (line := "POINT_DATA\t2".toList) (rest := asLines [
      "SCALARS t float".toList, "LOOKUP_TABLE default".toList, ['7'], ['8']] ++
      addPointVectors showInt [[1, -2], [30, 4]] ['u'] false) _ _ (by
        rw [asLines_cons]) (by decide),
    if_pos (by decide +kernel), show keywordSize "POINT_DATA\t2".toList 2 = 2 by decide +kernel]
  have := C96_point_vectors converts_int (values := [[1, -2], [30, 4]]) (by decide) hsym
    (isheader := false) (post := []) (ls := ["SCALARS t float".toList,
      "LOOKUP_TABLE default".toList, ['7'], ['8']])
    (r := ⟨[], ⟨asLines ["SCALARS t float".toList, "LOOKUP_TABLE default".toList, ['7'], ['8']] ++
      addPointVectors showInt [[1, -2], [30, 4]] ['u'] false, true⟩, 3, 1, 2, 0⟩) (by
        intro l hl
        simp only [List.mem_cons, List.not_mem_nil, or_false] at hl
        rcases hl with rfl | rfl | rfl | rfl
        · exact ⟨by decide, by decide +kernel, by decide +kernel, by decide +kernel⟩
        · exact ⟨by decide, by decide +kernel, by decide +kernel, by decide +kernel⟩
        · exact ⟨by decide, by decide +kernel, by decide +kernel, by decide +kernel⟩
        · exact ⟨by decide, by decide +kernel, by decide +kernel, by decide +kernel⟩)
    (by decide) (by decide) (fun _ => ⟨rfl, rfl⟩) (by simp)
  exact ⟨⟨[], ⟨[], true⟩, 3, 1, 2, 0⟩, this.trans (by simp [padded])⟩

end Pansfem
