/-
C58: points and cells written to a VTK file are read back (importer by words, ImportFromVTK2.h).
-/
import Verif.Lemmas.Vtk
import Mathlib.Data.Set.Finite.List
import Mathlib.Data.Set.Finite.Basic
import Mathlib.Data.Rat.Encodable
import Mathlib.Algebra.CharZero.Infinite

namespace Pansfem

variable {K : Type} [Zero K] {prt : K → List Char} {rd : List Char → Option (K × ℕ)} {val : K → K}

/-- The words of a text, each with the character behind it. -/
theorem layout_words {l : List (List Char × Char)}
    (h : ∀ p ∈ l, p.1 ≠ [] ∧ (∀ c ∈ p.1, isBlank c = false) ∧ isBlank p.2 = true) :
    Layout (l.map Prod.fst) (l.flatMap fun p => p.1 ++ [p.2]) ∧
      EndsBlank (l.flatMap fun p => p.1 ++ [p.2]) := by
  have := layout_flatMap (l := l) (T := fun p => p.1 ++ [p.2]) (W := fun p => [p.1])
    (fun p hp => ⟨Layout.word (h p hp).1 (h p hp).2.1 (h p hp).2.2,
      endsBlank_snoc _ (h p hp).2.2⟩)
  rwa [show l.flatMap (fun p => [p.1]) = l.map Prod.fst by
    clear h this; induction l <;> simp_all] at this

theorem addPoints_eq (nodes : List (List K)) : addPoints prt nodes =
    '\n' :: ("POINTS".toList ++ '\t' :: (showNat nodes.length ++ '\t' :: ("float".toList ++
      '\n' :: nodes.flatMap (vtkRow prt)))) := by
  simp only [addPoints, List.append_assoc, List.cons_append, List.nil_append]

theorem addElements_eq (elements : List (List ℤ)) : addElements elements =
    '\n' :: ("CELLS".toList ++ ' ' :: (showNat elements.length ++ '\t' ::
      (showNat (elements.map fun e => e.length + 1).sum ++ '\n' :: elements.flatMap cellRow))) := by
  simp only [addElements, List.append_assoc, List.cons_append, List.nil_append]

theorem addElementTypes_eq (types : List ℤ) : addElementTypes types =
    '\n' :: ("CELL_TYPES".toList ++ '\t' :: (showNat types.length ++ '\n' ::
      types.flatMap fun t => showInt t ++ ['\n'])) := by
  simp only [addElementTypes, List.append_assoc, List.cons_append, List.nil_append]

/-- The words of the header. -/
def headerWords : List (List Char × Char) :=
  [("#".toList, ' '), ("vtk".toList, ' '), ("DataFile".toList, ' '), ("Version".toList, ' '),
    ("4.1".toList, '\n'), ("vtk".toList, ' '), ("output".toList, '\n'), ("ASCII".toList, '\n'),
    ("DATASET".toList, ' '), ("UNSTRUCTURED_GRID".toList, '\n')]

theorem header_layout : Layout (headerWords.map Prod.fst) vtkHeader ∧ EndsBlank vtkHeader := by
  have h := layout_words (l := headerWords) (by decide)
  rwa [show headerWords.flatMap (fun p => p.1 ++ [p.2]) = vtkHeader by decide] at h

theorem row_layout (hc : Converts prt rd val) (x : List K) :
    Layout ((padded x).map prt) (vtkRow prt x) ∧ EndsBlank (vtkRow prt x) := by
  have h := layout_words (l := (padded x).map fun a => (prt a, '\t')) (by
    intro p hp
    obtain ⟨a, -, rfl⟩ := List.mem_map.1 hp
    exact ⟨hc.ne a, hc.plain a, blank_tab⟩)
  rw [List.map_map, List.flatMap_map] at h
  have := h.1.append h.2 (Layout.blank (b := ['\n']) (by decide))
  rw [List.append_nil] at this
  exact ⟨this, endsBlank_snoc _ (by decide)⟩

/-- The words of the points. -/
theorem points_layout (hc : Converts prt rd val) (nodes : List (List K)) :
    Layout (["POINTS".toList, showNat nodes.length, "float".toList] ++
        nodes.flatMap fun x => (padded x).map prt) (addPoints prt nodes) ∧
      EndsBlank (addPoints prt nodes) := by
  have h1 := layout_words (l := [("POINTS".toList, '\t'), (showNat nodes.length, '\t'),
    ("float".toList, '\n')]) (by
      intro p hp
      simp only [List.mem_cons, List.not_mem_nil, or_false] at hp
      rcases hp with rfl | rfl | rfl
      · exact ⟨by decide, by decide, by decide⟩
      · exact ⟨showNat_ne _, showNat_plain _, blank_tab⟩
      · exact ⟨by decide, by decide, by decide⟩)
  have h2 := layout_flatMap (l := nodes) (T := vtkRow prt) (W := fun x => (padded x).map prt)
    (fun x _ => row_layout hc x)
  have h3 := (h1.1.append h1.2 h2.1).prepend blanks_nl
  have h4 : EndsBlank ['\n'] := endsBlank_snoc [] blank_nl
  have h5 := h4.append (h1.2.append h2.2)
  have e : ['\n'] ++ (([("POINTS".toList, '\t'), (showNat nodes.length, '\t'),
      ("float".toList, '\n')].flatMap fun p => p.1 ++ [p.2]) ++ nodes.flatMap (vtkRow prt)) =
      addPoints prt nodes := by
    rw [addPoints_eq]
    simp only [List.flatMap_cons, List.flatMap_nil, List.append_assoc, List.cons_append,
      List.nil_append]
  rw [e] at h3 h5
  exact ⟨h3, h5⟩

/-- The words of an element. -/
def cellWords (e : List ℤ) : List (List Char) := showNat e.length :: e.map showInt

theorem cell_layout (e : List ℤ) : Layout (cellWords e) (cellRow e) ∧ EndsBlank (cellRow e) := by
  have h1 := Layout.word (showNat_ne e.length) (showNat_plain e.length) (c := '\t') (by decide)
  have h2 := layout_words (l := e.map fun k => (showInt k, '\t')) (by
    intro p hp
    obtain ⟨a, -, rfl⟩ := List.mem_map.1 hp
    exact ⟨showInt_ne a, showInt_plain a, blank_tab⟩)
  rw [List.map_map, List.flatMap_map] at h2
  have h3 := h1.append (endsBlank_snoc _ (by decide)) h2.1
  have h4 := h3.append ((endsBlank_snoc _ (by decide)).append h2.2)
    (Layout.blank (b := ['\n']) (by decide))
  rw [List.append_nil] at h4
  exact ⟨h4, endsBlank_snoc _ (by decide)⟩

/-- The words of the elements. -/
theorem elements_layout (elements : List (List ℤ)) :
    Layout (["CELLS".toList, showNat elements.length,
        showNat (elements.map fun e => e.length + 1).sum] ++ elements.flatMap cellWords)
      (addElements elements) ∧ EndsBlank (addElements elements) := by
  have h1 := layout_words (l := [("CELLS".toList, ' '), (showNat elements.length, '\t'),
    (showNat (elements.map fun e => e.length + 1).sum, '\n')]) (by
      intro p hp
      simp only [List.mem_cons, List.not_mem_nil, or_false] at hp
      rcases hp with rfl | rfl | rfl
      · exact ⟨by decide, by decide, by decide⟩
      · exact ⟨showNat_ne _, showNat_plain _, blank_tab⟩
      · exact ⟨showNat_ne _, showNat_plain _, blank_nl⟩)
  have h2 := layout_flatMap (l := elements) (T := cellRow) (W := cellWords)
    (fun x _ => cell_layout x)
  have h3 := (h1.1.append h1.2 h2.1).prepend blanks_nl
  have h4 : EndsBlank ['\n'] := endsBlank_snoc [] blank_nl
  have h5 := h4.append (h1.2.append h2.2)
  have e : ['\n'] ++ (([("CELLS".toList, ' '), (showNat elements.length, '\t'),
      (showNat (elements.map fun e => e.length + 1).sum, '\n')].flatMap fun p => p.1 ++ [p.2]) ++
        elements.flatMap cellRow) = addElements elements := by
    rw [addElements_eq]
    simp only [List.flatMap_cons, List.flatMap_nil, List.append_assoc, List.cons_append,
      List.nil_append]
  rw [e] at h3 h5
  exact ⟨h3, h5⟩

/-- The words of the element types. -/
theorem types_layout (types : List ℤ) :
    Layout (["CELL_TYPES".toList, showNat types.length] ++ types.map showInt)
      (addElementTypes types) := by
  have h1 := layout_words (l := [("CELL_TYPES".toList, '\t'), (showNat types.length, '\n')] ++
    types.map fun k => (showInt k, '\n')) (by
      intro p hp
      rcases List.mem_append.1 hp with hp | hp
      · simp only [List.mem_cons, List.not_mem_nil, or_false] at hp
        rcases hp with rfl | rfl
        · exact ⟨by decide, by decide, by decide⟩
        · exact ⟨showNat_ne _, showNat_plain _, blank_nl⟩
      · obtain ⟨a, -, rfl⟩ := List.mem_map.1 hp
        exact ⟨showInt_ne a, showInt_plain a, blank_nl⟩)
  have h3 := h1.1.prepend blanks_nl
  have e : ['\n'] ++ (([("CELL_TYPES".toList, '\t'), (showNat types.length, '\n')] ++
      types.map fun k => (showInt k, '\n')).flatMap fun p => p.1 ++ [p.2]) =
      addElementTypes types := by
    rw [addElementTypes_eq]
    simp only [List.flatMap_append, List.flatMap_cons, List.flatMap_nil, List.append_assoc,
      List.cons_append, List.nil_append, List.flatMap_map]
  rw [e] at h3
  rw [List.map_append, List.map_map] at h3
  exact h3

theorem showNat_small (n : ℕ) : ∀ c ∈ showNat n, c.isUpper = false := by
  intro c hc
  have h := showNat_digits n c hc
  simp only [Char.isDigit, Bool.and_eq_true, decide_eq_true_eq, Char.isUpper,
    decide_eq_false_iff_not] at h ⊢
  intro h2
  have h3 := h.2
  have h4 := h2.1
  rw [ge_iff_le, UInt32.le_iff_toNat_le] at h4
  rw [UInt32.le_iff_toNat_le] at h3
  have h5 := h4.trans h3
  revert h5
  decide

theorem showInt_small (z : ℤ) : ∀ c ∈ showInt z, c.isUpper = false := by
  unfold showInt; split
  · intro c hc
    rcases List.mem_cons.1 hc with rfl | hc
    · decide
    · exact showNat_small _ c hc
  · exact showNat_small _

/-- A word without capital letters is no keyword. -/
theorem ne_of_small {w key : List Char} (h : ∀ c ∈ w, c.isUpper = false) {c : Char} (hc : c ∈ key)
    (hu : c.isUpper = true) : key ≠ w := by
  rintro rfl
  rw [h c hc] at hu; cases hu

/-- **C58, points by words.**  Whatever stands before and after the points in the file, provided the
word `POINTS` is not there, `GenerateNodes` reads back the points written by `AddPointsToVTK`, with
zeros up to the third coordinate; every coordinate is what the conversion to text and back makes of
it. -/
theorem C58_nodes (hc : Converts prt rd val) {nodes : List (List K)}
    (hn : (nodes.length : ℤ) < 2147483648) (h3 : ∀ x ∈ nodes, x.length ≤ 3)
    {pre post : List Char} {ws vs : List (List Char)} (hpre : Layout ws pre)
    (hws : "POINTS".toList ∉ ws) (hpost : Layout vs post) (hvs : "POINTS".toList ∉ vs) :
    generateNodes rd (pre ++ addPoints prt nodes ++ post) =
      some (nodes.map fun x => (padded x).map val) := by
  have hb := readsAs_block (f := readTriple rd) (T := vtkRow prt) (V := fun x => (padded x).map val)
    (l := nodes) (w := "float".toList) (a := '\t') (b := '\t') (c := '\n') (d := 'x') hn
    (fun x hx => readsAs_triple hc (h3 x hx)) (by decide) (by decide) (by decide) (by decide)
    (by decide)
  have := scanWords_block (hf := noLonger_readTimes (noLonger_readNum rd) 3)
    (key := "POINTS".toList) (c := '\n') hpre hws hpost hvs
    (by decide) (by decide) (by decide) (by decide) hb
  have e : pre ++ addPoints prt nodes ++ post = pre ++ '\n' :: "POINTS".toList ++
      '\t' :: (showNat nodes.length ++ '\t' :: ("float".toList ++
        '\n' :: nodes.flatMap (vtkRow prt))) ++ post := by
    rw [addPoints_eq]
    simp only [List.append_assoc, List.cons_append, List.nil_append]
  rw [generateNodes, e]
  exact this

/-- **C58, cells by words.** -/
theorem C58_elements {elements : List (List ℤ)} (hn : (elements.length : ℤ) < 2147483648)
    (hk : ∀ e ∈ elements, (e.length : ℤ) < 2147483648 ∧ ∀ k ∈ e, InRange k)
    {pre post : List Char} {ws vs : List (List Char)} (hpre : Layout ws pre)
    (hws : "CELLS".toList ∉ ws) (hpost : Layout vs post) (hvs : "CELLS".toList ∉ vs) :
    generateElements (pre ++ addElements elements ++ post) = some elements := by
  have hb := readsAs_block (f := readCell) (T := cellRow) (V := id)
    (l := elements) (w := showNat (elements.map fun e => e.length + 1).sum) (a := ' ') (b := '\t')
    (c := '\n') (d := 'x') hn (fun e he => readsAs_cell (hk e he).2 (hk e he).1) (showNat_ne _)
    (showNat_plain _) (by decide) (by decide) (by decide)
  have := scanWords_block (hf := noLonger_readCell) (key := "CELLS".toList) (c := '\n') hpre hws hpost
    hvs (by decide) (by decide) (by decide) (by decide) hb
  rw [List.map_id] at this
  rw [← this, generateElements]
  rw [addElements_eq]
  simp only [List.append_assoc, List.cons_append, List.nil_append]

/-- The file written by the samples: header, points, elements, types, and what comes after. -/
def vtkFile (prt : K → List Char) (nodes : List (List K)) (elements : List (List ℤ))
    (types : List ℤ) (post : List Char) : List Char :=
  vtkHeader ++ addPoints prt nodes ++ addElements elements ++ addElementTypes types ++ post

theorem post_layout {types : List ℤ} {post : List Char} {vs : List (List Char)}
    (hpost : Layout vs post) :
    Layout ((["CELL_TYPES".toList, showNat types.length] ++ types.map showInt) ++ vs)
      (addElementTypes types ++ post) := by
  have h1 := types_layout types
  have h2 : EndsBlank (addElementTypes types) := by
    rw [addElementTypes_eq]
    have h4 := (layout_words (l := types.map fun k => (showInt k, '\n')) (by
      intro p hp
      obtain ⟨a, -, rfl⟩ := List.mem_map.1 hp
      exact ⟨showInt_ne a, showInt_plain a, blank_nl⟩)).2
    rw [List.flatMap_map] at h4
    have h5 := (endsBlank_snoc ('\n' :: ("CELL_TYPES".toList ++ '\t' :: showNat types.length))
      blank_nl).append h4
    simpa only [List.append_assoc, List.cons_append, List.nil_append] using h5
  exact h1.append h2 hpost

/-- **C58, the whole file by words**: from a file as the samples write it, `GenerateNodes` and
`GenerateElements` give back the points and the elements, for all meshes. -/
theorem C58_file (hc : Converts prt rd val) {nodes : List (List K)}
    (hn : (nodes.length : ℤ) < 2147483648) (h3 : ∀ x ∈ nodes, x.length ≤ 3)
    {elements : List (List ℤ)} (he : (elements.length : ℤ) < 2147483648)
    (hk : ∀ e ∈ elements, (e.length : ℤ) < 2147483648 ∧ ∀ k ∈ e, InRange k) (types : List ℤ)
    {post : List Char} {vs : List (List Char)} (hpost : Layout vs post)
    (hp : "POINTS".toList ∉ vs) (hq : "CELLS".toList ∉ vs) :
    generateNodes rd (vtkFile prt nodes elements types post) =
        some (nodes.map fun x => (padded x).map val) ∧
      generateElements (vtkFile prt nodes elements types post) = some elements := by
  have hint : ∀ key : List Char, (∃ c ∈ key, c.isUpper = true) → ∀ z, key ≠ showInt z :=
    fun key ⟨c, hc, hu⟩ z => ne_of_small (showInt_small z) hc hu
  have hnat : ∀ key : List Char, (∃ c ∈ key, c.isUpper = true) → ∀ n, key ≠ showNat n :=
    fun key ⟨c, hc, hu⟩ z => ne_of_small (showNat_small z) hc hu
  have hprt : ∀ key : List Char, (∃ c ∈ key, c.isUpper = true) → ∀ x, key ≠ prt x :=
    fun key ⟨c, hc', hu⟩ x => ne_of_small (hc.small x) hc' hu
  have hP : ∃ c ∈ "POINTS".toList, c.isUpper = true := ⟨'P', by decide, by decide⟩
  have hC : ∃ c ∈ "CELLS".toList, c.isUpper = true := ⟨'C', by decide, by decide⟩
  constructor
  · have hpost' := (elements_layout elements).1.append (elements_layout elements).2
      (post_layout (types := types) hpost)
    have := C58_nodes hc hn h3 header_layout.1 (by decide) hpost' (by
      simp only [List.mem_append, List.mem_cons, List.not_mem_nil, or_false, List.mem_flatMap,
        List.mem_map, cellWords, not_or, not_exists, not_and]
      exact ⟨⟨⟨by decide, hnat _ hP _, hnat _ hP _⟩, fun e _ => ⟨hnat _ hP _, fun k _ h =>
        hint _ hP _ h.symm⟩⟩, ⟨⟨by decide, hnat _ hP _⟩, fun k _ h => hint _ hP _ h.symm⟩, hp⟩)
    rw [← this, vtkFile]
    simp only [List.append_assoc]
  · have hpre := header_layout.1.append header_layout.2 (points_layout hc nodes).1
    have := C58_elements he hk hpre (by
      simp only [List.mem_append, List.mem_cons, List.not_mem_nil, or_false, List.mem_flatMap,
        List.mem_map, not_or, not_exists, not_and]
      refine ⟨?_, ⟨by decide, hnat _ hC _, by decide⟩, fun x _ a _ h => hprt _ hC _ h.symm⟩
      have : "CELLS".toList ∉ headerWords.map Prod.fst := by decide
      simpa only [List.mem_map, not_exists, not_and] using this) (post_layout (types := types) hpost) (by
      simp only [List.mem_append, List.mem_cons, List.not_mem_nil, or_false,
        List.mem_map, not_or, not_exists, not_and]
      exact ⟨⟨⟨by decide, hnat _ hC _⟩, fun k _ h => hint _ hC _ h.symm⟩, hq⟩)
    rw [← this, vtkFile]
    simp only [List.append_assoc]

/-- **C58 in exact form**: where the conversion to text and back gives the scalar itself, the points are
read back unchanged. -/
theorem C58_exact_partial (hc : Converts prt rd id) {nodes : List (List K)}
    (hn : (nodes.length : ℤ) < 2147483648) (h3 : ∀ x ∈ nodes, x.length ≤ 3)
    {elements : List (List ℤ)} (he : (elements.length : ℤ) < 2147483648)
    (hk : ∀ e ∈ elements, (e.length : ℤ) < 2147483648 ∧ ∀ k ∈ e, InRange k) (types : List ℤ) :
    generateNodes rd (vtkFile prt nodes elements types []) = some (nodes.map padded) ∧
      generateElements (vtkFile prt nodes elements types []) = some elements := by
  have := C58_file hc hn h3 he hk types (Layout.blank blanks_nil) (by simp) (by simp)
  simpa using this

/-- There are finitely many characters. -/
theorem finite_char : Finite Char :=
  Finite.of_injective (β := Fin 1114112) (fun c => ⟨c.toNat, by
    have := c.valid
    simp only [UInt32.isValidChar, Nat.isValidChar] at this
    show c.val.toNat < _
    omega⟩) (by
      intro a b h
      simp only [Fin.mk.injEq] at h
      exact Char.toNat_inj.1 h)

omit [Zero K] in
/-- **C58 is false for scalars written with a bounded number of characters.**  `operator<<` writes a
`double` with at most thirteen characters.  Whatever is written and however it is read, if there are
infinitely many scalars then one of them is not read back. -/
theorem C58_exact_false [Zero K] [Infinite K] (prt : K → List Char) (n : ℕ)
    (hprt : ∀ x, (prt x).length ≤ n) (rd : List Char → Option (K × ℕ)) :
    ∃ x : K, generateNodes rd (vtkFile prt [[x, 0, 0]] [] [] []) ≠ some [[x, 0, 0]] := by
  haveI := finite_char
  have hfin : {l : List Char | l.length ≤ n}.Finite := List.finite_length_le Char n
  haveI : Finite {l : List Char | l.length ≤ n} := hfin
  obtain ⟨x, y, hne, hxy⟩ : ∃ x y : K, x ≠ y ∧ prt x = prt y := by
    by_contra hcon
    push Not at hcon
    have hinj : Function.Injective fun x : K => (⟨prt x, hprt x⟩ : {l : List Char | l.length ≤ n}) := by
      intro x y h
      by_contra hne
      exact hcon x y hne (by simpa using h)
    exact not_finite_iff_infinite.2 ‹Infinite K› (Finite.of_injective _ hinj)
  by_contra hall
  push Not at hall
  have h1 := hall x
  have h2 := hall y
  have : vtkFile prt [[x, 0, 0]] [] [] [] = vtkFile prt [[y, 0, 0]] [] [] [] := by
    simp only [vtkFile, addPoints, vtkRow, List.flatMap_cons, List.flatMap_nil, List.cons_append,
      List.length_cons, hxy]
  rw [this, h2] at h1
  simp at h1
  exact hne h1.symm

/-! ### Cases -/

/-- The conversion of integers of any size. -/
def rdInt (t : List Char) : Option (ℤ × ℕ) :=
  (parseSigned t).map fun p => (p.1, t.length - p.2.length)

theorem converts_int : Converts showInt rdInt id where
  ne := showInt_ne
  plain := showInt_plain
  small := showInt_small
  read x s hs := by
    simp [rdInt, parseSigned_show x hs]

example : generateNodes rdInt (vtkFile showInt [[1, -2], [30, 4, 5]] [[0, 1]] [3] []) =
      some [[1, -2, 0], [30, 4, 5]] ∧
    generateElements (vtkFile showInt [[1, -2], [30, 4, 5]] [[0, 1]] [3] []) = some [[0, 1]] := by
  have := C58_exact_partial converts_int (nodes := [[1, -2], [30, 4, 5]]) (elements := [[0, 1]])
    (by decide) (by decide) (by decide) (by simp [InRange]) [3]
  simpa [padded] using this

/-- The hypotheses of `C58_exact_false` are met: a conversion that writes one digit. -/
example : ∃ x : ℤ, generateNodes rdInt
    (vtkFile (fun z => [digitChar (z.natAbs % 10)]) [[x, 0, 0]] [] [] []) ≠ some [[x, 0, 0]] :=
  C58_exact_false _ 1 (fun _ => le_refl _) rdInt

end Pansfem
