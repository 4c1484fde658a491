/-
C57: importing a well-formed CSV file yields exactly the records of the file in order, with the entries
"free" omitted.  C95: `ImportInitialFromCSV` and records with too few fields.
-/
import Verif.Lemmas.Text
import Mathlib.Data.List.Nodup
import Mathlib.Algebra.Order.Ring.Rat

namespace Pansfem

variable {K : Type} (rd : List Char → Option (K × ℕ))

theorem nodesRow_nil (x : List (List K)) : nodesRow rd x [] = some x := by
  simp [nodesRow, Stream.ofText, getline_empty]

theorem conditionsRow_nil (x : List ((ℤ × ℕ) × K)) : conditionsRow rd x [] = some x := by
  simp [conditionsRow, Stream.ofText, getline_empty]

theorem initialRow_nil (x : List (List K)) : initialRow rd x [] = some x := by
  simp [initialRow, Stream.ofText, getline_empty]

theorem elementsRow_nil (x : List (List ℤ)) : elementsRow x [] = some x := by
  simp [elementsRow, Stream.ofText, getline_empty]

theorem periodicRow_nil (x : List (ℤ × ℤ)) : periodicRow x [] = some x := by
  simp [periodicRow, Stream.ofText, getline_empty]

theorem mapM_single {α β : Type} (f : α → Option β) : ∀ l : List α,
    (l.mapM fun a => (f a).map fun b => [b]) = (l.mapM f).map fun ys => ys.map fun b => [b]
  | [] => rfl
  | a :: l => by
    simp only [List.mapM_cons, mapM_single f l]
    cases f a <;> cases l.mapM f <;> rfl

theorem flatten_single {α : Type} (l : List α) : (l.map fun b => [b]).flatten = l := by
  induction l with
  | nil => rfl
  | cons a l ih => simp [ih]

/-- **C57, nodes.**  For every file with any records, `ImportNodesFromCSV` appends to the nodes one
vector for every record, in the order of the file, with the values of the fields after the first one in
their order; it ends with an exception exactly if one of the fields is no number. -/
theorem C57_nodes {recs : List Record} {file : List Char} (h : IsCsv recs file)
    (nodes : List (List K)) :
    importNodes rd nodes (some file) =
      (recs.mapM fun r : Record => r.fields.mapM (stod rd)).map fun xs => (true, nodes ++ xs) := by
  have hok := h.choose_spec.choose_spec.2.2.1
  rw [importNodes, csvImport_eq (nodesRow_nil rd) h,
    foldlM_push (f := fun r => (r.fields.mapM (stod rd)).map fun x => [x])]
  · rw [mapM_single]
    cases recs.mapM fun r : Record => r.fields.mapM (stod rd) <;> simp [flatten_single]
  · intro r hr x
    have hne : r.id ≠ [] := (hok r hr).1.1
    simp only [nodesRow, getline_id r (hok r hr), hne, if_false,
      pushFields_eq _ _ (hok r hr).2]
    cases r.fields.mapM (stod rd) <;> rfl

/-- **C57, elements.** -/
theorem C57_elements {recs : List Record} {file : List Char} (h : IsCsv recs file)
    (elements : List (List ℤ)) :
    importElements elements (some file) =
      (recs.mapM fun r : Record => r.fields.mapM stoi).map fun xs => (true, elements ++ xs) := by
  have hok := h.choose_spec.choose_spec.2.2.1
  rw [importElements, csvImport_eq elementsRow_nil h,
    foldlM_push (f := fun r => (r.fields.mapM stoi).map fun x => [x])]
  · rw [mapM_single]
    cases recs.mapM fun r : Record => r.fields.mapM stoi <;> simp [flatten_single]
  · intro r hr x
    have hne : r.id ≠ [] := (hok r hr).1.1
    simp only [elementsRow, getline_id r (hok r hr), hne, if_false,
      pushFields_eq _ _ (hok r hr).2]
    cases r.fields.mapM stoi <;> rfl

theorem pushConditions_eq (n : ℤ) : ∀ (fs : List (List Char)), (∀ f ∈ fs, IsField f) →
    ∀ (i : ℕ) (str : List Char), pushConditions rd n i (behind fs) str =
      ((fs.zipIdx i).filter fun p => p.1 ≠ "free".toList).mapM fun p =>
        (stod rd p.1).map fun v => ((n, p.2), v)
  | [], _, i, str => by rw [pushConditions]; simp [getline_behind_nil]
  | f :: fs, h, i, str => by
    have ih := pushConditions_eq n fs (fun g hg => h g (by simp [hg])) (i + 1) f
    rw [pushConditions]
    simp only [getline_behind (h f (by simp)), dif_pos, List.zipIdx_cons, ih]
    by_cases hf : f = "free".toList
    · rw [List.filter_cons_of_neg (by simp [hf]), if_neg (by simp [hf])]
    · rw [List.filter_cons_of_pos (by simpa using hf), if_pos hf, List.mapM_cons]
      cases stod rd f <;> simp

/-- The conditions of a record: for every field after the first one that is not "free", the number of
the node, the position of the field and its value. -/
def Record.conditions (r : Record) : Option (List ((ℤ × ℕ) × K)) :=
  (stoi r.id).bind fun n =>
    (r.fields.zipIdx.filter fun p => p.1 ≠ "free".toList).mapM fun p =>
      (stod rd p.1).map fun v => ((n, p.2), v)

/-- **C57, boundary conditions.**  For every file with any records, `ImportDirichletFromCSV` appends
to the list the conditions of all records in their order, without the entries "free". -/
theorem C57_dirichlet {recs : List Record} {file : List Char} (h : IsCsv recs file)
    (ufixed : List ((ℤ × ℕ) × K)) :
    importDirichlet rd ufixed (some file) =
      (recs.mapM (Record.conditions rd)).map fun xs => (true, ufixed ++ xs.flatten) := by
  have hok := h.choose_spec.choose_spec.2.2.1
  rw [importDirichlet, csvImport_eq (conditionsRow_nil rd) h,
    foldlM_push (f := Record.conditions rd)]
  · cases recs.mapM (Record.conditions rd) <;> simp
  · intro r hr x
    have hne : r.id ≠ [] := (hok r hr).1.1
    simp only [conditionsRow, getline_id r (hok r hr), hne, if_false, Record.conditions,
      pushConditions_eq rd _ _ (hok r hr).2]
    cases stoi r.id with
    | none => rfl
    | some n =>
      simp only [Option.bind_eq_bind, Option.bind_some]
      cases (List.mapM _ _ : Option (List ((ℤ × ℕ) × K))) <;> rfl

/-- **C57, loads.**  `ImportNeumannFromCSV` reads the same way. -/
theorem C57_neumann {recs : List Record} {file : List Char} (h : IsCsv recs file)
    (qfixed : List ((ℤ × ℕ) × K)) :
    importNeumann rd qfixed (some file) =
      (recs.mapM (Record.conditions rd)).map fun xs => (true, qfixed ++ xs.flatten) :=
  C57_dirichlet rd h qfixed

/-- **C57, periodic conditions**: one pair for every record, whose second field is the slave. -/
theorem C57_periodic {recs : List Record} {file : List Char} (h : IsCsv recs file)
    (hf : ∀ r ∈ recs, r.fields ≠ []) (fixed : List (ℤ × ℤ)) :
    importPeriodic fixed (some file) =
      (recs.mapM fun r : Record => (stoi r.id).bind fun m =>
        (stoi (r.fields.headD [])).map fun s => (m, s)).map fun xs => (true, fixed ++ xs) := by
  have hok := h.choose_spec.choose_spec.2.2.1
  rw [importPeriodic, csvImport_eq periodicRow_nil h,
    foldlM_push (f := fun r => ((stoi r.id).bind fun m =>
        (stoi (r.fields.headD [])).map fun s => (m, s)).map fun x => [x])]
  · rw [mapM_single]
    cases (List.mapM _ recs : Option (List (ℤ × ℤ))) <;> simp [flatten_single]
  · intro r hr x
    have hne : r.id ≠ [] := (hok r hr).1.1
    simp only [periodicRow, getline_id r (hok r hr), hne, if_false]
    cases hr' : r.fields with
    | nil => exact absurd hr' (hf r hr)
    | cons f fs =>
      have hfo : IsField f := (hok r hr).2 f (by simp [hr'])
      simp only [getline_behind hfo, List.headD_cons]
      cases stoi r.id <;> cases stoi f <;> rfl

/-- A file that cannot be opened gives `false` and changes nothing. -/
theorem C57_unopened (nodes : List (List K)) (ufixed : List ((ℤ × ℕ) × K)) (u : List (List K))
    (elements : List (List ℤ)) (fixed : List (ℤ × ℤ)) :
    importNodes rd nodes none = some (false, nodes) ∧
    importElements elements none = some (false, elements) ∧
    importDirichlet rd ufixed none = some (false, ufixed) ∧
    importNeumann rd ufixed none = some (false, ufixed) ∧
    importInitial rd u none = some (false, u) ∧
    importPeriodic fixed none = some (false, fixed) := ⟨rfl, rfl, rfl, rfl, rfl, rfl⟩

/-! ### Initial values -/

/-- The string compared by the loop of `ImportInitialFromCSV` for the component `i`: the field, and the
last string read once the fields are used up. -/
def fieldOr (fs : List (List Char)) (str : List Char) (i : ℕ) : List Char :=
  fs.getD i (fs.getLastD str)

theorem assignFields_bad (v : List Char → K) (str : List Char)
    (hv : str ≠ "free".toList → stod rd str = some (v str)) : ∀ (x : List K) (a : List Char),
      assignFields rd x ⟨a, false⟩ str =
        some (x.map fun w => if str = "free".toList then w else v str)
  | [], a => rfl
  | w :: ws, a => by
    unfold assignFields
    simp only [getline_bad, assignFields_bad v str hv ws]
    by_cases h : str = "free".toList
    · simp only [if_neg (not_not.2 h), if_pos h, List.map_cons]; rfl
    · simp only [if_pos (show str ≠ _ from h), if_neg h, hv h, List.map_cons]; rfl

theorem assignFields_eq (v : List Char → K) : ∀ (fs : List (List Char)) (x : List K) (str : List Char),
    (∀ f ∈ fs, IsField f) → (∀ f ∈ fs, f ≠ "free".toList → stod rd f = some (v f)) →
    (fs.length < x.length → fs.getLastD str ≠ "free".toList →
      stod rd (fs.getLastD str) = some (v (fs.getLastD str))) →
    ∃ y, assignFields rd x (behind fs) str = some y ∧ y.length = x.length ∧
      ∀ i w, x[i]? = some w →
        y[i]? = some (if fieldOr fs str i = "free".toList then w else v (fieldOr fs str i))
  | fs, [], str, _, _, _ => ⟨[], by unfold assignFields; rfl, rfl, by simp⟩
  | [], w :: ws, str, _, _, hl => by
    refine ⟨_, assignFields_bad rd v str (hl (by simp)) (w :: ws) [], by simp, ?_⟩
    intro i u hu
    rw [List.getElem?_map, hu]
    simp [fieldOr]
  | f :: fs, w :: ws, str, hf, hv, hl => by
    obtain ⟨y, hy, hlen, hyi⟩ := assignFields_eq v fs ws f (fun g hg => hf g (by simp [hg]))
      (fun g hg => hv g (by simp [hg])) (fun h1 => by
        have : (f :: fs).getLastD str = fs.getLastD f := by cases fs <;> rfl
        rw [this] at hl
        exact hl (by simpa using h1))
    refine ⟨(if f = "free".toList then w else v f) :: y, ?_, by simp [hlen], ?_⟩
    · unfold assignFields
      simp only [getline_behind (hf f (by simp)), hy]
      by_cases h : f = "free".toList
      · simp only [if_neg (not_not.2 h), if_pos h]; rfl
      · simp only [if_pos (show f ≠ _ from h), if_neg h, hv f (by simp) h]; rfl
    · intro i u hu
      cases i with
      | zero =>
        simp only [List.getElem?_cons_zero, Option.some.injEq] at hu
        simp [fieldOr, hu]
      | succ i =>
        have h2 : fieldOr (f :: fs) str (i + 1) = fieldOr fs f i := by
          unfold fieldOr; cases fs <;> rfl
        rw [h2]
        exact hyi i u (by simpa using hu)

/-- A record is in order for the vectors `u`: its identifier is the number `num r` of one of them, and
the fields that are not "free" are numbers. -/
def Record.Fits (num : Record → ℕ) (v : List Char → K) (n : ℕ) (r : Record) : Prop :=
  stoi r.id = some (num r : ℤ) ∧ num r < n ∧
    ∀ f ∈ r.id :: r.fields, f ≠ "free".toList → stod rd f = some (v f)

theorem initialRow_eq {num : Record → ℕ} {v : List Char → K} {u : List (List K)} {r : Record}
    (hok : r.Ok) (hf : r.Fits rd num v u.length) :
    ∃ x y, u[num r]? = some x ∧ initialRow rd u r.text = some (u.set (num r) y) ∧
      y.length = x.length ∧ ∀ i w, x[i]? = some w →
        y[i]? = some (if fieldOr r.fields r.id i = "free".toList then w
          else v (fieldOr r.fields r.id i)) := by
  obtain ⟨hid, hn, hv⟩ := hf
  have hx : u[num r]? = some u[num r] := List.getElem?_eq_getElem hn
  have hlast : r.fields.getLastD r.id ∈ r.id :: r.fields := by
    cases h : r.fields with
    | nil => simp
    | cons a l =>
      refine List.mem_cons_of_mem _ ?_
      rw [List.getLastD_cons, List.getLastD_eq_getLast?, List.getLast?_eq_getElem?]
      cases hl : l[l.length - 1]? with
      | none => simp
      | some b => simpa using Or.inr (List.mem_of_getElem? hl)
  obtain ⟨y, hy, hlen, hyi⟩ := assignFields_eq rd v r.fields u[num r] r.id hok.2
    (fun f hf => hv f (by simp [hf])) (fun _ => hv _ hlast)
  refine ⟨u[num r], y, hx, ?_, hlen, hyi⟩
  have hne : r.id ≠ [] := hok.1.1
  simp only [initialRow, getline_id r hok, hne, if_false, hid, Option.bind_eq_bind,
    Option.bind_some, Int.toNat_natCast, hx, hy]
  simp

theorem initialRows {num : Record → ℕ} {v : List Char → K} : ∀ {recs : List Record}
    {u : List (List K)}, (∀ r ∈ recs, r.Ok) → (∀ r ∈ recs, r.Fits rd num v u.length) →
    (recs.map num).Nodup →
    ∃ u', (recs.map Record.text).foldlM (initialRow rd) u = some u' ∧ u'.length = u.length ∧
      ∀ n x, u[n]? = some x → ∃ y, u'[n]? = some y ∧ y.length = x.length ∧
        (∀ r ∈ recs, num r = n → ∀ i w, x[i]? = some w →
          y[i]? = some (if fieldOr r.fields r.id i = "free".toList then w
            else v (fieldOr r.fields r.id i))) ∧
        ((∀ r ∈ recs, num r ≠ n) → y = x)
  | [], u, _, _, _ => ⟨u, rfl, rfl, fun n x hx => ⟨x, hx, rfl, by simp, fun _ => rfl⟩⟩
  | r :: recs, u, hok, hf, hnd => by
    obtain ⟨x0, y0, hx0, hrow, hy0, hyi⟩ := initialRow_eq rd (hok r (by simp)) (hf r (by simp))
    have hlt : num r < u.length := (hf r (by simp)).2.1
    simp only [List.map_cons, List.nodup_cons] at hnd
    obtain ⟨u', hu', hlen, hall⟩ := initialRows (recs := recs) (u := u.set (num r) y0)
      (fun s hs => hok s (by simp [hs]))
      (fun s hs => by simpa using hf s (by simp [hs])) hnd.2
    refine ⟨u', ?_, by simpa using hlen, ?_⟩
    · simp only [List.map_cons, List.foldlM_cons, hrow, Option.bind_eq_bind, Option.bind_some]
      exact hu'
    · intro n x hx
      by_cases hn : n = num r
      · subst hn
        rw [hx0] at hx
        obtain rfl := Option.some.inj hx
        obtain ⟨y, hy, hyl, -, hstay⟩ := hall (num r) y0 (by rw [List.getElem?_set_self hlt])
        have hy' : y = y0 := hstay fun s hs hsn =>
          hnd.1 (by rw [← hsn]; exact List.mem_map_of_mem hs)
        subst hy'
        refine ⟨y, hy, hy0, ?_, fun h => absurd rfl (h r (by simp))⟩
        intro s hs hsn
        rcases List.mem_cons.1 hs with rfl | hs
        · exact hyi
        · exact absurd (hsn ▸ List.mem_map_of_mem hs) hnd.1
      · obtain ⟨y, hy, hyl, hrec, hstay⟩ := hall n x (by
          rw [List.getElem?_set_ne (Ne.symm hn)]; exact hx)
        refine ⟨y, hy, hyl, ?_, fun h => hstay fun s hs => h s (by simp [hs])⟩
        intro s hs hsn
        rcases List.mem_cons.1 hs with rfl | hs
        · exact absurd hsn.symm hn
        · exact hrec s hs hsn

theorem fieldOr_of_field {fs : List (List Char)} {str f : List Char} {i : ℕ} (h : fs[i]? = some f) :
    fieldOr fs str i = f := by
  simp [fieldOr, List.getD_eq_getElem?_getD, h]

/-- **C57, initial values.**  For every file whose records belong to different nodes and have a field
for every component, `ImportInitialFromCSV` gives every component of the nodes named in the file the
value of its field, unless that is "free"; everything else keeps its value. -/
theorem C57_initial {recs : List Record} {file : List Char} (h : IsCsv recs file)
    {num : Record → ℕ} {v : List Char → K} {u : List (List K)}
    (hf : ∀ r ∈ recs, r.Fits rd num v u.length) (hnd : (recs.map num).Nodup) :
    ∃ u', importInitial rd u (some file) = some (true, u') ∧ u'.length = u.length ∧
      ∀ n x, u[n]? = some x → ∃ y, u'[n]? = some y ∧ y.length = x.length ∧
        (∀ r ∈ recs, num r = n → ∀ (i : ℕ) w f, x[i]? = some w → r.fields[i]? = some f →
          y[i]? = some (if f = "free".toList then w else v f)) ∧
        ((∀ r ∈ recs, num r ≠ n) → y = x) := by
  have hok := h.choose_spec.choose_spec.2.2.1
  obtain ⟨u', hu', hlen, hall⟩ := initialRows rd hok hf hnd
  refine ⟨u', ?_, hlen, ?_⟩
  · rw [importInitial, csvImport_eq (initialRow_nil rd) h, hu']; rfl
  · intro n x hx
    obtain ⟨y, hy, hyl, hrec, hstay⟩ := hall n x hx
    refine ⟨y, hy, hyl, ?_, hstay⟩
    intro r hr hrn i w f hw hfi
    have := hrec r hr hrn i w hw
    rwa [fieldOr_of_field hfi] at this

/-- **C95, what is left.**  A component without a field keeps its value only if the last field of the
record is "free"; otherwise it receives the value of the last field (of the identifier if there is no
other field).  Missing for C95: components without a field keep their value. -/
theorem C95_missing_partial {recs : List Record} {file : List Char} (h : IsCsv recs file)
    {num : Record → ℕ} {v : List Char → K} {u : List (List K)}
    (hf : ∀ r ∈ recs, r.Fits rd num v u.length) (hnd : (recs.map num).Nodup) :
    ∃ u', importInitial rd u (some file) = some (true, u') ∧
      ∀ r ∈ recs, ∀ x, u[num r]? = some x → ∃ y, u'[num r]? = some y ∧
        ∀ i w, x[i]? = some w → r.fields.length ≤ i →
          y[i]? = some (if r.fields.getLastD r.id = "free".toList then w
            else v (r.fields.getLastD r.id)) := by
  have hok := h.choose_spec.choose_spec.2.2.1
  obtain ⟨u', hu', hlen, hall⟩ := initialRows rd hok hf hnd
  refine ⟨u', ?_, ?_⟩
  · rw [importInitial, csvImport_eq (initialRow_nil rd) h, hu']; rfl
  · intro r hr x hx
    obtain ⟨y, hy, -, hrec, -⟩ := hall _ x hx
    refine ⟨y, hy, fun i w hw hi => ?_⟩
    have := hrec r hr rfl i w hw
    have h2 : fieldOr r.fields r.id i = r.fields.getLastD r.id := by
      simp [fieldOr, List.getD_eq_getElem?_getD, List.getElem?_eq_none hi]
    rwa [h2] at this

/-! ### Cases -/

/-- A conversion for the cases: an integer as a rational number. -/
def rdRat (t : List Char) : Option (ℚ × ℕ) :=
  (parseInt t).map fun p => ((p.1 : ℚ), t.length - p.2.length)

/-- A file with two records, an empty line between them, the end of a line of the other kind, and no end
of line at the end. -/
def sampleCsv : List Char := "id,x,y\r\n0,3,-4\r\n\n1,free,5".toList

theorem sampleCsv_ok : IsCsv [⟨['0'], [['3'], ['-', '4']]⟩, ⟨['1'], ["free".toList, ['5']]⟩]
    sampleCsv := by
  refine ⟨"id,x,y\r".toList, "0,3,-4\r\n\n1,free,5".toList, by decide, by decide, ?_, ?_⟩
  · intro r hr
    rcases List.mem_cons.1 hr with rfl | hr
    · exact ⟨⟨by decide, by decide⟩, by
        intro f hf
        rcases List.mem_cons.1 hf with rfl | hf
        · exact ⟨by decide, by decide⟩
        · rw [List.mem_singleton.1 hf]; exact ⟨by decide, by decide⟩⟩
    · rw [List.mem_singleton.1 hr]
      exact ⟨⟨by decide, by decide⟩, by
        intro f hf
        rcases List.mem_cons.1 hf with rfl | hf
        · exact ⟨by decide, by decide⟩
        · rw [List.mem_singleton.1 hf]; exact ⟨by decide, by decide⟩⟩
  · exact Layout.cons (b := []) (r := "0,3,-4".toList) (c := '\r') (t := "\n\n1,free,5".toList)
      (rs := ["1,free,5".toList]) (by decide) (by decide) (by decide) (by decide)
      (Layout.last (b := "\r\n\n".toList) (r := "1,free,5".toList) (by decide) (by decide)
        (by decide))

example : importDirichlet rdRat [] (some sampleCsv) =
    some (true, [((0, 0), 3), ((0, 1), -4), ((1, 1), 5)]) := by
  rw [C57_dirichlet rdRat sampleCsv_ok]
  have h3 : stod rdRat ['3'] = some 3 := by decide +kernel
  have h4 : stod rdRat ['-', '4'] = some (-4) := by decide +kernel
  have h5 : stod rdRat ['5'] = some 5 := by decide +kernel
  have i0 : stoi ['0'] = some 0 := by decide +kernel
  have i1 : stoi ['1'] = some 1 := by decide +kernel
  simp [Record.conditions, h3, h4, h5, i0, i1]

/-- Two vectors with two components each; the first record has no field for the second component. -/
def shortCsv : List Char := "id,x,y\n0,3\n".toList

theorem shortCsv_ok : IsCsv [⟨['0'], [['3']]⟩] shortCsv := by
  refine ⟨"id,x,y".toList, "0,3\n".toList, by decide, by decide, ?_, ?_⟩
  · intro r hr
    rw [List.mem_singleton.1 hr]
    exact ⟨⟨by decide, by decide⟩, by
      intro f hf
      rw [List.mem_singleton.1 hf]; exact ⟨by decide, by decide⟩⟩
  · exact Layout.cons (b := []) (r := "0,3".toList) (c := '\n') (t := [])
      (rs := []) (by decide) (by decide) (by decide) (by decide) (Layout.blank (by decide))

theorem shortCsv_fits : ∀ r ∈ [(⟨['0'], [['3']]⟩ : Record)],
    r.Fits rdRat (fun _ => 0) (fun f => if f = ['3'] then 3 else 0) 2 := by
  intro r hr
  rw [List.mem_singleton.1 hr]
  refine ⟨by decide +kernel, by decide, ?_⟩
  intro f hf _
  rcases List.mem_cons.1 hf with rfl | hf
  · decide +kernel
  · rw [List.mem_singleton.1 hf]; decide +kernel

example : ∃ u', importInitial rdRat [[7, 8], [9, 10]] (some shortCsv) = some (true, u') ∧
    u'.length = 2 := by
  obtain ⟨u', h, hl, -⟩ := C57_initial rdRat (u := [[7, 8], [9, 10]]) shortCsv_ok shortCsv_fits
    (by decide)
  exact ⟨u', h, hl⟩

/-- **C95 is false**: the record `0,3` has no field for the second component of the node 0, whose value
is 8; after the import it is 3. -/
theorem C95_missing_false : ∃ (file : List Char) (recs : List Record) (u u' : List (List ℚ)),
    IsCsv recs file ∧ importInitial rdRat u (some file) = some (true, u') ∧
    ∃ r ∈ recs, stoi r.id = some 0 ∧ r.fields[1]? = none ∧ u[0]? = some [7, 8] ∧
      u'[0]? = some [3, 3] := by
  obtain ⟨u', h, hall⟩ := C95_missing_partial rdRat (u := [[7, 8], [9, 10]]) shortCsv_ok
    shortCsv_fits (by decide)
  obtain ⟨u'', h', -, hall'⟩ := C57_initial rdRat (u := [[7, 8], [9, 10]]) shortCsv_ok
    shortCsv_fits (by decide)
  obtain rfl : u'' = u' := by
    have := h.symm.trans h'
    simpa using this.symm
  refine ⟨shortCsv, [⟨['0'], [['3']]⟩], [[7, 8], [9, 10]], u'', shortCsv_ok, h,
    ⟨['0'], [['3']]⟩, List.mem_singleton.2 rfl, by decide +kernel, rfl, rfl, ?_⟩
  obtain ⟨y, hy, hyl, hrec, -⟩ := hall' 0 [7, 8] rfl
  obtain ⟨y', hy', hrec'⟩ := hall ⟨['0'], [['3']]⟩ (List.mem_singleton.2 rfl) [7, 8] rfl
  obtain rfl : y' = y := Option.some.inj (hy'.symm.trans hy)
  have h0 := hrec _ (List.mem_singleton.2 rfl) rfl 0 7 ['3'] rfl rfl
  have h1 := hrec' 1 8 rfl (by simp)
  have hy2 : y' = [3, 3] := by
    clear hy hy' hrec hrec'
    match y', hyl with
    | [a, b], _ =>
      simp only [List.getElem?_cons_zero, List.getElem?_cons_succ, Option.some.injEq] at h0 h1
      rw [h0, h1]
      decide +kernel
  rw [hy, hy2]

end Pansfem
