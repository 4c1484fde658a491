import Verif.Lemmas.Vtk

namespace Pansfem

/-- A text of whole lines. -/
def asLines (ls : List (List Char)) : List Char := ls.flatMap fun l => l ++ ['\n']

theorem asLines_cons (l : List Char) (ls : List (List Char)) (s : List Char) :
    asLines (l :: ls) ++ s = l ++ '\n' :: (asLines ls ++ s) := by simp [asLines]

theorem scan_step {α : Type} (hit : VtkReader → List Char → Option (Option (List α × VtkReader)))
    (r : VtkReader) {line rest : List Char} (hr : r.ifs = ⟨line ++ '\n' :: rest, true⟩)
    (hl : ∀ c ∈ line, c ≠ '\n') : r.scan hit =
      if contains "POINT_DATA".toList line then
        VtkReader.scan hit { r with ifs := ⟨rest, true⟩,
                                    pointssize := keywordSize line r.pointssize, mode := 1 }
      else if contains "CELL_DATA".toList line then
        VtkReader.scan hit { r with ifs := ⟨rest, true⟩,
                                    cellssize := keywordSize line r.cellssize, mode := 2 }
      else
        match hit { r with ifs := ⟨rest, true⟩ } line with
        | some res => res
        | none => VtkReader.scan hit { r with ifs := ⟨rest, true⟩ } := by
  rw [VtkReader.scan]
  simp only [hr, getline_stop hl, dif_pos]
  rfl

theorem scan_end {α : Type} (hit : VtkReader → List Char → Option (Option (List α × VtkReader)))
    (r : VtkReader) (hr : r.ifs = ⟨[], true⟩) :
    r.scan hit = some ([], { r with ifs := Stream.ofText r.file }) := by
  rw [VtkReader.scan]
  simp [hr, getline_empty]

theorem scan_skip {α : Type} (hit : VtkReader → List Char → Option (Option (List α × VtkReader))) :
    ∀ (ls : List (List Char)) (r : VtkReader) (rest : List Char),
      (∀ l ∈ ls, (∀ c ∈ l, c ≠ '\n') ∧ contains "POINT_DATA".toList l = false ∧
        contains "CELL_DATA".toList l = false ∧ ∀ s, hit { r with ifs := s } l = none) →
      r.ifs = ⟨asLines ls ++ rest, true⟩ →
      r.scan hit = VtkReader.scan hit { r with ifs := ⟨rest, true⟩ }
  | [], r, rest, _, hr => by
    have : r = { r with ifs := ⟨rest, true⟩ } := by
      cases r; simp only at hr; subst hr; rfl
    rw [← this]
  | l :: ls, r, rest, h, hr => by
    obtain ⟨h1, h2, h3, h4⟩ := h l (by simp)
    rw [asLines_cons] at hr
    rw [scan_step hit r hr h1]
    simp only [h2, h3, h4, Bool.false_eq_true, if_false]
    exact scan_skip hit ls { r with ifs := ⟨asLines ls ++ rest, true⟩ } rest
      (fun l' hl' => h l' (by simp [hl'])) rfl

/-- A keyword with a character that the line does not have. -/
theorem not_contains {key line : List Char} {c : Char} (hc : c ∈ key) (hl : c ∉ line) :
    contains key line = false := by
  rw [contains, decide_eq_false_iff_not]
  exact fun h => hl (h.subset hc)

theorem contains_prefix (key t : List Char) : contains key (key ++ t) = true := by
  rw [contains, decide_eq_true_iff]
  exact (List.prefix_append key t).isInfix

/-- A keyword in a line with a character that the keyword does not have stands before or after it. -/
theorem infix_split {key : List Char} {c : Char} (hc : c ∉ key) {a b : List Char}
    (h : key <:+: a ++ c :: b) : key <:+: a ∨ key <:+: b := by
  obtain ⟨s, t, hst⟩ := h
  rw [List.append_assoc] at hst
  rcases List.append_eq_append_iff.1 hst with ⟨u, hu, hv⟩ | ⟨u, hu, hv⟩
  · -- `a = s ++ u`, `key ++ t = u ++ c :: b`
    rcases List.append_eq_append_iff.1 hv with ⟨w, hw, hx⟩ | ⟨w, hw, hx⟩
    · left
      exact ⟨s, w, by rw [hu, hw, List.append_assoc]⟩
    · cases w with
      | nil =>
        left
        exact ⟨s, [], by rw [hu, hw]; simp⟩
      | cons d w =>
        exfalso
        have hd : d = c := by
          have := congrArg List.head? hx
          simpa using this.symm
        exact hc (by rw [hw, ← hd]; simp)
  · cases u with
    | nil =>
      simp only [List.nil_append] at hv
      cases key with
      | nil => left; exact List.nil_infix
      | cons d key =>
        exfalso
        have : c = d := by simpa using congrArg List.head? hv
        exact hc (by simp [this])
    | cons d u =>
      right
      simp only [List.cons_append, List.cons.injEq] at hv
      exact ⟨u, t, by rw [hv.2, List.append_assoc]⟩

theorem keywordSize_eq {w s : List Char} {c : Char} {n : ℕ} (hn : (n : ℤ) < 2147483648) (hw : w ≠ [])
    (hp : ∀ c ∈ w, isBlank c = false) (hc : isBlank c = true)
    (hs : ∀ c ∈ s.head?, isBlank c = true) (old : ℤ) :
    keywordSize (w ++ c :: (showNat n ++ s)) old = n := by
  have e : Stream.ofText (w ++ c :: (showNat n ++ s)) = atText ([] ++ w ++ c :: (showNat n ++ s)) := by
    rw [atText_good (by simp)]; rfl
  have h1 := readWord_word (str := []) (b := []) (s := c :: (showNat n ++ s)) blanks_nil hw hp
    (by simpa using hc)
  have h2 := readInt_word (b := [c]) (s := s) (z := n) ⟨by omega, hn⟩ (blanks_cons hc blanks_nil) hs
  have h3 := dropWhile_word (b := [c]) (s := s) (blanks_cons hc blanks_nil) (showNat_ne n)
    (showNat_plain n)
  rw [showInt_natCast] at h2
  rw [show [c] ++ showNat n ++ s = c :: (showNat n ++ s) by simp] at h2 h3
  unfold keywordSize
  rw [e, h1]
  simp only [h2]
  rw [if_pos]
  refine ⟨by simp [atText], ?_⟩
  simp only [atText]
  rw [h3]
  simp [showNat_ne]

theorem secondWord_eq {w v s : List Char} {c : Char} (hw : w ≠ [])
    (hp : ∀ c ∈ w, isBlank c = false) (hc : isBlank c = true) (hv : v ≠ [])
    (hq : ∀ c ∈ v, isBlank c = false) (hs : ∀ c ∈ s.head?, isBlank c = true) :
    secondWord (w ++ c :: (v ++ s)) = v := by
  have e : Stream.ofText (w ++ c :: (v ++ s)) = atText ([] ++ w ++ c :: (v ++ s)) := by
    rw [atText_good (by simp)]; rfl
  have h1 := readWord_word (str := w ++ c :: (v ++ s)) (b := []) (s := c :: (v ++ s)) blanks_nil hw hp
    (by simpa using hc)
  have h2 := readWord_word (str := w) (b := [c]) (s := s) (blanks_cons hc blanks_nil) hv hq hs
  rw [show [c] ++ v ++ s = c :: (v ++ s) by simp] at h2
  unfold secondWord
  rw [e, h1]
  simp only [h2]

theorem readLines_eq {ls : List (List Char)} (h : ∀ l ∈ ls, ∀ c ∈ l, c ≠ '\n') (s str : List Char) :
    readLines ls.length ⟨asLines ls ++ s, true⟩ str = (ls, ⟨s, true⟩) := by
  induction ls generalizing str with
  | nil => rfl
  | cons l ls ih =>
    rw [asLines_cons, List.length_cons, readLines]
    simp only [getline_stop (h l (by simp)), ih (fun l' hl' => h l' (by simp [hl']))]

theorem readEntries_eq {α β : Type} [Zero α] {f : Stream → Option (α × Stream)} {T : β → List Char}
    {V : β → α} : ∀ {l : List β}, (∀ a ∈ l, ReadsAs f (T a) (V a)) → ∀ {n : ℕ}, n ≤ l.length →
      ∀ {b : List Char}, Blanks b → readEntries f n (atText (b ++ l.flatMap T)) = (l.map V).take n
  | _, _, 0, _, _, _ => by simp [readEntries]
  | a :: l, h, n + 1, hn, b, hb => by
    obtain ⟨b', hb', h1⟩ := h a (by simp) b (l.flatMap T) hb
    rw [List.flatMap_cons, ← List.append_assoc, readEntries, h1]
    simp only [List.map_cons, List.take_succ_cons]
    rw [readEntries_eq (l := l) (fun a ha => h a (by simp [ha])) (by simpa using hn) hb']

end Pansfem
