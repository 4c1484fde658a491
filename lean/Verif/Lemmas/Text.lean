import Verif.Spec.Text
import Mathlib.Tactic.Common

namespace Pansfem

theorem takeWhile_append_stop {p : Char → Bool} {a b : List Char} {c : Char}
    (ha : ∀ x ∈ a, p x = true) (hc : p c = false) : (a ++ c :: b).takeWhile p = a := by
  rw [List.takeWhile_append_of_pos ha]; simp [hc]

theorem dropWhile_append_stop {p : Char → Bool} {a b : List Char} {c : Char}
    (ha : ∀ x ∈ a, p x = true) (hc : p c = false) : (a ++ c :: b).dropWhile p = c :: b := by
  rw [List.dropWhile_append_of_pos ha]; simp [hc]

theorem takeWhile_all {p : Char → Bool} {a : List Char} (ha : ∀ x ∈ a, p x = true) :
    a.takeWhile p = a := by
  have := List.takeWhile_append_of_pos (l₂ := []) ha
  simpa using this

theorem dropWhile_all {p : Char → Bool} {a : List Char} (ha : ∀ x ∈ a, p x = true) :
    a.dropWhile p = [] := by
  have := List.dropWhile_append_of_pos (l₂ := []) ha
  simpa using this

theorem getline_stop {d : Char} {a b str : List Char} (ha : ∀ x ∈ a, x ≠ d) :
    getline d ⟨a ++ d :: b, true⟩ str = ⟨true, a, ⟨b, true⟩⟩ := by
  have h1 := takeWhile_append_stop (p := (· != d)) (a := a) (b := b) (c := d)
    (by simpa using ha) (by simp)
  have h2 := dropWhile_append_stop (p := (· != d)) (a := a) (b := b) (c := d)
    (by simpa using ha) (by simp)
  simp [getline, h1, h2]

theorem getline_end {d : Char} {a str : List Char} (ha : ∀ x ∈ a, x ≠ d) (hn : a ≠ []) :
    getline d ⟨a, true⟩ str = ⟨true, a, ⟨[], false⟩⟩ := by
  have h2 := dropWhile_all (p := (· != d)) (a := a) (by simpa using ha)
  simp [getline, h2, hn]

theorem getline_bad {d : Char} {a str : List Char} :
    getline d ⟨a, false⟩ str = ⟨false, str, ⟨a, false⟩⟩ := by
  simp [getline]

theorem getline_empty {d : Char} {str : List Char} :
    getline d ⟨[], true⟩ str = ⟨false, [], ⟨[], false⟩⟩ := by
  simp [getline]

/-- The stream behind a field, `fs` being the fields to come. -/
def behind (fs : List (List Char)) : Stream :=
  match fs with
  | [] => ⟨[], false⟩
  | f :: fs => ⟨f ++ fs.flatMap fun f => ',' :: f, true⟩

theorem getline_field {f : List Char} {fs : List (List Char)} (hf : IsField f) (str : List Char) :
    getline ',' ⟨f ++ fs.flatMap fun f => ',' :: f, true⟩ str = ⟨true, f, behind fs⟩ := by
  have h : ∀ x ∈ f, x ≠ ',' := fun x hx => (hf.2 x hx).2
  cases fs with
  | nil => simpa [behind] using getline_end (str := str) h hf.1
  | cons g gs => simpa [behind] using getline_stop (str := str) h

theorem getline_behind {f : List Char} {fs : List (List Char)} (hf : IsField f) (str : List Char) :
    getline ',' (behind (f :: fs)) str = ⟨true, f, behind fs⟩ := getline_field hf str

theorem getline_behind_nil (str : List Char) :
    getline ',' (behind []) str = ⟨false, str, ⟨[], false⟩⟩ := getline_bad

theorem pushFields_eq {α : Type} (f : List Char → Option α) :
    ∀ (fs : List (List Char)), (∀ g ∈ fs, IsField g) → ∀ str,
      pushFields f (behind fs) str = fs.mapM f
  | [], _, str => by
    rw [pushFields]; simp [getline_behind_nil]
  | g :: gs, h, str => by
    rw [pushFields]
    simp only [getline_behind (h g (by simp)), dif_pos, List.mapM_cons,
      pushFields_eq f gs (fun g hg => h g (by simp [hg]))]

theorem getline_id (r : Record) (hr : r.Ok) :
    getline ',' (Stream.ofText r.text) [] = ⟨true, r.id, behind r.fields⟩ :=
  getline_field hr.1 []

theorem csvLoop_eq {σ : Type} {body : σ → List Char → Option σ} (hbody : ∀ x, body x [] = some x)
    {rs : List (List Char)} {t : List Char} (h : Layout rs t) :
    ∀ x, csvLoop body ⟨t, true⟩ x = rs.foldlM body x := by
  induction h with
  | @blank b hb =>
    intro x
    have hw : readWord ⟨b, true⟩ [] = ⟨false, [], ⟨[], false⟩⟩ := by
      simp [readWord, dropWhile_all hb]
    rw [csvLoop]
    simp [hw, hbody]
  | @last b r hb hr hc =>
    intro x
    have hd : (b ++ r).dropWhile isBlank = r := by
      rw [List.dropWhile_append_of_pos hb]
      cases r with
      | nil => rfl
      | cons c r => simp [hc c (by simp)]
    have h1 : r.dropWhile (fun c => !isBlank c) = [] := dropWhile_all (by simpa using hc)
    have h2 : r.takeWhile (fun c => !isBlank c) = r := takeWhile_all (by simpa using hc)
    have hw : readWord ⟨b ++ r, true⟩ [] = ⟨true, r, ⟨[], false⟩⟩ := by
      simp [readWord, hd, hr, h1, h2]
    rw [csvLoop]
    simp [hw]
  | @cons b r c t rs hb hr hc hs h ih =>
    intro x
    have hd : (b ++ r ++ c :: t).dropWhile isBlank = r ++ c :: t := by
      rw [List.append_assoc, List.dropWhile_append_of_pos hb]
      cases r with
      | nil => exact absurd rfl hr
      | cons c r => simp [hc c (by simp)]
    have h1 : (r ++ c :: t).dropWhile (fun c => !isBlank c) = c :: t :=
      dropWhile_append_stop (by simpa using hc) (by simp [hs])
    have h2 : (r ++ c :: t).takeWhile (fun c => !isBlank c) = r :=
      takeWhile_append_stop (by simpa using hc) (by simp [hs])
    have hw : readWord ⟨b ++ r ++ c :: t, true⟩ [] = ⟨true, r, ⟨c :: t, true⟩⟩ := by
      simp only [readWord, if_true, hd, h1, h2]
      simp
    rw [csvLoop]
    simp only [hw, if_true, List.foldlM_cons]
    exact bind_congr fun y => ih y

theorem csvImport_eq {σ : Type} {body : σ → List Char → Option σ} (hbody : ∀ x, body x [] = some x)
    {recs : List Record} {file : List Char} (h : IsCsv recs file) (x : σ) :
    csvImport body (some file) x =
      ((recs.map Record.text).foldlM body x).map fun y => (true, y) := by
  obtain ⟨head, bdy, rfl, hh, -, hl⟩ := h
  simp only [csvImport, Stream.ofText, getline_stop hh, csvLoop_eq hbody hl]

/-- Rows that push at the end, one record after the other. -/
theorem foldlM_push {α : Type} {body : List α → List Char → Option (List α)}
    {f : Record → Option (List α)} : ∀ {recs : List Record},
      (∀ r ∈ recs, ∀ x, body x r.text = (f r).map (x ++ ·)) → ∀ x,
      (recs.map Record.text).foldlM body x = (recs.mapM f).map fun ys => x ++ ys.flatten
  | [], _, x => by simp
  | r :: recs, h, x => by
    simp only [List.map_cons, List.foldlM_cons, List.mapM_cons, h r (by simp)]
    cases f r with
    | none => rfl
    | some y =>
      have ih := foldlM_push (recs := recs) (fun r hr => h r (by simp [hr])) (x ++ y)
      simp only [Option.map_some, Option.bind_eq_bind, Option.bind_some]
      rw [ih]
      cases recs.mapM f <;> simp

end Pansfem
