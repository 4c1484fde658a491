import Verif.Spec.Vtk
import Verif.Lemmas.Text
import Mathlib.Tactic.Ring
import Mathlib.Tactic.NormNum
import Mathlib.Tactic.IntervalCases

namespace Pansfem

/-! ### Integers -/

theorem digitChar_isDigit {n : ℕ} (h : n < 10) : (digitChar n).isDigit = true := by
  interval_cases n <;> decide

theorem digitChar_value {n : ℕ} (h : n < 10) : (digitChar n).toNat - 48 = n := by
  interval_cases n <;> decide

theorem showNat_digits (n : ℕ) : ∀ c ∈ showNat n, c.isDigit = true := by
  induction n using Nat.strong_induction_on with
  | _ n ih =>
    rw [showNat]
    split
    · intro c hc
      rw [List.mem_singleton.1 hc]; exact digitChar_isDigit ‹_›
    · intro c hc
      rcases List.mem_append.1 hc with hc | hc
      · exact ih (n / 10) (by omega) c hc
      · rw [List.mem_singleton.1 hc]; exact digitChar_isDigit (by omega)

theorem showNat_ne (n : ℕ) : showNat n ≠ [] := by
  rw [showNat]; split <;> simp

theorem digitsValue_append (a : List Char) (c : Char) :
    digitsValue (a ++ [c]) = 10 * digitsValue a + (c.toNat - 48) := by
  simp [digitsValue]

theorem showNat_value (n : ℕ) : digitsValue (showNat n) = n := by
  induction n using Nat.strong_induction_on with
  | _ n ih =>
    rw [showNat]
    split
    · have := digitChar_value ‹_›
      simp [digitsValue, this]
    · rw [digitsValue_append, ih (n / 10) (by omega), digitChar_value (by omega)]
      omega

theorem isDigit_not_blank {c : Char} (h : c.isDigit = true) : isBlank c = false := by
  by_contra hb
  simp only [Bool.not_eq_false, isBlank, Bool.or_eq_true, beq_iff_eq] at hb
  rcases hb with ((((rfl | rfl) | rfl) | rfl) | rfl) | rfl <;> revert h <;> decide

theorem isDigit_ne {c d : Char} (h : c.isDigit = true) (hd : d.isDigit = false) : c ≠ d := by
  rintro rfl; rw [h] at hd; cases hd

theorem blank_not_digit {c : Char} (h : isBlank c = true) : c.isDigit = false := by
  cases hd : c.isDigit with
  | false => rfl
  | true => rw [isDigit_not_blank hd] at h; cases h

theorem parseNat_show (n : ℕ) {s : List Char} (hs : ∀ c ∈ s.head?, isBlank c = true) :
    parseNat (showNat n ++ s) = some (n, s) := by
  have h1 : (showNat n ++ s).takeWhile Char.isDigit = showNat n := by
    cases s with
    | nil => simpa using takeWhile_all (showNat_digits n)
    | cons c s => exact takeWhile_append_stop (showNat_digits n) (blank_not_digit (hs c rfl))
  have h2 : (showNat n ++ s).dropWhile Char.isDigit = s := by
    cases s with
    | nil => simpa using dropWhile_all (showNat_digits n)
    | cons c s => exact dropWhile_append_stop (showNat_digits n) (blank_not_digit (hs c rfl))
  simp [parseNat, h1, h2, showNat_ne, showNat_value]

theorem parseSigned_show (z : ℤ) {s : List Char} (hs : ∀ c ∈ s.head?, isBlank c = true) :
    parseSigned (showInt z ++ s) = some (z, s) := by
  unfold showInt
  split
  · have : parseSigned ('-' :: showNat z.natAbs ++ s) =
        (parseNat (showNat z.natAbs ++ s)).map fun p => (-(p.1 : ℤ), p.2) := rfl
    rw [this, parseNat_show _ hs, Option.map_some]
    congr 2; omega
  · have hd := showNat_digits z.natAbs
    have hp := parseNat_show z.natAbs hs
    have : parseSigned (showNat z.natAbs ++ s) =
        (parseNat (showNat z.natAbs ++ s)).map fun p => ((p.1 : ℤ), p.2) := by
      cases h : showNat z.natAbs with
      | nil => exact absurd h (showNat_ne _)
      | cons c t =>
        rw [h] at hd
        have hc := hd c (by simp)
        have h1 : c ≠ '-' := isDigit_ne hc (by decide)
        have h2 : c ≠ '+' := isDigit_ne hc (by decide)
        simp only [List.cons_append]
        unfold parseSigned
        split
        · rename_i heq; exact absurd (List.cons.inj heq).1 h1
        · rename_i heq; exact absurd (List.cons.inj heq).1 h2
        · rfl
    rw [this, hp, Option.map_some]
    congr 2; omega

theorem parseInt_show {z : ℤ} (hz : InRange z) {s : List Char}
    (hs : ∀ c ∈ s.head?, isBlank c = true) : parseInt (showInt z ++ s) = some (z, s) := by
  rw [parseInt, parseSigned_show z hs, Option.bind_some]
  exact if_pos hz

theorem showInt_ne (z : ℤ) : showInt z ≠ [] := by
  unfold showInt; split
  · simp
  · exact showNat_ne _

theorem showInt_chars (z : ℤ) : ∀ c ∈ showInt z, c = '-' ∨ c.isDigit = true := by
  unfold showInt; split
  · intro c hc
    rcases List.mem_cons.1 hc with rfl | hc
    · exact Or.inl rfl
    · exact Or.inr (showNat_digits _ c hc)
  · exact fun c hc => Or.inr (showNat_digits _ c hc)

theorem showInt_plain (z : ℤ) : ∀ c ∈ showInt z, isBlank c = false := by
  intro c hc
  rcases showInt_chars z c hc with rfl | h
  · decide
  · exact isDigit_not_blank h

theorem showNat_plain (n : ℕ) : ∀ c ∈ showNat n, isBlank c = false :=
  fun c hc => isDigit_not_blank (showNat_digits n c hc)

theorem showInt_natCast (n : ℕ) : showInt n = showNat n := by
  unfold showInt
  rw [if_neg (by omega)]; simp

/-! ### Reading one thing after the other -/

/-- The stream of an operation that stopped in front of `s`. -/
def atText (s : List Char) : Stream := ⟨s, !s.isEmpty⟩

/-- All characters are blanks. -/
def Blanks (b : List Char) : Prop := ∀ c ∈ b, isBlank c = true

theorem atText_good {s : List Char} (h : s ≠ []) : atText s = ⟨s, true⟩ := by
  cases s with
  | nil => exact absurd rfl h
  | cons c s => rfl

theorem dropWhile_word {b w s : List Char} (hb : Blanks b) (hw : w ≠ [])
    (hp : ∀ c ∈ w, isBlank c = false) : (b ++ w ++ s).dropWhile isBlank = w ++ s := by
  rw [List.append_assoc, List.dropWhile_append_of_pos hb]
  cases w with
  | nil => exact absurd rfl hw
  | cons c w => simp [hp c (by simp)]

theorem readWord_word {b w s str : List Char} (hb : Blanks b) (hw : w ≠ [])
    (hp : ∀ c ∈ w, isBlank c = false) (hs : ∀ c ∈ s.head?, isBlank c = true) :
    readWord (atText (b ++ w ++ s)) str = ⟨true, w, atText s⟩ := by
  have hne : b ++ w ++ s ≠ [] := by simp [hw]
  have h1 : (w ++ s).dropWhile (fun c => !isBlank c) = s := by
    cases s with
    | nil => simpa using dropWhile_all (p := fun c => !isBlank c) (by simpa using hp)
    | cons c s => exact dropWhile_append_stop (by simpa using hp) (by simp [hs c rfl])
  have h2 : (w ++ s).takeWhile (fun c => !isBlank c) = w := by
    cases s with
    | nil => simpa using takeWhile_all (p := fun c => !isBlank c) (by simpa using hp)
    | cons c s => exact takeWhile_append_stop (by simpa using hp) (by simp [hs c rfl])
  have hne' : w ++ s ≠ [] := by simp [hw]
  simp only [atText_good hne, readWord, if_true, dropWhile_word hb hw hp, h1, h2, hne', if_false]
  rfl

theorem readInt_word {b s : List Char} {z : ℤ} (hz : InRange z) (hb : Blanks b)
    (hs : ∀ c ∈ s.head?, isBlank c = true) :
    readInt (atText (b ++ showInt z ++ s)) = some (z, atText s) := by
  have hne : b ++ showInt z ++ s ≠ [] := by simp [showInt_ne]
  simp only [atText_good hne, readInt, if_true, dropWhile_word hb (showInt_ne z) (showInt_plain z),
    parseInt_show hz hs]
  rfl

theorem readNum_word {K : Type} {prt : K → List Char} {rd : List Char → Option (K × ℕ)} {val : K → K}
    (hc : Converts prt rd val) (x : K) {b s : List Char} (hb : Blanks b)
    (hs : ∀ c ∈ s.head?, isBlank c = true) :
    readNum rd (atText (b ++ prt x ++ s)) = some (val x, atText s) := by
  have hne : b ++ prt x ++ s ≠ [] := by simp [hc.ne]
  simp only [atText_good hne, readNum, if_true, dropWhile_word hb (hc.ne x) (hc.plain x),
    hc.read x s hs, Option.map_some, List.drop_left]
  rfl

/-- Reading with `f` takes the text `t`, except for blanks, and gives `a`. -/
def ReadsAs {α : Type} (f : Stream → Option (α × Stream)) (t : List Char) (a : α) : Prop :=
  ∀ b s, Blanks b → ∃ b', Blanks b' ∧ f (atText (b ++ t ++ s)) = some (a, atText (b' ++ s))

theorem blanks_cons {c : Char} (h : isBlank c = true) {b : List Char} (hb : Blanks b) :
    Blanks (c :: b) := by
  intro d hd
  rcases List.mem_cons.1 hd with rfl | hd
  · exact h
  · exact hb d hd

theorem blanks_append {a b : List Char} (ha : Blanks a) (hb : Blanks b) : Blanks (a ++ b) := by
  intro d hd
  rcases List.mem_append.1 hd with hd | hd
  · exact ha d hd
  · exact hb d hd

theorem blanks_nil : Blanks [] := by simp [Blanks]

theorem blank_tab : isBlank '\t' = true := by decide

theorem blank_nl : isBlank '\n' = true := by decide

theorem blank_sp : isBlank ' ' = true := by decide

theorem blanks_nl : Blanks ['\n'] := blanks_cons blank_nl blanks_nil

theorem ReadsAs.blank {α : Type} {f : Stream → Option (α × Stream)} {t : List Char} {a : α}
    (h : ReadsAs f t a) {c : Char} (hc : isBlank c = true) : ReadsAs f (t ++ [c]) a := by
  intro b s hb
  obtain ⟨b', hb', he⟩ := h b (c :: s) hb
  refine ⟨b' ++ [c], blanks_append hb' (blanks_cons hc blanks_nil), ?_⟩
  simpa using he

theorem readsAs_num {K : Type} {prt : K → List Char} {rd : List Char → Option (K × ℕ)} {val : K → K}
    (hc : Converts prt rd val) (x : K) {c : Char} (hb : isBlank c = true) :
    ReadsAs (readNum rd) (prt x ++ [c]) (val x) := by
  intro b s hb'
  refine ⟨[c], blanks_cons hb blanks_nil, ?_⟩
  have := readNum_word hc x (s := c :: s) hb' (by simpa using hb)
  simpa using this

theorem readsAs_int {z : ℤ} (hz : InRange z) {c : Char} (hb : isBlank c = true) :
    ReadsAs readInt (showInt z ++ [c]) z := by
  intro b s hb'
  refine ⟨[c], blanks_cons hb blanks_nil, ?_⟩
  have := readInt_word hz (s := c :: s) hb' (by simpa using hb)
  simpa using this

theorem readsAs_times {α β : Type} {f : Stream → Option (α × Stream)} {T : β → List Char} {V : β → α} :
    ∀ {l : List β}, (∀ a ∈ l, ReadsAs f (T a) (V a)) →
      ReadsAs (readTimes f l.length) (l.flatMap T) (l.map V)
  | [], _ => fun b s hb => ⟨b, hb, by simp [readTimes]⟩
  | a :: l, h => by
    intro b s hb
    obtain ⟨b1, hb1, h1⟩ := h a (by simp) b (l.flatMap T ++ s) hb
    obtain ⟨b2, hb2, h2⟩ := readsAs_times (l := l) (fun a ha => h a (by simp [ha])) b1 s hb1
    refine ⟨b2, hb2, ?_⟩
    have e : b ++ (a :: l).flatMap T ++ s = b ++ T a ++ (l.flatMap T ++ s) := by simp
    rw [e, List.length_cons, readTimes, h1]
    simp only [Option.bind_eq_bind, Option.bind_some]
    rw [← List.append_assoc, h2]
    rfl

theorem readsAs_triple {K : Type} [Zero K] {prt : K → List Char} {rd : List Char → Option (K × ℕ)}
    {val : K → K} (hc : Converts prt rd val) {x : List K} (hx : x.length ≤ 3) :
    ReadsAs (readTriple rd) (vtkRow prt x) ((padded x).map val) := by
  have h3 : (padded x).length = 3 := by simp [padded]; omega
  have := readsAs_times (f := readNum rd) (T := fun a => prt a ++ ['\t']) (V := val) (l := padded x)
    (fun a _ => readsAs_num hc a (by decide))
  rw [h3] at this
  exact this.blank (c := '\n') (by decide)

theorem readsAs_cell {e : List ℤ} (he : ∀ k ∈ e, InRange k) (hl : (e.length : ℤ) < 2147483648) :
    ReadsAs readCell (cellRow e) e := by
  have hn : InRange e.length := ⟨by omega, hl⟩
  have h1 := readsAs_int hn (c := '\t') (by decide)
  have h2 := readsAs_times (f := readInt) (T := fun k => showInt k ++ ['\t']) (V := id) (l := e)
    (fun a ha => readsAs_int (he a ha) (by decide))
  have : ReadsAs readCell (showNat e.length ++ ['\t'] ++ e.flatMap fun k => showInt k ++ ['\t']) e := by
    intro b s hb
    rw [showInt_natCast] at h1
    obtain ⟨b1, hb1, e1⟩ := h1 b ((e.flatMap fun k => showInt k ++ ['\t']) ++ s) hb
    obtain ⟨b2, hb2, e2⟩ := h2 b1 s hb1
    refine ⟨b2, hb2, ?_⟩
    rw [readCell, show b ++ (showNat e.length ++ ['\t'] ++ e.flatMap fun k => showInt k ++ ['\t']) ++ s
      = b ++ (showNat e.length ++ ['\t']) ++ ((e.flatMap fun k => showInt k ++ ['\t']) ++ s) by simp,
      e1, Option.bind_some, Int.toNat_natCast, ← List.append_assoc, e2, List.map_id]
  exact this.blank (c := '\n') (by decide)

/-! ### Words -/

theorem Layout.prepend {ws : List (List Char)} {t b : List Char} (h : Layout ws t) (hb : Blanks b) :
    Layout ws (b ++ t) := by
  cases h with
  | blank hb' => exact Layout.blank (blanks_append hb hb')
  | last hb' hr hc =>
    rw [← List.append_assoc]; exact Layout.last (blanks_append hb hb') hr hc
  | cons hb' hr hc hs h =>
    rw [List.append_assoc, ← List.append_assoc, ← List.append_assoc]
    exact Layout.cons (blanks_append hb hb') hr hc hs h

/-- The text is empty or its last character is a blank. -/
def EndsBlank (t : List Char) : Prop := ∀ c ∈ t.getLast?, isBlank c = true

theorem Layout.append {ws vs : List (List Char)} {s t : List Char} (h : Layout ws s)
    (hs : EndsBlank s) (ht : Layout vs t) : Layout (ws ++ vs) (s ++ t) := by
  induction h with
  | blank hb => exact ht.prepend hb
  | @last b r hb hr hc =>
    exfalso
    have h1 := hs (r.getLast hr) (by
      rw [List.getLast?_append_of_ne_nil _ hr, List.getLast?_eq_getLast_of_ne_nil hr]; rfl)
    rw [hc _ (List.getLast_mem hr)] at h1
    cases h1
  | @cons b r c t' rs hb hr hc hs' h ih =>
    have h2 : EndsBlank (c :: t') := by
      intro d hd
      exact hs d (by rwa [List.getLast?_append_of_ne_nil _ (by simp)])
    have := ih h2
    rw [List.append_assoc]
    exact Layout.cons hb hr hc hs' this

theorem Layout.word {w : List Char} (hw : w ≠ []) (hp : ∀ c ∈ w, isBlank c = false) {c : Char}
    (hc : isBlank c = true) : Layout [w] (w ++ [c]) := by
  have := Layout.cons (b := []) (t := []) blanks_nil hw hp hc
    (Layout.blank (b := [c]) (blanks_cons hc blanks_nil))
  simpa using this

theorem EndsBlank.append {s t : List Char} (hs : EndsBlank s) (ht : EndsBlank t) :
    EndsBlank (s ++ t) := by
  intro c hc
  rcases t.eq_nil_or_concat with rfl | ⟨t', d, rfl⟩
  · exact hs c (by simpa using hc)
  · exact ht c (by rwa [List.getLast?_append_of_ne_nil _ (by simp)] at hc)

theorem endsBlank_snoc (s : List Char) {c : Char} (h : isBlank c = true) : EndsBlank (s ++ [c]) := by
  intro d hd
  simp only [List.getLast?_concat, Option.mem_some_iff] at hd
  rw [← hd]; exact h

theorem endsBlank_nil : EndsBlank [] := by intro c hc; simp at hc

/-- A text made of pieces, each a number of words and with a blank at its end. -/
theorem layout_flatMap {β : Type} {T : β → List Char} {W : β → List (List Char)} :
    ∀ {l : List β}, (∀ a ∈ l, Layout (W a) (T a) ∧ EndsBlank (T a)) →
      Layout (l.flatMap W) (l.flatMap T) ∧ EndsBlank (l.flatMap T)
  | [], _ => ⟨Layout.blank blanks_nil, endsBlank_nil⟩
  | a :: l, h => by
    obtain ⟨h1, h2⟩ := layout_flatMap (l := l) (fun a ha => h a (by simp [ha]))
    obtain ⟨h3, h4⟩ := h a (by simp)
    exact ⟨h3.append h4 h1, h4.append h2⟩

theorem readWord_blanks {b s str : List Char} (hb : Blanks b) (hs : s ≠ []) :
    readWord (atText (b ++ s)) str = readWord (atText s) str := by
  rw [atText_good (by simp [hs]), atText_good hs]
  simp only [readWord, if_true, List.dropWhile_append_of_pos hb]

theorem scanWords_step {α : Type} (key : List Char) (f : Stream → Option (α × Stream))
    (hf : NoLonger f) (s : Stream) (out : List α) :
    scanWords key f hf s out =
      if (readWord s []).ok = true then
        if (readWord s []).str = key then
          (readBlock f (readWord s []).stream).bind fun p => scanWords key f hf p.2 (out ++ p.1)
        else scanWords key f hf (readWord s []).stream out
      else some out := by
  rw [scanWords]
  split
  · split
    · split <;> rename_i heq <;> rw [heq] <;> rfl
    · rfl
  · rfl

theorem scanWords_skip {α : Type} {key : List Char} {f : Stream → Option (α × Stream)}
    {hf : NoLonger f} {ws : List (List Char)} {pre : List Char} (h : Layout ws pre) (hk : key ∉ ws)
    {c : Char} (hc : isBlank c = true) (s : List Char) (out : List α) :
    scanWords key f hf (atText (pre ++ c :: s)) out = scanWords key f hf (atText (c :: s)) out := by
  induction h with
  | @blank b hb =>
    rw [scanWords_step, readWord_blanks hb (show c :: s ≠ [] by simp), ← scanWords_step]
  | @last b r hb hr hp =>
    have hw := readWord_word (str := []) (s := c :: s) hb hr hp (by simpa using hc)
    rw [scanWords_step, hw, if_pos rfl, if_neg (by rintro rfl; simp at hk)]
  | @cons b r d t rs hb hr hp hd h ih =>
    have hw := readWord_word (str := []) (s := d :: t ++ c :: s) hb hr hp (by simpa using hd)
    rw [show b ++ r ++ d :: t ++ c :: s = b ++ r ++ (d :: t ++ c :: s) by simp, scanWords_step, hw, if_pos rfl, if_neg (by rintro rfl; simp at hk), ih (fun h => hk (by simp [h]))]

theorem scanWords_end {α : Type} {key : List Char} {f : Stream → Option (α × Stream)}
    {hf : NoLonger f} {ws : List (List Char)} {t : List Char} (h : Layout ws t) (hk : key ∉ ws)
    (out : List α) : scanWords key f hf (atText t) out = some out := by
  induction h with
  | @blank b hb =>
    rw [scanWords_step]
    have : (readWord (atText b) []).ok = false := by
      cases b with
      | nil => rfl
      | cons c b => simp [readWord, atText, dropWhile_all hb]
    simp [this]
  | @last b r hb hr hp =>
    have hw := readWord_word (str := []) (s := []) hb hr hp (by simp)
    rw [List.append_nil] at hw
    rw [scanWords_step, hw, if_pos rfl, if_neg (by rintro rfl; simp at hk), scanWords_step]
    simp [readWord, atText]
  | @cons b r d t rs hb hr hp hd h ih =>
    have hw := readWord_word (str := []) (s := d :: t) hb hr hp (by simpa using hd)
    rw [scanWords_step, hw, if_pos rfl, if_neg (by rintro rfl; simp at hk), ih (fun h => hk (by simp [h]))]

/-- The keyword in the middle of a file. -/
theorem scanWords_block {α : Type} {key : List Char} {f : Stream → Option (α × Stream)}
    {hf : NoLonger f} {ws vs : List (List Char)} {pre t post : List Char} {out : List α} {c d : Char}
    (hpre : Layout ws pre) (hws : key ∉ ws) (hpost : Layout vs post) (hvs : key ∉ vs)
    (hc : isBlank c = true) (hd : isBlank d = true) (hkey : key ≠ [])
    (hp : ∀ c ∈ key, isBlank c = false) (h : ReadsAs (readBlock f) (d :: t) out) :
    scanWords key f hf (Stream.ofText (pre ++ c :: key ++ d :: t ++ post)) [] = some out := by
  have e : Stream.ofText (pre ++ c :: key ++ d :: t ++ post) =
      atText (pre ++ c :: (key ++ d :: t ++ post)) := by
    rw [atText_good (by simp)]; simp [Stream.ofText]
  rw [e, scanWords_skip hpre hws hc]
  have hw := readWord_word (str := []) (b := [c]) (w := key) (s := d :: t ++ post)
    (blanks_cons hc blanks_nil) hkey hp (by simpa using hd)
  rw [show [c] ++ key ++ (d :: t ++ post) = c :: (key ++ d :: t ++ post) by simp] at hw
  obtain ⟨b', hb', he⟩ := h [] post blanks_nil
  rw [List.nil_append] at he
  rw [scanWords_step, hw, if_pos rfl, if_pos rfl, he, Option.bind_some]
  exact scanWords_end (hpost.prepend hb') hvs out

theorem readsAs_block {α β : Type} {f : Stream → Option (α × Stream)} {T : β → List Char} {V : β → α}
    {l : List β} {w : List Char} {a b c d : Char} (hl : (l.length : ℤ) < 2147483648)
    (h : ∀ x ∈ l, ReadsAs f (T x) (V x)) (hw : w ≠ []) (hp : ∀ c ∈ w, isBlank c = false)
    (ha : isBlank a = true) (hb : isBlank b = true) (hc : isBlank c = true) :
    ReadsAs (readBlock f) (a :: (showNat l.length ++ b :: (w ++ c :: l.flatMap T))) (l.map V) := by
  intro b0 s hb0
  have hn : InRange l.length := ⟨by omega, hl⟩
  have h1 := readInt_word hn (b := b0 ++ [a]) (s := b :: (w ++ c :: (l.flatMap T ++ s)))
    (blanks_append hb0 (blanks_cons ha blanks_nil)) (by simpa using hb)
  have h2 := readWord_word (str := []) (b := [b]) (w := w) (s := c :: (l.flatMap T ++ s))
    (blanks_cons hb blanks_nil) hw hp (by simpa using hc)
  obtain ⟨b', hb', h3⟩ := readsAs_times h [c] s (blanks_cons hc blanks_nil)
  refine ⟨b', hb', ?_⟩
  rw [showInt_natCast] at h1
  rw [readBlock, show b0 ++ a :: (showNat l.length ++ b :: (w ++ c :: l.flatMap T)) ++ s
    = b0 ++ [a] ++ showNat l.length ++ b :: (w ++ c :: (l.flatMap T ++ s)) by simp, h1,
    Option.bind_some]
  simp only [Int.toNat_natCast]
  rw [show b :: (w ++ c :: (l.flatMap T ++ s)) = [b] ++ w ++ c :: (l.flatMap T ++ s) by simp, h2]
  simpa using h3

end Pansfem
