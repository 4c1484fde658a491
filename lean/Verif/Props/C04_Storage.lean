/-
C04: the storage of vectors and matrices.  C89: vectors and matrices are values.
-/
import Verif.Spec.Heap
import Mathlib.Data.List.Count
import Mathlib.Data.List.Nodup
import Mathlib.Tactic.NormNum
import Mathlib.Tactic.Ring

namespace Pansfem.Heap

variable {α : Type}

/-- A heap object stands for a value. -/
def Stands (s : State α) (o : Obj) (w : Val α) : Prop :=
  o.kind = w.kind ∧ o.row = w.row ∧ o.col = w.col ∧ w.vals.length = o.count ∧
    if w.unset then o.ptr = .wild ∧ w.vals = [] else ∃ a, o.ptr = .addr a ∧ s.mem a = some w.vals

/-- An object owns a block. -/
def Owns (s : State α) (x a : ℕ) : Prop := ∃ o, s.objs x = some o ∧ o.ptr = .addr a

/-- The invariant of a history: the objects stand for values, blocks are not shared, what was handed out is
either live or released, and released once. -/
structure Inv (s : State α) (v : VState α) : Prop where
  none_iff : ∀ x, s.objs x = none ↔ v x = none
  stands : ∀ x o w, s.objs x = some o → v x = some w → Stands s o w
  apart : ∀ x y a, Owns s x a → Owns s y a → x = y
  bound : ∀ a, s.mem a ≠ none → a < s.next
  gone : ∀ a, a ∈ s.released ↔ a < s.next ∧ s.mem a = none
  once : s.released.Nodup
  orphan : ∀ a l, s.mem a = some l → (∃ x, Owns s x a) ∨ l = []

/-- Every live block belongs to an object. -/
def NoOrphan (s : State α) : Prop := ∀ a l, s.mem a = some l → ∃ x, Owns s x a

theorem inv_init : Inv (State.init α) (fun _ => none) where
  none_iff := fun x => by simp [State.init]
  stands := fun x o w h => by simp [State.init] at h
  apart := fun x y a h => by obtain ⟨o, h, -⟩ := h; simp [State.init] at h
  bound := fun a h => by simp [State.init] at h
  gone := fun a => by simp [State.init]
  once := by simp [State.init]
  orphan := fun a l h => by simp [State.init] at h

theorem put_same {β : Type} (f : ℕ → β) (x : ℕ) (b : β) : put f x b x = b := by simp [put]
theorem put_ne {β : Type} (f : ℕ → β) {x y : ℕ} (b : β) (h : y ≠ x) : put f x b y = f y := by simp [put, h]


/-- The memory without a block. -/
def dropBlock (mem : ℕ → Option (List α)) : Option ℕ → ℕ → Option (List α)
  | none => mem
  | some a => put mem a none

/-- `x` gets a new block, the block `d` is released. -/
def rebind (s : State α) (x : ℕ) (o : Obj) (l : List α) (d : Option ℕ) : State α :=
  ⟨put (dropBlock s.mem d) s.next (some l), s.next + 1, s.released ++ d.toList, put s.objs x (some o)⟩

theorem Inv.owns_live {s : State α} {v : VState α} (h : Inv s v) {x a : ℕ} (ho : Owns s x a) :
    ∃ w, v x = some w ∧ w.unset = false ∧ s.mem a = some w.vals := by
  obtain ⟨o, ho, hp⟩ := ho
  obtain ⟨w, hw⟩ : ∃ w, v x = some w := by
    cases hv : v x with
    | none => rw [(h.none_iff x).2 hv] at ho; simp at ho
    | some w => exact ⟨w, rfl⟩
  obtain ⟨-, -, -, -, hs⟩ := h.stands x o w ho hw
  cases hu : w.unset with
  | true => rw [hu] at hs; simp [hp] at hs
  | false =>
    rw [hu] at hs
    obtain ⟨b, hb, hm⟩ := hs
    rw [hp] at hb
    injection hb with hb
    subst hb
    exact ⟨w, hw, hu, hm⟩

theorem Inv.owns_lt {s : State α} {v : VState α} (h : Inv s v) {x a : ℕ} (ho : Owns s x a) :
    a < s.next := by
  obtain ⟨w, -, -, hm⟩ := h.owns_live ho
  exact h.bound a (by simp [hm])

section Rebind
variable {s : State α} {v : VState α} {x : ℕ} {k : Kind} {r c : ℕ} {l : List α} {d : Option ℕ}

theorem owns_rebind {y a : ℕ} (ho : Owns (rebind s x ⟨k, r, c, .addr s.next⟩ l d) y a) :
    y = x ∧ a = s.next ∨ y ≠ x ∧ Owns s y a := by
  obtain ⟨o, ho, hp⟩ := ho
  by_cases hy : y = x
  · subst hy
    simp only [rebind, put_same, Option.some.injEq] at ho
    subst ho
    injection hp with hp
    exact .inl ⟨rfl, hp.symm⟩
  · simp only [rebind, put_ne _ _ hy] at ho
    exact .inr ⟨hy, o, ho, hp⟩

theorem rebind_owns_other {y a : ℕ} (hy : y ≠ x) (ho : Owns s y a) :
    Owns (rebind s x ⟨k, r, c, .addr s.next⟩ l d) y a := by
  obtain ⟨o, ho, hp⟩ := ho
  exact ⟨o, by simp only [rebind, put_ne _ _ hy, ho], hp⟩

theorem rebind_mem_new {o : Obj} : (rebind s x o l d).mem s.next = some l := put_same _ _ _

theorem rebind_mem_old {o : Obj} {a : ℕ} (ha : a ≠ s.next) (hd : d ≠ some a) :
    (rebind s x o l d).mem a = s.mem a := by
  simp only [rebind, put_ne _ _ ha]
  cases d with
  | none => rfl
  | some b => exact put_ne _ _ fun e => hd (by rw [e])

theorem Inv.rebind (h : Inv s v) (hl : l.length = Obj.count ⟨k, r, c, .addr s.next⟩)
    (hd : ∀ a, d = some a → Owns s x a)
    (hn : d = none → ∀ a l', Owns s x a → s.mem a = some l' → l' = []) :
    Inv (rebind s x ⟨k, r, c, .addr s.next⟩ l d) (put v x (some ⟨k, r, c, l, false⟩)) where
  none_iff := fun y => by
    by_cases hy : y = x
    · subst hy; simp [Heap.rebind, put_same]
    · simp only [Heap.rebind, put_ne _ _ hy]; exact h.none_iff y
  stands := fun y o w ho hw => by
    by_cases hy : y = x
    · subst hy
      simp only [Heap.rebind, put_same, Option.some.injEq] at ho hw
      subst ho; subst hw
      exact ⟨rfl, rfl, rfl, hl, s.next, rfl, rebind_mem_new⟩
    · simp only [Heap.rebind, put_ne _ _ hy] at ho hw
      obtain ⟨h1, h2, h3, h4, h5⟩ := h.stands y o w ho hw
      refine ⟨h1, h2, h3, h4, ?_⟩
      split_ifs at h5 ⊢ with hu
      · exact h5
      · obtain ⟨a, hp, hm⟩ := h5
        have hoy : Owns s y a := ⟨o, ho, hp⟩
        refine ⟨a, hp, ?_⟩
        rw [rebind_mem_old (h.owns_lt hoy).ne]
        · exact hm
        · exact fun e => hy (h.apart _ _ _ hoy (hd a e))
  apart := fun y z a hy hz => by
    rcases owns_rebind hy with ⟨rfl, rfl⟩ | ⟨hy1, hy2⟩ <;> rcases owns_rebind hz with ⟨rfl, e⟩ | ⟨hz1, hz2⟩
    · rfl
    · exact absurd (h.owns_lt hz2) (lt_irrefl _)
    · exact absurd (h.owns_lt hy2) (by rw [e]; exact lt_irrefl _)
    · exact h.apart _ _ _ hy2 hz2
  bound := fun a ha => by
    by_cases h1 : a = s.next
    · subst h1; exact Nat.lt_succ_self _
    · by_cases h2 : d = some a
      · exact lt_trans (h.owns_lt (hd a h2)) (Nat.lt_succ_self _)
      · rw [rebind_mem_old h1 h2] at ha
        exact lt_trans (h.bound a ha) (Nat.lt_succ_self _)
  gone := fun a => by
    show a ∈ s.released ++ d.toList ↔ a < s.next + 1 ∧ _
    rw [List.mem_append, h.gone a, Option.mem_toList]
    by_cases h1 : a = s.next
    · subst h1
      rw [rebind_mem_new]
      constructor
      · rintro (⟨h2, -⟩ | h2)
        · exact absurd h2 (lt_irrefl _)
        · exact absurd (h.owns_lt (hd _ h2)) (lt_irrefl _)
      · rintro ⟨-, h2⟩
        simp at h2
    · by_cases h2 : d = some a
      · have h3 : a < s.next := h.owns_lt (hd a h2)
        refine iff_of_true (.inr h2) ⟨by omega, ?_⟩
        simp only [Heap.rebind, put_ne _ _ h1]
        rw [h2]
        exact put_same _ _ _
      · rw [rebind_mem_old h1 h2]
        constructor
        · rintro (⟨h3, h4⟩ | h3)
          · exact ⟨by omega, h4⟩
          · exact absurd h3 h2
        · rintro ⟨h3, h4⟩
          exact .inl ⟨by omega, h4⟩
  once := by
    show (s.released ++ d.toList).Nodup
    cases d with
    | none => simpa using h.once
    | some a =>
      obtain ⟨w, -, -, hm⟩ := h.owns_live (hd a rfl)
      refine List.nodup_append.2 ⟨h.once, by simp, ?_⟩
      rintro b hb c hc rfl
      simp only [Option.toList_some, List.mem_singleton] at hc
      subst hc
      rw [h.gone, hm] at hb
      simp at hb
  orphan := fun a l' ha => by
    by_cases h1 : a = s.next
    · subst h1
      exact .inl ⟨x, _, put_same _ _ _, rfl⟩
    · by_cases h2 : d = some a
      · simp only [Heap.rebind, put_ne _ _ h1] at ha
        rw [h2] at ha
        simp [dropBlock, put_same] at ha
      · rw [rebind_mem_old h1 h2] at ha
        rcases h.orphan a l' ha with ⟨y, hy⟩ | h3
        · by_cases hyx : y = x
          · subst hyx
            cases hd' : d with
            | none => exact .inr (hn hd' a l' hy ha)
            | some b =>
              obtain ⟨o, ho, hp⟩ := hy
              obtain ⟨o', ho', hp'⟩ := hd b hd'
              rw [ho] at ho'
              injection ho' with ho'
              subst ho'
              rw [hp] at hp'
              injection hp' with hp'
              exact absurd (by rw [hd', hp']) h2
          · exact .inl ⟨y, rebind_owns_other hyx hy⟩
        · exact .inr h3

theorem NoOrphan.rebind (h : NoOrphan s) (hd : ∀ a, Owns s x a → d = some a) :
    NoOrphan (rebind s x ⟨k, r, c, .addr s.next⟩ l d) := by
  intro a l' ha
  by_cases h1 : a = s.next
  · subst h1
    exact ⟨x, _, put_same _ _ _, rfl⟩
  · by_cases h2 : d = some a
    · simp only [Heap.rebind, put_ne _ _ h1] at ha
      rw [h2] at ha
      simp [dropBlock, put_same] at ha
    · rw [rebind_mem_old h1 h2] at ha
      obtain ⟨y, hy⟩ := h a l' ha
      by_cases hyx : y = x
      · subst hyx
        exact absurd (hd a hy) h2
      · exact ⟨y, rebind_owns_other hyx hy⟩

end Rebind

/-- The outcomes on the heap and on values agree; `N`: no block is lost. -/
def Agrees (N : Prop) : Except Fail (State α) → Except Fail (VState α) → Prop
  | .ok s, .ok v => Inv s v ∧ (N → NoOrphan s)
  | .error e, .error e' => e = e'
  | _, _ => False

section Step
variable {s : State α} {v : VState α}

theorem Inv.get (h : Inv s v) (x : ℕ) :
    s.get x = .error .scope ∧ v.get x = .error .scope ∨
    ∃ o w, s.get x = .ok o ∧ v.get x = .ok w ∧ s.objs x = some o ∧ v x = some w ∧ Stands s o w := by
  cases ho : s.objs x with
  | none => exact .inl ⟨by simp [State.get, ho], by simp [VState.get, (h.none_iff x).1 ho]⟩
  | some o =>
    cases hv : v x with
    | none => rw [(h.none_iff x).2 hv] at ho; simp at ho
    | some w =>
      exact .inr ⟨o, w, by simp [State.get, ho], by simp [VState.get, hv], rfl, rfl, h.stands x o w ho hv⟩

theorem construct_eq {x : ℕ} {k : Kind} {r c : ℕ} {l : List α} (hx : s.objs x = none) :
    s.construct x k r c l = .ok (rebind s x ⟨k, r, c, .addr s.next⟩ l none) := by
  simp [State.construct, hx, State.alloc, rebind, dropBlock]

theorem agrees_construct (h : Inv s v) (x : ℕ) {k : Kind} {r c : ℕ} {l : List α}
    (hl : l.length = Obj.count ⟨k, r, c, .addr s.next⟩) :
    Agrees (NoOrphan s) (s.construct x k r c l) (v.new x ⟨k, r, c, l, false⟩) := by
  cases hx : s.objs x with
  | none =>
    rw [construct_eq hx, VState.new, (h.none_iff x).1 hx]
    have hno : ∀ a, ¬ Owns s x a := fun a => by
      rintro ⟨o, ho, -⟩
      rw [hx] at ho
      simp at ho
    exact ⟨h.rebind hl (fun a e => nomatch e) (fun _ a l' ho => absurd ho (hno a)),
      fun hN => hN.rebind fun a ho => absurd ho (hno a)⟩
  | some o =>
    have hv : v x ≠ none := fun e => by rw [(h.none_iff x).2 e] at hx; simp at hx
    obtain ⟨w, hw⟩ := Option.ne_none_iff_exists'.1 hv
    simp [State.construct, hx, VState.new, hw, Agrees]

theorem agrees_default (h : Inv s v) (x : ℕ) {k : Kind} {c : ℕ} :
    Agrees (NoOrphan s) (s.default x k c) (v.new x ⟨k, 0, c, [], true⟩) := by
  cases hx : s.objs x with
  | none =>
    rw [State.default, hx, VState.new, (h.none_iff x).1 hx]
    have old : ∀ y a, Owns { s with objs := put s.objs x (some ⟨k, 0, c, .wild⟩) } y a ↔ Owns s y a := by
      intro y a
      by_cases hy : y = x
      · subst hy
        simp [Owns, put_same, hx]
      · simp [Owns, put_ne _ _ hy]
    refine ⟨⟨fun y => ?_, fun y o w ho hw => ?_, fun y z a hy hz => ?_, h.bound, h.gone, h.once,
      fun a l ha => ?_⟩, fun hN a l ha => ?_⟩
    · by_cases hy : y = x
      · subst hy; simp [put_same]
      · simp only [put_ne _ _ hy]; exact h.none_iff y
    · by_cases hy : y = x
      · subst hy
        simp only [put_same, Option.some.injEq] at ho hw
        subst ho; subst hw
        refine ⟨rfl, rfl, rfl, ?_, rfl, rfl⟩
        cases k <;> simp [Obj.count]
      · simp only [put_ne _ _ hy] at ho hw
        exact h.stands y o w ho hw
    · exact h.apart y z a ((old y a).1 hy) ((old z a).1 hz)
    · rcases h.orphan a l ha with ⟨y, hy⟩ | h3
      · exact .inl ⟨y, (old y a).2 hy⟩
      · exact .inr h3
    · obtain ⟨y, hy⟩ := hN a l ha
      exact ⟨y, (old y a).2 hy⟩
  | some o =>
    have hv : v x ≠ none := fun e => by rw [(h.none_iff x).2 e] at hx; simp at hx
    obtain ⟨w, hw⟩ := Option.ne_none_iff_exists'.1 hv
    simp [State.default, hx, VState.new, hw, Agrees]

/-- Reading the elements of a live object gives its values. -/
theorem Stands.read {o : Obj} {w : Val α} (h : Stands s o w) : s.read o.ptr o.count = .ok w.vals := by
  obtain ⟨-, -, -, hl, h5⟩ := h
  unfold State.read
  split_ifs at h5 ⊢ with h0 hu hu
  · rw [h5.2]
  · rw [h0] at hl
    rw [List.length_eq_zero_iff.1 hl]
  · rw [h5.2] at hl
    exact absurd hl.symm h0
  · obtain ⟨a, hp, hm⟩ := h5
    simp only [hp, hm]
    rw [if_pos hl.ge, ← hl, List.take_length]

theorem agrees_copy (h : Inv s v) (k : Kind) (x y : ℕ) [Zero α] :
    Agrees (NoOrphan s) (s.copy k x y) (vexec v (.copy k x y)) := by
  rcases h.get y with ⟨e1, e2⟩ | ⟨o, w, e1, e2, -, -, hs⟩
  · simp [State.copy, vexec, e1, e2, Except.bind, Agrees]
  · simp only [State.copy, vexec, e1, e2, Except.bind]
    obtain ⟨hk, hr, hc, hl, -⟩ := id hs
    rw [hk, hr, hc]
    by_cases ha : k = .vec ∧ w.kind = .mat ∧ w.col ≠ 1
    · rw [if_pos ha, if_pos ha]
      rfl
    · rw [if_neg ha, if_neg ha]
      have hn : (if k = Kind.vec then w.row else o.count) = o.count := by
        split_ifs with hkv
        · rw [Obj.count, hk, hr, hc]
          cases hw : w.kind with
          | vec => rfl
          | mat =>
            have : w.col = 1 := by
              by_contra hne
              exact ha ⟨hkv, hw, hne⟩
            simp [this]
        · rfl
      rw [hn, hs.read]
      refine agrees_construct h x ?_
      rw [hl, Obj.count, Obj.count, hk, hr, hc]
      cases k <;> cases hw : w.kind <;> simp
      have : w.col = 1 := by
        by_contra hne
        exact ha ⟨rfl, hw, hne⟩
      simp [this]

theorem Obj.holds_iff (o : Obj) : o.holds = true ↔ o.count ≠ 0 := by
  cases hk : o.kind <;> simp [Obj.holds, Obj.count, hk]

theorem agrees_assign [Zero α] (h : Inv s v) (x y : ℕ) :
    Agrees (NoEmptyTarget v (.assign x y) ∧ NoOrphan s) (s.assign x y) (vexec v (.assign x y)) := by
  rcases h.get x with ⟨e1, e2⟩ | ⟨o, w, e1, e2, ho, hv, hs⟩
  · simp [State.assign, vexec, e1, e2, Except.bind, Agrees]
  rcases h.get y with ⟨f1, f2⟩ | ⟨o', w', f1, f2, ho', hv', hs'⟩
  · simp [State.assign, vexec, e1, e2, f1, f2, Except.bind, Agrees]
  simp only [State.assign, vexec, e1, e2, f1, f2, Except.bind]
  obtain ⟨hk, hr, hc, hl, h5⟩ := id hs
  obtain ⟨hk', hr', hc', hl', h5'⟩ := id hs'
  rw [hk, hk']
  by_cases hkk : w.kind = w'.kind
  swap
  · rw [if_pos hkk, if_pos hkk]
    rfl
  rw [if_neg (not_not.2 hkk), if_neg (not_not.2 hkk)]
  by_cases hxy : x = y
  · rw [if_pos hxy, if_pos hxy]
    exact ⟨h, fun hN => hN.2⟩
  rw [if_neg hxy, if_neg hxy]
  have hlen : w'.vals.length = Obj.count ⟨w'.kind, w'.row, w'.col, .addr s.next⟩ := by
    rw [hl', Obj.count, Obj.count, hk', hr', hc']
  by_cases hh : o.holds = true
  · -- the block is released
    rw [if_pos hh]
    have hcount := (Obj.holds_iff o).1 hh
    cases hu : w.unset with
    | true =>
      rw [hu] at h5
      rw [h5.2] at hl
      exact absurd hl.symm hcount
    | false =>
      rw [hu] at h5
      obtain ⟨a, hp, hm⟩ := h5
      have hox : Owns s x a := ⟨o, ho, hp⟩
      have hfree : s.free o.ptr = .ok { s with mem := put s.mem a none, released := s.released ++ [a] } := by
        rw [hp, State.free]
        simp [hm]
      have hs2 : Stands { s with mem := put s.mem a none, released := s.released ++ [a] } o' w' := by
        refine ⟨hk', hr', hc', hl', ?_⟩
        split_ifs at h5' ⊢ with hu'
        · exact h5'
        · obtain ⟨b, hp', hm'⟩ := h5'
          refine ⟨b, hp', ?_⟩
          show put s.mem a none b = _
          rw [put_ne _ _ fun e => hxy (h.apart _ _ _ hox ⟨o', ho', by rw [hp', e]⟩)]
          exact hm'
      rw [hfree]
      simp only [hs2.read]
      have := h.rebind (x := x) (d := some a) (k := w'.kind) (r := w'.row) (c := w'.col) hlen
        (fun b e => by injection e with e; subst e; exact hox) (fun e => nomatch e)
      refine ⟨?_, fun hN => ?_⟩
      · rw [hkk, hr', hc']
        exact this
      · have := hN.2.rebind (x := x) (d := some a) (k := w'.kind) (r := w'.row) (c := w'.col)
          (l := w'.vals) fun b hb => by
            obtain ⟨q, hq, hqp⟩ := hb
            rw [ho] at hq
            injection hq with hq
            subst hq
            rw [hp] at hqp
            injection hqp with hqp
            rw [hqp]
        rw [hkk, hr', hc']
        exact this
  · -- nothing is released
    rw [if_neg hh]
    have hcount : o.count = 0 := by
      by_contra hne
      exact hh ((Obj.holds_iff o).2 hne)
    have hempty : w.vals = [] := by rw [hcount] at hl; exact List.length_eq_zero_iff.1 hl
    simp only [hs'.read]
    refine ⟨?_, fun hN => ?_⟩
    · rw [hkk, hr', hc']
      have e : ({ s.alloc w'.vals with objs := put s.objs x (some ⟨w'.kind, w'.row, w'.col, .addr s.next⟩) } :
          State α) = Heap.rebind s x ⟨w'.kind, w'.row, w'.col, .addr s.next⟩ w'.vals none := by
        simp [State.alloc, Heap.rebind, dropBlock]
      rw [e]
      refine h.rebind (d := none) hlen (fun a e => nomatch e) (fun _ a l' hb hm => ?_)
      obtain ⟨w2, hw2, -, hm2⟩ := h.owns_live hb
      rw [hv] at hw2
      injection hw2 with hw2
      subst hw2
      rw [hm, hempty] at hm2
      injection hm2
    · rw [hkk, hr', hc']
      refine hN.2.rebind (d := none) fun a hb => ?_
      obtain ⟨w2, hw2, hu2, -⟩ := h.owns_live hb
      rw [hv] at hw2
      injection hw2 with hw2
      subst hw2
      rcases hN.1 with h1 | h1
      · exact absurd h1 hxy
      · rcases h1 w hv with h2 | h2
        · rw [hu2] at h2; simp at h2
        · exact absurd hempty h2

theorem agrees_write [Zero α] (h : Inv s v) (x i j : ℕ) (b : α) :
    Agrees (NoOrphan s) (s.write x i j b) (vexec v (.write x i j b)) := by
  rcases h.get x with ⟨e1, e2⟩ | ⟨o, w, e1, e2, ho, hv, hs⟩
  · simp [State.write, vexec, e1, e2, Except.bind, Agrees]
  obtain ⟨hk, hr, hc, hl, h5⟩ := id hs
  -- the written state
  have key : ∀ n, n < w.vals.length → Agrees (NoOrphan s)
      (match o.ptr with
        | .wild => .error .memory
        | .addr p => match s.mem p with
          | none => .error .memory
          | some l => if n < l.length then .ok { s with mem := put s.mem p (some (l.set n b)) }
            else .error .memory)
      (.ok (put v x (some { w with vals := w.vals.set n b }))) := by
    intro n hn
    cases hu : w.unset with
    | true =>
      rw [hu] at h5
      rw [h5.2] at hn
      simp at hn
    | false =>
      rw [hu] at h5
      obtain ⟨a, hp, hm⟩ := h5
      have hox : Owns s x a := ⟨o, ho, hp⟩
      simp only [hp, hm, if_pos hn]
      refine ⟨⟨fun y => ?_, fun y o' w' ho' hw' => ?_, h.apart, fun c hc' => ?_, fun c => ?_, h.once,
        fun c l hc' => ?_⟩, fun hN c l hc' => ?_⟩
      · by_cases hy : y = x
        · subst hy; simp [put_same, ho]
        · simp only [put_ne _ _ hy]; exact h.none_iff y
      · by_cases hy : y = x
        · subst hy
          simp only [put_same, Option.some.injEq] at hw'
          subst hw'
          change s.objs y = some o' at ho'
          rw [ho] at ho'
          injection ho' with ho'
          subst ho'
          refine ⟨hk, hr, hc, by rw [List.length_set]; exact hl, ?_⟩
          rw [if_neg (by simp [hu])]
          exact ⟨a, hp, put_same _ _ _⟩
        · simp only [put_ne _ _ hy] at hw'
          obtain ⟨g1, g2, g3, g4, g5⟩ := h.stands y o' w' ho' hw'
          refine ⟨g1, g2, g3, g4, ?_⟩
          split_ifs at g5 ⊢ with hu'
          · exact g5
          · obtain ⟨a', hp', hm'⟩ := g5
            refine ⟨a', hp', ?_⟩
            show put s.mem a _ a' = _
            rw [put_ne _ _ fun e => hy (h.apart _ _ _ ⟨o', ho', by rw [hp', e]⟩ hox)]
            exact hm'
      · change put s.mem a _ c ≠ none at hc'
        by_cases hca : c = a
        · subst hca; exact h.owns_lt hox
        · rw [put_ne _ _ hca] at hc'; exact h.bound c hc'
      · show c ∈ s.released ↔ c < s.next ∧ put s.mem a _ c = none
        by_cases hca : c = a
        · subst hca; rw [h.gone, put_same, hm]; simp
        · rw [put_ne _ _ hca]; exact h.gone c
      · change put s.mem a _ c = some l at hc'
        by_cases hca : c = a
        · subst hca; exact .inl ⟨x, hox⟩
        · rw [put_ne _ _ hca] at hc'; exact h.orphan c l hc'
      · change put s.mem a _ c = some l at hc'
        by_cases hca : c = a
        · subst hca; exact ⟨x, hox⟩
        · rw [put_ne _ _ hca] at hc'; exact hN c l hc'
  simp only [State.write, vexec, e1, e2, Except.bind]
  cases hw : w.kind with
  | vec =>
    have hko : o.kind = .vec := hk.trans hw
    simp only [Obj.index, hko, hr]
    by_cases hi : i < w.row
    · simp only [if_pos hi]
      have := key i (by rw [hl, Obj.count, hko]; simpa [hr] using hi)
      rw [hw] at this
      exact this
    · simp only [if_neg hi]
      rfl
  | mat =>
    have hko : o.kind = .mat := hk.trans hw
    simp only [Obj.index, hko, hr, hc]
    by_cases hi : i < w.row ∧ j < w.col
    · simp only [if_pos hi]
      have := key (i * w.col + j) ?_
      · rw [hw] at this
        exact this
      rw [hl, Obj.count, hko]
      show i * w.col + j < o.row * o.col
      rw [hr, hc]
      calc i * w.col + j < i * w.col + w.col := by omega
        _ = (i + 1) * w.col := by ring
        _ ≤ w.row * w.col := Nat.mul_le_mul_right _ hi.1
    · simp only [if_neg hi]
      rfl

theorem agrees_destroy [Zero α] (h : Inv s v) (x : ℕ) (hc : Careful v (.destroy x)) :
    Agrees (NoOrphan s) (s.destroy x) (vexec v (.destroy x)) := by
  rcases h.get x with ⟨e1, e2⟩ | ⟨o, w, e1, e2, ho, hv, hs⟩
  · simp [State.destroy, vexec, e1, e2, Except.bind, Agrees]
  obtain ⟨hk, hr, hcc, hl, h5⟩ := id hs
  rw [hc w hv] at h5
  obtain ⟨a, hp, hm⟩ := h5
  have hox : Owns s x a := ⟨o, ho, hp⟩
  have hfree : s.free o.ptr = .ok { s with mem := put s.mem a none, released := s.released ++ [a] } := by
    rw [hp, State.free]
    simp [hm]
  simp only [State.destroy, vexec, e1, e2, Except.bind, hfree]
  have old : ∀ y b, Owns { s with mem := put s.mem a none, released := s.released ++ [a], objs := put s.objs x none } y b
      ↔ y ≠ x ∧ Owns s y b := by
    intro y b
    by_cases hy : y = x
    · subst hy; simp [Owns, put_same]
    · simp [Owns, put_ne _ _ hy, hy]
  have lost : ∀ y, y = x → ∀ b, b ≠ a → ¬ Owns s y b := by
    rintro y rfl b hb ⟨q, hq, hqp⟩
    rw [ho] at hq
    injection hq with hq
    subst hq
    rw [hp] at hqp
    injection hqp with hqp
    exact hb hqp.symm
  refine ⟨⟨fun y => ?_, fun y o' w' ho' hw' => ?_, fun y z b hy hz => ?_, fun c hc' => ?_, fun c => ?_, ?_,
    fun c l hc' => ?_⟩, fun hN c l hc' => ?_⟩
  · by_cases hy : y = x
    · subst hy; simp [put_same]
    · simp only [put_ne _ _ hy]; exact h.none_iff y
  · by_cases hy : y = x
    · subst hy
      simp [put_same] at hw'
    · simp only [put_ne _ _ hy] at ho' hw'
      obtain ⟨g1, g2, g3, g4, g5⟩ := h.stands y o' w' ho' hw'
      refine ⟨g1, g2, g3, g4, ?_⟩
      split_ifs at g5 ⊢ with hu'
      · exact g5
      · obtain ⟨a', hp', hm'⟩ := g5
        refine ⟨a', hp', ?_⟩
        show put s.mem a _ a' = _
        rw [put_ne _ _ fun e => hy (h.apart _ _ _ ⟨o', ho', by rw [hp', e]⟩ hox)]
        exact hm'
  · exact h.apart y z b ((old y b).1 hy).2 ((old z b).1 hz).2
  · change put s.mem a _ c ≠ none at hc'
    by_cases hca : c = a
    · subst hca; exact h.owns_lt hox
    · rw [put_ne _ _ hca] at hc'; exact h.bound c hc'
  · show c ∈ s.released ++ [a] ↔ c < s.next ∧ put s.mem a none c = none
    rw [List.mem_append, List.mem_singleton, h.gone]
    by_cases hca : c = a
    · subst hca
      simp [put_same, h.owns_lt hox]
    · rw [put_ne _ _ hca]
      simp [hca]
  · refine List.nodup_append.2 ⟨h.once, by simp, ?_⟩
    rintro b hb c hc' rfl
    simp only [List.mem_singleton] at hc'
    subst hc'
    rw [h.gone, hm] at hb
    simp at hb
  · change put s.mem a _ c = some l at hc'
    by_cases hca : c = a
    · subst hca; simp [put_same] at hc'
    · rw [put_ne _ _ hca] at hc'
      rcases h.orphan c l hc' with ⟨y, hy⟩ | h3
      · exact .inl ⟨y, (old y c).2 ⟨fun e => lost y e c hca hy, hy⟩⟩
      · exact .inr h3
  · change put s.mem a _ c = some l at hc'
    by_cases hca : c = a
    · subst hca; simp [put_same] at hc'
    · rw [put_ne _ _ hca] at hc'
      obtain ⟨y, hy⟩ := hN c l hc'
      exact ⟨y, (old y c).2 ⟨fun e => lost y e c hca hy, hy⟩⟩

theorem Agrees.mono {N N' : Prop} {a : Except Fail (State α)} {b : Except Fail (VState α)}
    (h : Agrees N a b) (hN : N' → N) : Agrees N' a b := by
  cases a <;> cases b <;> simp only [Agrees] at h ⊢
  · exact h
  · exact ⟨h.1, fun h' => h.2 (hN h')⟩

/-- Every command does on the heap what it means on values. -/
theorem agrees_exec [Zero α] (h : Inv s v) (c : Cmd α) (hc : Careful v c) :
    Agrees (NoEmptyTarget v c ∧ NoOrphan s) (exec s c) (vexec v c) := by
  cases c with
  | vecDefault x => exact (agrees_default h x).mono And.right
  | vecSized x n => exact (agrees_construct h x (by simp [Obj.count])).mono And.right
  | vecList x l => exact (agrees_construct h x (by simp [Obj.count])).mono And.right
  | matDefault x => exact (agrees_default h x).mono And.right
  | matSized x r c => exact (agrees_construct h x (by simp [Obj.count])).mono And.right
  | copy k x y => exact (agrees_copy h k x y).mono And.right
  | assign x y => exact agrees_assign h x y
  | write x i j a => exact (agrees_write h x i j a).mono And.right
  | destroy x => exact (agrees_destroy h x hc).mono And.right

theorem agrees_run [Zero α] (cs : List (Cmd α)) : ∀ {s : State α} {v : VState α}, Inv s v →
    Along Careful v cs → Agrees (Along NoEmptyTarget v cs ∧ NoOrphan s) (run s cs) (vrun v cs) := by
  induction cs with
  | nil => exact fun h _ => ⟨h, fun hN => hN.2⟩
  | cons c cs ih =>
    intro s v h hc
    have h1 := agrees_exec h c hc.1
    simp only [run, vrun]
    cases h2 : exec s c with
    | error e =>
      rw [h2] at h1
      cases h3 : vexec v c with
      | error e' => rw [h3] at h1; exact h1
      | ok v' => rw [h3] at h1; exact h1.elim
    | ok s' =>
      rw [h2] at h1
      cases h3 : vexec v c with
      | error e' => rw [h3] at h1; exact h1.elim
      | ok v' =>
        rw [h3] at h1
        exact (ih h1.1 (hc.2 v' h3)).mono fun hN => ⟨hN.1.2 v' h3, h1.2 ⟨hN.1.1, hN.2⟩⟩

end Step

/-! ### The properties -/

section Claims
variable [Zero α]

/-- The full claim of C04 for a history: the memory is used properly, no block is released twice, and
when no object is left every block has been released. -/
def StorageOk (cs : List (Cmd α)) : Prop :=
  run (State.init α) cs ≠ .error .memory ∧
    ∀ s, run (State.init α) cs = .ok s → (∀ a, s.released.count a ≤ 1) ∧
      (∀ a ∈ s.released, a < s.next) ∧
      ((∀ x, s.objs x = none) → ∀ a < s.next, s.released.count a = 1)

theorem run_ok {cs : List (Cmd α)} (hc : Along Careful (fun _ => none) cs) {s : State α}
    (h : run (State.init α) cs = .ok s) : ∃ v, vrun (fun _ => none) cs = .ok v ∧ Inv s v ∧
      (Along NoEmptyTarget (fun _ => none) cs → NoOrphan s) := by
  have h1 := agrees_run cs inv_init hc
  rw [h] at h1
  cases h2 : vrun (fun _ => none) cs with
  | error e => rw [h2] at h1; exact h1.elim
  | ok v =>
    rw [h2] at h1
    exact ⟨v, rfl, h1.1, fun hN => h1.2 ⟨hN, fun a l ha => by simp [State.init] at ha⟩⟩

theorem vexec_no_memory (v : VState α) (c : Cmd α) : vexec v c ≠ .error .memory := by
  have hg : ∀ (v : VState α) x, v.get x = .error .scope ∨ ∃ w, v.get x = .ok w := by
    intro v x
    cases h : v x <;> simp [VState.get, h]
  have hn : ∀ x w, v.new x w ≠ .error .memory := by
    intro x w
    cases h : v x <;> simp [VState.new, h]
  cases c with
  | vecDefault x => exact hn _ _
  | vecSized x n => exact hn _ _
  | vecList x l => exact hn _ _
  | matDefault x => exact hn _ _
  | matSized x r c => exact hn _ _
  | copy k x y =>
    rcases hg v y with h | ⟨w, h⟩ <;> simp only [vexec, h, Except.bind]
    · simp
    · by_cases hk : k = Kind.vec ∧ w.kind = Kind.mat ∧ w.col ≠ 1
      · rw [if_pos hk]
        simp
      · rw [if_neg hk]
        exact hn _ _
  | assign x y =>
    rcases hg v x with h | ⟨w, h⟩ <;> simp only [vexec, h, Except.bind]
    · simp
    rcases hg v y with h' | ⟨w', h'⟩ <;> simp only [h']
    · simp
    split_ifs <;> simp
  | write x i j a =>
    rcases hg v x with h | ⟨w, h⟩ <;> simp only [vexec, h, Except.bind]
    · simp
    cases w.kind <;> simp only <;> split_ifs <;> simp
  | destroy x =>
    rcases hg v x with h | ⟨w, h⟩ <;> simp [vexec, h, Except.bind]

theorem vrun_no_memory (cs : List (Cmd α)) : ∀ v : VState α, vrun v cs ≠ .error .memory := by
  induction cs with
  | nil => exact fun v h => nomatch h
  | cons c cs ih =>
    intro v h
    simp only [vrun] at h
    cases h1 : vexec v c with
    | error e =>
      rw [h1] at h
      simp only [Except.bind, Except.error.injEq] at h
      subst h
      exact vexec_no_memory v c h1
    | ok v' =>
      rw [h1] at h
      exact ih v' h

/-- **C04**, in part: in a history that does not destroy default-constructed objects before they are
assigned, nothing is released twice or used after release, the storage of a live object is not released,
and once all objects are destroyed every block that has elements has been released exactly once.
Missing: the destruction of a default-constructed object, and blocks without elements. -/
theorem C04_partial {cs : List (Cmd α)} (hc : Along Careful (fun _ => none) cs) :
    run (State.init α) cs ≠ .error .memory ∧
    ∀ s, run (State.init α) cs = .ok s → (∀ a, s.released.count a ≤ 1) ∧
      (∀ a ∈ s.released, a < s.next) ∧
      (∀ x a, Owns s x a → a ∉ s.released) ∧
      ((∀ x, s.objs x = none) → ∀ a < s.next, s.released.count a = 1 ∨ s.mem a = some []) := by
  refine ⟨fun h => ?_, fun s h => ?_⟩
  · have h1 := agrees_run cs inv_init hc
    rw [h] at h1
    cases h2 : vrun (fun _ => none) cs with
    | error e =>
      rw [h2] at h1
      have : Fail.memory = e := h1
      subst this
      exact vrun_no_memory cs _ h2
    | ok v => rw [h2] at h1; exact h1.elim
  · obtain ⟨v, -, hi, -⟩ := run_ok hc h
    refine ⟨fun a => List.nodup_iff_count_le_one.1 hi.once a, fun a ha => ((hi.gone a).1 ha).1,
      fun x a ho ha => ?_, fun hx a ha => ?_⟩
    · obtain ⟨w, -, -, hm⟩ := hi.owns_live ho
      rw [((hi.gone a).1 ha).2] at hm
      simp at hm
    · cases hm : s.mem a with
      | none => exact .inl (List.count_eq_one_of_mem hi.once ((hi.gone a).2 ⟨ha, hm⟩))
      | some l =>
        rcases hi.orphan a l hm with ⟨x, o, ho, -⟩ | rfl
        · rw [hx x] at ho
          simp at ho
        · exact .inr rfl

/-- **C04**, in part: if moreover nothing is assigned to an empty object that owns a block, the full claim
holds. -/
theorem C04_empty_partial {cs : List (Cmd α)} (hc : Along Careful (fun _ => none) cs)
    (he : Along NoEmptyTarget (fun _ => none) cs) : StorageOk cs := by
  refine ⟨(C04_partial hc).1, fun s h => ?_⟩
  obtain ⟨h1, h2, -, -⟩ := (C04_partial hc).2 s h
  refine ⟨h1, h2, fun hx a ha => ?_⟩
  obtain ⟨v, -, hi, hN⟩ := run_ok hc h
  refine List.count_eq_one_of_mem hi.once ((hi.gone a).2 ⟨ha, ?_⟩)
  cases hm : s.mem a with
  | none => rfl
  | some l =>
    obtain ⟨x, o, ho, -⟩ := hN he a l hm
    rw [hx x] at ho
    simp at ho

/-- What a program sees of an object: its kind, its dimensions and its elements. -/
def State.look (s : State α) (x : ℕ) : Except Fail (Kind × ℕ × ℕ × List α) :=
  (s.get x).bind fun o => (s.read o.ptr o.count).bind fun l => .ok (o.kind, o.row, o.col, l)

/-- The same of a value. -/
def VState.look (v : VState α) (x : ℕ) : Except Fail (Kind × ℕ × ℕ × List α) :=
  (v.get x).bind fun w => .ok (w.kind, w.row, w.col, w.vals)

omit [Zero α] in
theorem Inv.look {s : State α} {v : VState α} (h : Inv s v) (x : ℕ) : s.look x = v.look x := by
  rcases h.get x with ⟨e1, e2⟩ | ⟨o, w, e1, e2, ho, hv, hs⟩
  · simp [State.look, VState.look, e1, e2, Except.bind]
  · simp only [State.look, VState.look, e1, e2, Except.bind, hs.read]
    rw [hs.1, hs.2.1, hs.2.2.1]

/-- **C89**: a history ends as it does on values, with the same failing assertion or with objects that
look the same. -/
theorem C89_values {cs : List (Cmd α)} (hc : Along Careful (fun _ => none) cs) :
    (∀ e, run (State.init α) cs = .error e ↔ vrun (fun _ => none) cs = .error e) ∧
    ∀ s, run (State.init α) cs = .ok s → ∃ v, vrun (fun _ => none) cs = .ok v ∧ ∀ x, s.look x = v.look x := by
  have h1 := agrees_run cs (inv_init (α := α)) hc
  refine ⟨fun e => ?_, fun s h => ?_⟩
  · cases h2 : run (State.init α) cs with
    | error e1 =>
      rw [h2] at h1
      cases h3 : vrun (fun _ => none) cs with
      | error e2 => rw [h3] at h1; have : e1 = e2 := h1; subst this; simp
      | ok v => rw [h3] at h1; exact h1.elim
    | ok s =>
      rw [h2] at h1
      cases h3 : vrun (fun _ => none) cs with
      | error e2 => rw [h3] at h1; exact h1.elim
      | ok v => simp
  · obtain ⟨v, hv, hi, -⟩ := run_ok hc h
    exact ⟨v, hv, hi.look⟩

/-- **C89**: a write to one object is not seen in any other, in whatever way they were copied from each
other. -/
theorem C89_isolation {cs : List (Cmd α)} (hc : Along Careful (fun _ => none) cs) {s s' : State α}
    (h : run (State.init α) cs = .ok s) {x i j : ℕ} {a : α} (h' : exec s (.write x i j a) = .ok s')
    {y : ℕ} (hy : y ≠ x) : s'.look y = s.look y := by
  obtain ⟨v, -, hi, -⟩ := run_ok hc h
  have h1 := agrees_exec hi (.write x i j a) trivial
  rw [h'] at h1
  cases h2 : vexec v (.write x i j a) with
  | error e => rw [h2] at h1; exact h1.elim
  | ok v' =>
    rw [h2] at h1
    rw [h1.1.look, hi.look]
    have : v' y = v y := by
      rcases hi.get x with ⟨-, e2⟩ | ⟨o, w, -, e2, -⟩
      · simp [vexec, e2, Except.bind] at h2
      · simp only [vexec, e2, Except.bind] at h2
        cases hk : w.kind <;> simp only [hk] at h2 <;> split_ifs at h2 <;>
        · injection h2 with h2
          rw [← h2, put_ne _ _ hy]
    simp only [VState.look, VState.get, this]

end Claims

/-! ### The claim fails -/

/-- The destruction of a default-constructed vector releases an uninitialised pointer. -/
theorem C04_default_false : ¬ StorageOk (α := ℤ) [.vecDefault 0, .destroy 0] :=
  fun h => h.1 rfl

/-- So does that of a default-constructed matrix, also when it was copied before. -/
theorem C04_default_matrix_false : ¬ StorageOk (α := ℤ) [.matDefault 0, .copy .mat 1 0, .destroy 1, .destroy 0] :=
  fun h => h.1 rfl

/-- An assignment to `Vector(0)` loses its block. -/
theorem C04_leak_false :
    ¬ StorageOk (α := ℤ) [.vecSized 0 0, .vecSized 1 3, .assign 0 1, .destroy 0, .destroy 1] := by
  intro h
  have h1 := (h.2 _ rfl).2.2 (fun x => ?_) 0 (by decide)
  · exact absurd (show List.count 0 [2, 1] = 1 from h1) (by decide)
  · show put (put (put (put (put _ _ _) _ _) _ _) _ _) _ _ x = _
    by_cases h1 : x = 1
    · simp [put, h1]
    · by_cases h0 : x = 0 <;> simp [put, h0, h1, State.init]

/-! ### Cases -/

/-- A history with copies, assignments in both directions, a default-constructed object that is assigned
and an assignment of an object to itself. -/
def exHistory : List (Cmd ℤ) :=
  [.vecList 0 [1, 2, 3], .copy .vec 1 0, .vecDefault 2, .assign 2 1, .write 1 0 0 7, .assign 0 1,
    .assign 2 2, .copy .mat 3 0, .copy .vec 4 3, .destroy 0, .destroy 1, .destroy 3, .destroy 4, .destroy 2]

/-- A check of a condition along a history. -/
def check [Zero α] (p : VState α → Cmd α → Bool) (v : VState α) : List (Cmd α) → Bool
  | [] => true
  | c :: cs => p v c && match vexec v c with
    | .ok v' => check p v' cs
    | .error _ => true

theorem along_of_check [Zero α] {P : VState α → Cmd α → Prop} {p : VState α → Cmd α → Bool}
    (hp : ∀ v c, p v c = true → P v c) (cs : List (Cmd α)) :
    ∀ v : VState α, check p v cs = true → Along P v cs := by
  induction cs with
  | nil => exact fun _ _ => trivial
  | cons c cs ih =>
    intro v h
    rw [check, Bool.and_eq_true] at h
    refine ⟨hp v c h.1, fun v' hv => ih v' ?_⟩
    have := h.2
    rw [hv] at this
    exact this

/-- `Careful` and `NoEmptyTarget` as a check. -/
def good (v : VState ℤ) : Cmd ℤ → Bool
  | .destroy x => match v x with
    | some w => !w.unset
    | none => true
  | .assign x y => x == y || match v x with
    | some w => w.unset || !w.vals.isEmpty
    | none => true
  | _ => true

theorem careful_of_good (v : VState ℤ) (c : Cmd ℤ) (h : good v c = true) : Careful v c := by
  cases c <;> try trivial
  intro w hw
  simpa [good, hw] using h

theorem noEmpty_of_good (v : VState ℤ) (c : Cmd ℤ) (h : good v c = true) : NoEmptyTarget v c := by
  cases c <;> try trivial
  rename_i x y
  simp only [good, Bool.or_eq_true, beq_iff_eq] at h
  refine h.imp id fun h w hw => ?_
  simpa [hw] using h

theorem exHistory_good : check good (fun _ => none) exHistory = true := by decide +kernel

/-- The history is in order, runs to its end and releases its six blocks. -/
example : StorageOk exHistory ∧ ∃ s, run (State.init ℤ) exHistory = .ok s ∧ s.next = 6 ∧
    s.released = [0, 3, 1, 4, 5, 2] := by
  refine ⟨C04_empty_partial (along_of_check careful_of_good _ _ exHistory_good)
    (along_of_check noEmpty_of_good _ _ exHistory_good), _, rfl, ?_, ?_⟩
  · decide +kernel
  · decide +kernel

/-- After the first five commands the copy has changed and the original has not. -/
example : ∃ s, run (State.init ℤ) (exHistory.take 5) = .ok s ∧ s.look 0 = .ok (.vec, 3, 1, [1, 2, 3]) ∧
    s.look 1 = .ok (.vec, 3, 1, [7, 2, 3]) ∧ s.look 2 = .ok (.vec, 3, 1, [1, 2, 3]) :=
  ⟨_, rfl, rfl, rfl, rfl⟩

end Pansfem.Heap
