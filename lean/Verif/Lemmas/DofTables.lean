/-
Facts about degree of freedom tables: reading after writing, numbering.
-/
import Verif.Model.Assembly
import Mathlib.Algebra.BigOperators.Group.List.Basic
import Mathlib.Tactic.Push

namespace Pansfem

variable {K : Type}

/-! ### Reading and writing -/

theorem dofPut_spec {t t' : List (List ℤ)} {n d : ℕ} {x : ℤ} (h : dofPut t n d x = some t')
    (n' d' : ℕ) :
    dofNum t' n' d' = if n' = n ∧ d' = d then some x else dofNum t n' d' := by
  unfold dofPut at h
  simp only [Option.bind_eq_bind, Option.bind_eq_some_iff] at h
  obtain ⟨row, hr, h⟩ := h
  split at h
  · rename_i hd
    obtain rfl := Option.some.inj h
    obtain ⟨hn, hr'⟩ := List.getElem?_eq_some_iff.1 hr
    unfold dofNum
    by_cases e : n' = n
    · subst e
      simp only [Option.bind_eq_bind]
      rw [List.getElem?_set_self hn, hr, Option.bind_some, Option.bind_some]
      by_cases e' : d' = d
      · subst e'; rw [List.getElem?_set_self hd]; simp
      · rw [List.getElem?_set_ne (Ne.symm e')]; simp [e']
    · simp only [Option.bind_eq_bind]
      rw [List.getElem?_set_ne (Ne.symm e)]; simp [e]
  · cases h

theorem dofPut_lengths {t t' : List (List ℤ)} {n d : ℕ} {x : ℤ} (h : dofPut t n d x = some t') :
    t'.map List.length = t.map List.length := by
  unfold dofPut at h
  simp only [Option.bind_eq_bind, Option.bind_eq_some_iff] at h
  obtain ⟨row, hr, h⟩ := h
  split at h
  · obtain rfl := Option.some.inj h
    obtain ⟨hn, rfl⟩ := List.getElem?_eq_some_iff.1 hr
    rw [List.map_set, List.length_set]
    apply List.ext_getElem?
    intro i
    by_cases e : n = i
    · subst e; rw [List.getElem?_set_self (by simpa using hn)]; simp [hn]
    · rw [List.getElem?_set_ne e]
  · cases h

theorem dofPut_isSome (t : List (List ℤ)) (n d : ℕ) (x : ℤ) :
    (dofPut t n d x).isSome = (dofNum t n d).isSome := by
  unfold dofPut dofNum
  cases hr : t[n]? with
  | none => simp
  | some row =>
    simp only [Option.bind_eq_bind, Option.bind_some]
    split
    · rename_i h; simp [h]
    · rename_i h; simp [h]

theorem vec_at_nat (v : Vec K) (d : ℕ) : v.at? d = v.values[d]? := by
  unfold Vec.at? Vec.size
  by_cases h : d < v.values.length
  · rw [if_pos ⟨by omega, by omega⟩]; simp
  · rw [if_neg (by omega)]; simp [h]

theorem vec_put_nat (v : Vec K) (d : ℕ) (x : K) :
    v.put? d x = if d < v.values.length then some ⟨v.values.set d x⟩ else none := by
  unfold Vec.put? Vec.size
  by_cases h : d < v.values.length
  · rw [if_pos ⟨by omega, by omega⟩, if_pos h]; simp
  · rw [if_neg (by omega), if_neg h]

theorem nodalPut_spec {u u' : List (Vec K)} {n d : ℕ} {x : K} (h : nodalPut u n d x = some u')
    (n' d' : ℕ) :
    nodal u' n' d' = if n' = n ∧ d' = d then some x else nodal u n' d' := by
  unfold nodalPut at h
  simp only [Option.bind_eq_bind, Option.bind_eq_some_iff] at h
  obtain ⟨v, hv, w, hw, h⟩ := h
  obtain rfl := Option.some.inj h
  rw [vec_put_nat] at hw
  split at hw
  · rename_i hd
    obtain rfl := Option.some.inj hw
    obtain ⟨hn, hr'⟩ := List.getElem?_eq_some_iff.1 hv
    unfold nodal
    by_cases e : n' = n
    · subst e
      simp only [Option.bind_eq_bind]
      rw [List.getElem?_set_self hn, hv, Option.bind_some, Option.bind_some, vec_at_nat,
        vec_at_nat]
      by_cases e' : d' = d
      · subst e'; rw [List.getElem?_set_self hd]; simp
      · rw [List.getElem?_set_ne (Ne.symm e')]; simp [e']
    · simp only [Option.bind_eq_bind]
      rw [List.getElem?_set_ne (Ne.symm e)]; simp [e]
  · cases hw

theorem nodalPut_isSome (u : List (Vec K)) (n d : ℕ) (x : K) :
    (nodalPut u n d x).isSome = (nodal u n d).isSome := by
  unfold nodalPut nodal
  cases hr : u[n]? with
  | none => simp
  | some v =>
    simp only [Option.bind_eq_bind, Option.bind_some, vec_put_nat, vec_at_nat]
    split
    · rename_i h; simp [h]
    · rename_i h; simp [h]

theorem nodalPut_length {u u' : List (Vec K)} {n d : ℕ} {x : K} (h : nodalPut u n d x = some u') :
    u'.length = u.length := by
  unfold nodalPut at h
  simp only [Option.bind_eq_bind, Option.bind_eq_some_iff] at h
  obtain ⟨v, hv, w, hw, h⟩ := h
  obtain rfl := Option.some.inj h
  simp

/-! ### Numbering -/

/-- Number of free dofs in a list. -/
def nFree (l : List ℤ) : ℕ := l.countP fun g => decide (g ≠ -1)

/-- Number of free dofs visited before dof `d` of node `n`. -/
def freeBefore (t : List (List ℤ)) (n d : ℕ) : ℕ :=
  nFree (t.take n).flatten + nFree ((t[n]?.getD []).take d)

theorem nFree_cons (g : ℤ) (l : List ℤ) : nFree (g :: l) = nFree l + if g ≠ -1 then 1 else 0 := by
  unfold nFree
  rw [List.countP_cons]
  simp

theorem nFree_append (l l' : List ℤ) : nFree (l ++ l') = nFree l + nFree l' := List.countP_append

theorem renumNode_count (l : List ℤ) (k : ℕ) : (renumNode l k).2 = k + nFree l := by
  induction l generalizing k with
  | nil => rfl
  | cons g l ih =>
    rw [renumNode, nFree_cons]
    split_ifs
    · simp only [ih]; omega
    · simp only [ih]; omega

theorem renumNode_get (l : List ℤ) (k d : ℕ) :
    (renumNode l k).1[d]?
      = l[d]?.map fun g => if g = -1 then -1 else ((k + nFree (l.take d) : ℕ) : ℤ) := by
  induction l generalizing k d with
  | nil => simp [renumNode]
  | cons g l ih =>
    rw [renumNode]
    split_ifs with h
    · cases d with
      | zero => simp [h, nFree]
      | succ d =>
        rw [List.getElem?_cons_succ, List.getElem?_cons_succ, ih, List.take_succ_cons, nFree_cons,
          if_pos h]
        congr 1; funext g; split <;> [rfl; (congr 1; omega)]
    · cases d with
      | zero => simp [not_not.1 h]
      | succ d =>
        rw [List.getElem?_cons_succ, List.getElem?_cons_succ, ih, List.take_succ_cons, nFree_cons,
          if_neg h]
        congr 1

theorem renumFrom_count (t : List (List ℤ)) (k : ℕ) :
    (renumFrom t k).2 = k + nFree t.flatten := by
  induction t generalizing k with
  | nil => rfl
  | cons l t ih =>
    rw [renumFrom, List.flatten_cons, nFree_append]
    simp only [ih, renumNode_count]
    omega

theorem renumFrom_get (t : List (List ℤ)) (k n d : ℕ) :
    dofNum (renumFrom t k).1 n d
      = (dofNum t n d).map fun g => if g = -1 then -1 else ((k + freeBefore t n d : ℕ) : ℤ) := by
  induction t generalizing k n with
  | nil => simp [renumFrom, dofNum]
  | cons l t ih =>
    rw [renumFrom]
    cases n with
    | zero =>
      simp only [dofNum, List.getElem?_cons_zero, Option.bind_eq_bind, Option.bind_some,
        renumNode_get, freeBefore]
      simp [nFree]
    | succ n =>
      have := ih (renumNode l k).2 n
      unfold dofNum at this ⊢
      rw [List.getElem?_cons_succ, List.getElem?_cons_succ, this]
      congr 1; funext g
      unfold freeBefore
      rw [List.take_succ_cons, List.flatten_cons, nFree_append, renumNode_count,
        List.getElem?_cons_succ]
      split <;> [rfl; (congr 1; omega)]

theorem renumNode_length (l : List ℤ) (k : ℕ) : (renumNode l k).1.length = l.length := by
  induction l generalizing k with
  | nil => rfl
  | cons g l ih => rw [renumNode]; split_ifs <;> simp [ih]

theorem renumFrom_lengths (t : List (List ℤ)) (k : ℕ) :
    (renumFrom t k).1.map List.length = t.map List.length := by
  induction t generalizing k with
  | nil => rfl
  | cons l t ih => simp [renumFrom, ih, renumNode_length]

/-- The traversal order of dofs. -/
def dofLt (n d n' d' : ℕ) : Prop := n < n' ∨ n = n' ∧ d < d'

theorem nFree_take_le (l : List ℤ) (d : ℕ) : nFree (l.take d) ≤ nFree l :=
  (List.take_sublist d l).countP_le

theorem nFree_take_lt {l : List ℤ} {d : ℕ} {g : ℤ} (h : l[d]? = some g) (hg : g ≠ -1) {e : ℕ}
    (he : d < e) : nFree (l.take d) < nFree (l.take e) := by
  have h1 : l.take (d + 1) = l.take d ++ [g] := by rw [List.take_add_one, h]; rfl
  have h2 : nFree (l.take (d + 1)) ≤ nFree (l.take e) :=
    (List.take_sublist_take_left (show d + 1 ≤ e from he)).countP_le
  rw [h1, nFree_append, nFree_cons, if_pos hg] at h2
  simp [nFree] at h2 ⊢
  omega

theorem nFree_flatten_take (t : List (List ℤ)) (n : ℕ) :
    nFree (t.take (n + 1)).flatten = nFree (t.take n).flatten + nFree (t[n]?.getD []) := by
  rw [List.take_add_one, List.flatten_append, nFree_append]
  cases t[n]? <;> simp

theorem nFree_flatten_mono {a b : List (List ℤ)} (h : a.Sublist b) :
    nFree a.flatten ≤ nFree b.flatten := by
  induction h with
  | slnil => exact le_rfl
  | cons l _ ih => rw [List.flatten_cons, nFree_append]; omega
  | cons_cons l _ ih => rw [List.flatten_cons, List.flatten_cons, nFree_append, nFree_append]; omega

theorem freeBefore_lt {t : List (List ℤ)} {n d n' d' : ℕ} {g : ℤ} (h : dofNum t n d = some g)
    (hg : g ≠ -1) (hlt : dofLt n d n' d') : freeBefore t n d < freeBefore t n' d' := by
  unfold dofNum at h
  obtain ⟨row, hr, h⟩ := Option.bind_eq_some_iff.1 h
  unfold freeBefore
  rcases hlt with hlt | ⟨rfl, hlt⟩
  · have h1 := nFree_flatten_take t n
    have h2 : nFree (t.take (n + 1)).flatten ≤ nFree (t.take n').flatten :=
      nFree_flatten_mono (List.take_sublist_take_left (show n + 1 ≤ n' from hlt))
    have h3 : nFree (row.take d) < nFree row := by
      have := nFree_take_lt h hg (show d < row.length from (List.getElem?_eq_some_iff.1 h).1)
      rwa [List.take_length] at this
    rw [hr] at h1 ⊢
    simp only [Option.getD_some] at h1 ⊢
    omega
  · rw [hr]
    have := nFree_take_lt h hg hlt
    simp only [Option.getD_some]
    omega

theorem freeBefore_lt_total {t : List (List ℤ)} {n d : ℕ} {g : ℤ} (h : dofNum t n d = some g)
    (hg : g ≠ -1) : freeBefore t n d < nFree t.flatten := by
  unfold dofNum at h
  obtain ⟨row, hr, h⟩ := Option.bind_eq_some_iff.1 h
  unfold freeBefore
  have h1 := nFree_flatten_take t n
  have h2 : nFree (t.take (n + 1)).flatten ≤ nFree t.flatten :=
    nFree_flatten_mono (List.take_sublist (n + 1) t)
  have h3 : nFree (row.take d) < nFree row := by
    have := nFree_take_lt h hg (show d < row.length from (List.getElem?_eq_some_iff.1 h).1)
    rwa [List.take_length] at this
  rw [hr] at h1 ⊢
  simp only [Option.getD_some] at h1 ⊢
  omega

theorem renumNode_filter (l : List ℤ) (k : ℕ) :
    (renumNode l k).1.filter (fun g => decide (g ≠ -1))
      = (List.range' k (nFree l)).map Int.ofNat := by
  induction l generalizing k with
  | nil => simp [renumNode, nFree]
  | cons g l ih =>
    rw [renumNode, nFree_cons]
    split_ifs with h
    · rw [List.filter_cons_of_pos (by simp), ih, List.range'_succ]
      rfl
    · rw [List.filter_cons_of_neg (by simpa using h), ih]
      rfl

theorem renumFrom_filter (t : List (List ℤ)) (k : ℕ) :
    (renumFrom t k).1.flatten.filter (fun g => decide (g ≠ -1))
      = (List.range' k (nFree t.flatten)).map Int.ofNat := by
  induction t generalizing k with
  | nil => simp [renumFrom, nFree]
  | cons l t ih =>
    rw [renumFrom, List.flatten_cons, List.filter_append, ih, renumNode_filter, List.flatten_cons,
      nFree_append, renumNode_count, ← List.map_append, List.range'_append_1]

theorem dofNum_of_mem {t : List (List ℤ)} {g : ℤ} (h : g ∈ t.flatten) :
    ∃ n d, dofNum t n d = some g := by
  obtain ⟨l, hl, hg⟩ := List.mem_flatten.1 h
  obtain ⟨n, hn⟩ := List.mem_iff_getElem?.1 hl
  obtain ⟨d, hd⟩ := List.mem_iff_getElem?.1 hg
  exact ⟨n, d, by simp [dofNum, hn, hd]⟩

theorem table_ext {t t' : List (List ℤ)} (hl : t.map List.length = t'.map List.length)
    (h : ∀ n d, dofNum t n d = dofNum t' n d) : t = t' := by
  have hlen : t.length = t'.length := by simpa using congrArg List.length hl
  apply List.ext_getElem? 
  intro n
  by_cases hn : n < t.length
  · rw [List.getElem?_eq_getElem hn, List.getElem?_eq_getElem (by omega)]
    congr 1
    apply List.ext_getElem?
    intro d
    have := h n d
    simpa [dofNum, List.getElem?_eq_getElem hn, List.getElem?_eq_getElem (hlen ▸ hn)] using this
  · rw [List.getElem?_eq_none (by omega), List.getElem?_eq_none (by omega)]

end Pansfem
