/-
Filling vectors by index, numbering of grids, and the sides of meshes of grid cells.
-/
import Verif.Model.Mesh
import Verif.Spec.Mesh
import Mathlib.Data.List.Nodup
import Mathlib.Data.List.Range
import Mathlib.Algebra.BigOperators.Ring.Finset
import Mathlib.Algebra.BigOperators.Group.Finset.Basic
import Mathlib.Tactic.Ring
import Mathlib.Tactic.Linarith
import Mathlib.Tactic.FieldSimp
import Mathlib.Tactic.NormNum

namespace Pansfem

/-! ### Filling -/

theorem foldlM_store {α : Type} (f : ℕ → α) (n : ℕ) :
    ∀ (ws : List (ℕ × α)) (v : List (Option α)), v.length = n →
      (∀ w ∈ ws, w.1 < n ∧ w.2 = f w.1) →
      ∃ v', ws.foldlM store v = some v' ∧ v'.length = n ∧
        ∀ k < n, v'[k]? = if ∃ w ∈ ws, w.1 = k then some (some (f k)) else v[k]? := by
  intro ws
  induction ws with
  | nil =>
    intro v hv _
    exact ⟨v, rfl, hv, fun k _ => by simp⟩
  | cons w ws ih =>
    intro v hv h
    have hw := h w (List.mem_cons_self)
    have hs : store v w = some (v.set w.1 (some w.2)) := by
      unfold store; rw [if_pos (by rw [hv]; exact hw.1)]
    obtain ⟨v', h1, h2, h3⟩ := ih (v.set w.1 (some w.2)) (by simpa using hv)
      (fun w' hw' => h w' (List.mem_cons_of_mem _ hw'))
    refine ⟨v', ?_, h2, ?_⟩
    · rw [List.foldlM_cons, hs]; exact h1
    · intro k hk
      rw [h3 k hk]
      by_cases hex : ∃ w' ∈ ws, w'.1 = k
      · rw [if_pos hex, if_pos]
        obtain ⟨w', hw', e⟩ := hex
        exact ⟨w', List.mem_cons_of_mem _ hw', e⟩
      · rw [if_neg hex]
        by_cases hk2 : w.1 = k
        · subst hk2
          rw [if_pos ⟨w, List.mem_cons_self, rfl⟩, List.getElem?_set_self (by rw [hv]; exact hk), hw.2]
        · rw [List.getElem?_set_ne hk2, if_neg]
          rintro ⟨w', hw', e⟩
          rcases List.mem_cons.1 hw' with rfl | hw'
          · exact hk2 e
          · exact hex ⟨w', hw', e⟩

theorem mapM_id_some {α : Type} (l : List α) : (l.map some).mapM id = some l := by
  induction l with
  | nil => rfl
  | cons a l ih => simp [List.mapM_cons, ih]

/-- If every assignment is inside and gives entry `k` the value `f k`, and every entry is assigned, the
result is the list of the values. -/
theorem fill_eq {α : Type} (f : ℕ → α) {n : ℕ} {ws : List (ℕ × α)}
    (h : ∀ w ∈ ws, w.1 < n ∧ w.2 = f w.1) (hall : ∀ k < n, ∃ w ∈ ws, w.1 = k) :
    fill n ws = some ((List.range n).map f) := by
  obtain ⟨v, h1, h2, h3⟩ := foldlM_store f n ws (List.replicate n none) (by simp) h
  have hv : v = ((List.range n).map f).map some := by
    apply List.ext_getElem?
    intro k
    by_cases hk : k < n
    · rw [h3 k hk, if_pos (hall k hk)]
      simp [hk]
    · rw [List.getElem?_eq_none (by omega), List.getElem?_eq_none (by simp; omega)]
  unfold fill
  rw [h1, hv]
  exact mapM_id_some _

/-- Assignments to `0, 1, 2, …` in this order. -/
theorem fill_seq {α : Type} {n : ℕ} {ws : List (ℕ × α)} (h : ws.map Prod.fst = List.range n) :
    fill n ws = some (ws.map Prod.snd) := by
  have hn : ws.length = n := by simpa using congrArg List.length h
  rcases Nat.eq_zero_or_pos n with h0 | hpos
  · subst h0
    have : ws = [] := List.length_eq_zero_iff.1 hn
    subst this; rfl
  · have hfst : ∀ k (hk : k < ws.length), (ws[k]).1 = k := by
      intro k hk
      have : (ws.map Prod.fst)[k]? = some k := by rw [h, List.getElem?_range (by omega)]
      simpa [hk] using this
    have hd : α := (ws[0]'(by omega)).2
    rw [fill_eq (fun k => ((ws.map Prod.snd)[k]?).getD hd)]
    · congr 1
      apply List.ext_getElem
      · simp [hn]
      · intro k h1 h2
        simp at h2
        simp [h2]
    · intro w hw
      obtain ⟨k, hk, rfl⟩ := List.getElem_of_mem hw
      rw [hfst k hk]
      exact ⟨by omega, by simp [hk]⟩
    · intro k hk
      exact ⟨ws[k]'(by omega), List.getElem_mem _, hfst k _⟩

/-! ### Loops over a grid -/

theorem mem_grid {α : Type} {m n : ℕ} {f : ℕ → ℕ → α} {a : α} :
    a ∈ grid m n f ↔ ∃ i < m, ∃ j < n, f i j = a := by
  simp [grid, List.mem_flatMap]

theorem grid_succ {α : Type} (m n : ℕ) (f : ℕ → ℕ → α) :
    grid (m + 1) n f = grid m n f ++ (List.range n).map (f m) := by
  simp [grid, List.range_succ, List.flatMap_append]

theorem map_grid {α β : Type} (g : α → β) (m n : ℕ) (f : ℕ → ℕ → α) :
    (grid m n f).map g = grid m n fun i j => g (f i j) := by
  induction m with
  | zero => rfl
  | succ m ih => rw [grid_succ, grid_succ, List.map_append, ih]; simp

theorem length_grid {α : Type} (m n : ℕ) (f : ℕ → ℕ → α) : (grid m n f).length = m * n := by
  induction m with
  | zero => simp [grid]
  | succ m ih => rw [grid_succ, List.length_append, ih]; simp; ring

theorem grid_numbers (m n : ℕ) : grid m n (fun i j => n * i + j) = List.range (m * n) := by
  induction m with
  | zero => simp [grid]
  | succ m ih =>
    rw [grid_succ, ih, Nat.succ_mul, List.range_add]
    congr 1
    rw [mul_comm]

/-- Row by row assignments. -/
theorem fill_grid {α : Type} (m n : ℕ) (f : ℕ → ℕ → α) :
    fill (m * n) (grid m n fun i j => (n * i + j, f i j)) = some (grid m n f) := by
  rw [fill_seq (by rw [map_grid]; exact grid_numbers m n), map_grid]

theorem getElem?_grid {α : Type} {m n : ℕ} (f : ℕ → ℕ → α) {i j : ℕ} (hi : i < m) (hj : j < n) :
    (grid m n f)[n * i + j]? = some (f i j) := by
  induction m with
  | zero => omega
  | succ m ih =>
    rw [grid_succ]
    by_cases h : i < m
    · rw [List.getElem?_append_left, ih h]
      rw [length_grid]
      calc n * i + j < n * i + n := by omega
        _ = n * (i + 1) := by ring
        _ ≤ n * m := Nat.mul_le_mul_left _ h
        _ = m * n := mul_comm _ _
    · have : i = m := by omega
      subst this
      rw [List.getElem?_append_right (by rw [length_grid, mul_comm]; omega), length_grid, mul_comm i n,
        Nat.add_sub_cancel_left]
      simp [hj]

/-- Row and column of a number. -/
theorem exists_row {m n k : ℕ} (h : k < m * n) : ∃ i < m, ∃ j < n, k = n * i + j := by
  have hn : 0 < n := by
    rcases Nat.eq_zero_or_pos n with h0 | h0
    · subst h0; simp at h
    · exact h0
  refine ⟨k / n, Nat.div_lt_of_lt_mul (by rwa [mul_comm]), k % n, Nat.mod_lt _ hn, ?_⟩
  exact (Nat.div_add_mod k n).symm

theorem row_inj {n i j i' j' : ℕ} (hj : j < n) (hj' : j' < n) (h : n * i + j = n * i' + j') :
    i = i' ∧ j = j' := by
  have hn : 0 < n := by omega
  have h1 : (n * i + j) / n = i := by rw [Nat.mul_add_div hn, Nat.div_eq_of_lt hj, add_zero]
  have h2 : (n * i' + j') / n = i' := by rw [Nat.mul_add_div hn, Nat.div_eq_of_lt hj', add_zero]
  have : i = i' := by rw [← h1, ← h2, h]
  subst this
  exact ⟨rfl, by omega⟩

theorem row_lt {m n i j : ℕ} (hi : i < m) (hj : j < n) : n * i + j < m * n := by
  calc n * i + j < n * i + n := by omega
    _ = n * (i + 1) := by ring
    _ ≤ n * m := Nat.mul_le_mul_left _ hi
    _ = m * n := mul_comm _ _

theorem sum_grid {K : Type} [AddCommMonoid K] (m n : ℕ) (f : ℕ → ℕ → K) :
    (grid m n f).sum = ∑ i ∈ Finset.range m, ∑ j ∈ Finset.range n, f i j := by
  induction m with
  | zero => simp [grid]
  | succ m ih =>
    rw [grid_succ, List.sum_append, ih, Finset.sum_range_succ]
    congr 1

/-! ### Cells -/

/-- The element over the cell `c` of a grid with node numbers `N`; `s` is the next position in the second
direction. -/
def quad (N : ℕ → ℕ → ℕ) (s : ℕ → ℕ) (c : ℕ × ℕ) : List ℕ :=
  [N c.1 c.2, N (c.1 + 1) c.2, N (c.1 + 1) (s c.2), N c.1 (s c.2)]

theorem sides_four (a b c d : ℕ) : sides [a, b, c, d] = [(a, b), (b, c), (c, d), (d, a)] := rfl

/-- What the numbering has to satisfy on the cells `cs`. -/
structure Cells (N : ℕ → ℕ → ℕ) (s : ℕ → ℕ) (V : ℕ → ℕ → Prop) (cs : List (ℕ × ℕ)) : Prop where
  nodup : cs.Nodup
  vert : ∀ c ∈ cs, V c.1 c.2 ∧ V (c.1 + 1) c.2 ∧ V (c.1 + 1) (s c.2) ∧ V c.1 (s c.2)
  inj : ∀ i j i' j', V i j → V i' j' → N i j = N i' j' → i = i' ∧ j = j'
  sinj : ∀ c ∈ cs, ∀ c' ∈ cs, s c.2 = s c'.2 → c.2 = c'.2
  sne : ∀ c ∈ cs, s c.2 ≠ c.2
  stwo : ∀ c ∈ cs, ∀ c' ∈ cs, s c.2 = c'.2 → s c'.2 ≠ c.2

namespace Cells
variable {N : ℕ → ℕ → ℕ} {s : ℕ → ℕ} {V : ℕ → ℕ → Prop} {cs : List (ℕ × ℕ)}

theorem quad_nodup (h : Cells N s V cs) {c : ℕ × ℕ} (hc : c ∈ cs) : (quad N s c).Nodup := by
  obtain ⟨v1, v2, v3, v4⟩ := h.vert c hc
  have hs := h.sne c hc
  have e1 : N c.1 c.2 ≠ N (c.1 + 1) c.2 := fun e => by have := h.inj _ _ _ _ v1 v2 e; omega
  have e2 : N c.1 c.2 ≠ N (c.1 + 1) (s c.2) := fun e => by have := h.inj _ _ _ _ v1 v3 e; omega
  have e3 : N c.1 c.2 ≠ N c.1 (s c.2) := fun e => hs (h.inj _ _ _ _ v1 v4 e).2.symm
  have e4 : N (c.1 + 1) c.2 ≠ N (c.1 + 1) (s c.2) := fun e => hs (h.inj _ _ _ _ v2 v3 e).2.symm
  have e5 : N (c.1 + 1) c.2 ≠ N c.1 (s c.2) := fun e => by have := h.inj _ _ _ _ v2 v4 e; omega
  have e6 : N (c.1 + 1) (s c.2) ≠ N c.1 (s c.2) := fun e => by have := h.inj _ _ _ _ v3 v4 e; omega
  simp [quad, e1, e2, e3, e4, e5, e6]

theorem mem_sides {x : ℕ × ℕ} :
    x ∈ (cs.map (quad N s)).flatMap sides ↔ ∃ c ∈ cs,
      x = (N c.1 c.2, N (c.1 + 1) c.2) ∨ x = (N (c.1 + 1) c.2, N (c.1 + 1) (s c.2)) ∨
      x = (N (c.1 + 1) (s c.2), N c.1 (s c.2)) ∨ x = (N c.1 (s c.2), N c.1 c.2) := by
  simp only [List.mem_flatMap, List.mem_map]
  constructor
  · rintro ⟨e, ⟨c, hc, rfl⟩, hx⟩
    refine ⟨c, hc, ?_⟩
    simpa [quad, sides_four] using hx
  · rintro ⟨c, hc, hx⟩
    refine ⟨_, ⟨c, hc, rfl⟩, ?_⟩
    simpa [quad, sides_four] using hx

/-- The directed sides of all cells are different. -/
theorem sides_nodup (h : Cells N s V cs) : ((cs.map (quad N s)).flatMap sides).Nodup := by
  rw [List.flatMap_map, List.nodup_flatMap]
  constructor
  · intro c hc
    have hq := h.quad_nodup hc
    simp only [quad, List.nodup_cons, List.mem_cons, List.not_mem_nil, or_false, not_or,
      not_false_eq_true, List.nodup_nil, and_true] at hq
    obtain ⟨⟨q1, q2, q3⟩, ⟨q4, q5⟩, q6⟩ := hq
    show (sides (quad N s c)).Nodup
    unfold quad
    rw [sides_four]
    simp only [List.nodup_cons, List.mem_cons, List.not_mem_nil, or_false, not_or, Prod.mk.injEq, not_and,
      not_false_eq_true, List.nodup_nil, and_true]
    refine ⟨⟨fun e => absurd e q1, fun e => absurd e q2, fun e => absurd e q3⟩,
      ⟨fun e => absurd e q4, fun e => absurd e q5⟩, fun e => absurd e q6⟩
  · refine List.Pairwise.imp_of_mem ?_ h.nodup
    intro c c' hc hc' hne x hx hx'
    apply hne
    obtain ⟨v1, v2, v3, v4⟩ := h.vert c hc
    obtain ⟨w1, w2, w3, w4⟩ := h.vert c' hc'
    have hs := h.sne c hc
    have hs' := h.sne c' hc'
    have key : ∀ {i j i' j'}, V i j → V i' j' → N i j = N i' j' → i = i' ∧ j = j' :=
      fun {i j i' j'} a b e => h.inj i j i' j' a b e
    have fin : c.1 = c'.1 → c.2 = c'.2 → c = c' := fun a b => Prod.ext a b
    simp only [quad, sides_four, List.mem_cons, List.not_mem_nil, or_false] at hx hx'
    rcases hx with rfl | rfl | rfl | rfl <;> rcases hx' with e | e | e | e <;>
      simp only [Prod.mk.injEq] at e <;> obtain ⟨ea, eb⟩ := e
    · have a := key v1 w1 ea; exact fin a.1 a.2
    · have a := key v1 w2 ea; have b := key v2 w3 eb; omega
    · have a := key v1 w3 ea; have b := key v2 w4 eb; omega
    · have a := key v1 w4 ea; have b := key v2 w1 eb; omega
    · have a := key v2 w1 ea; have b := key v3 w2 eb; omega
    · have a := key v2 w2 ea; exact fin (by omega) a.2
    · have a := key v2 w3 ea; have b := key v3 w4 eb; omega
    · have a := key v2 w4 ea; have b := key v3 w1 eb
      exact absurd a.2.symm (h.stwo c hc c' hc' b.2)
    · have a := key v3 w1 ea; have b := key v4 w2 eb; omega
    · have a := key v3 w2 ea; have b := key v4 w3 eb; omega
    · have a := key v3 w3 ea; exact fin (by omega) (h.sinj c hc c' hc' a.2)
    · have a := key v3 w4 ea; have b := key v4 w1 eb; omega
    · have a := key v4 w1 ea; have b := key v1 w2 eb; omega
    · have a := key v4 w2 ea; have b := key v1 w3 eb
      exact absurd b.2.symm (h.stwo c hc c' hc' a.2)
    · have a := key v4 w3 ea; have b := key v1 w4 eb; omega
    · have b := key v1 w1 eb; exact fin b.1 b.2

/-- The boundary: the sides of cells without a neighbour behind them. -/
theorem mem_boundary (h : Cells N s V cs) {a b : ℕ} :
    ((a, b) ∈ (cs.map (quad N s)).flatMap sides ∧ (b, a) ∉ (cs.map (quad N s)).flatMap sides) ↔
      ∃ c ∈ cs,
        ((a, b) = (N c.1 c.2, N (c.1 + 1) c.2) ∧ ∀ c' ∈ cs, c'.1 = c.1 → s c'.2 ≠ c.2) ∨
        ((a, b) = (N (c.1 + 1) c.2, N (c.1 + 1) (s c.2)) ∧ (c.1 + 1, c.2) ∉ cs) ∨
        ((a, b) = (N (c.1 + 1) (s c.2), N c.1 (s c.2)) ∧ (c.1, s c.2) ∉ cs) ∨
        ((a, b) = (N c.1 (s c.2), N c.1 c.2) ∧ ∀ c' ∈ cs, c'.2 = c.2 → c'.1 + 1 ≠ c.1) := by
  have key : ∀ {i j i' j'}, V i j → V i' j' → N i j = N i' j' → i = i' ∧ j = j' :=
    fun {i j i' j'} a b e => h.inj i j i' j' a b e
  rw [mem_sides, mem_sides]
  constructor
  · rintro ⟨⟨c, hc, hx⟩, hn⟩
    refine ⟨c, hc, ?_⟩
    rcases hx with hx | hx | hx | hx
    · refine Or.inl ⟨hx, ?_⟩
      intro c' hc' e1 e2
      refine hn ⟨c', hc', Or.inr (Or.inr (Or.inl ?_))⟩
      cases hx; rw [e1, e2]
    · refine Or.inr (Or.inl ⟨hx, ?_⟩)
      intro hc'
      refine hn ⟨_, hc', Or.inr (Or.inr (Or.inr ?_))⟩
      cases hx; rfl
    · refine Or.inr (Or.inr (Or.inl ⟨hx, ?_⟩))
      intro hc'
      refine hn ⟨_, hc', Or.inl ?_⟩
      cases hx; rfl
    · refine Or.inr (Or.inr (Or.inr ⟨hx, ?_⟩))
      intro c' hc' e1 e2
      refine hn ⟨c', hc', Or.inr (Or.inl ?_)⟩
      cases hx; rw [e1, e2]
  · rintro ⟨c, hc, hx⟩
    obtain ⟨v1, v2, v3, v4⟩ := h.vert c hc
    have hs := h.sne c hc
    rcases hx with ⟨hx, hb⟩ | ⟨hx, hb⟩ | ⟨hx, hb⟩ | ⟨hx, hb⟩ <;> cases hx
    · refine ⟨⟨c, hc, Or.inl rfl⟩, ?_⟩
      rintro ⟨c', hc', e⟩
      obtain ⟨w1, w2, w3, w4⟩ := h.vert c' hc'
      rcases e with e | e | e | e <;> simp only [Prod.mk.injEq] at e <;> obtain ⟨ea, eb⟩ := e
      · have a := key v2 w1 ea; have b := key v1 w2 eb; omega
      · have a := key v2 w2 ea; have b := key v1 w3 eb; omega
      · have b := key v1 w4 eb; exact hb c' hc' b.1.symm b.2.symm
      · have a := key v2 w4 ea; have b := key v1 w1 eb; omega
    · refine ⟨⟨c, hc, Or.inr (Or.inl rfl)⟩, ?_⟩
      rintro ⟨c', hc', e⟩
      obtain ⟨w1, w2, w3, w4⟩ := h.vert c' hc'
      rcases e with e | e | e | e <;> simp only [Prod.mk.injEq] at e <;> obtain ⟨ea, eb⟩ := e
      · have a := key v3 w1 ea; have b := key v2 w2 eb; omega
      · have a := key v3 w2 ea; have b := key v2 w3 eb
        exact h.stwo c hc c' hc' a.2 b.2.symm
      · have a := key v3 w3 ea; have b := key v2 w4 eb; omega
      · have b := key v2 w1 eb
        apply hb
        rw [show (c.1 + 1, c.2) = c' from Prod.ext b.1 b.2]
        exact hc'
    · refine ⟨⟨c, hc, Or.inr (Or.inr (Or.inl rfl))⟩, ?_⟩
      rintro ⟨c', hc', e⟩
      obtain ⟨w1, w2, w3, w4⟩ := h.vert c' hc'
      rcases e with e | e | e | e <;> simp only [Prod.mk.injEq] at e <;> obtain ⟨ea, eb⟩ := e
      · have a := key v4 w1 ea
        apply hb
        rw [show (c.1, s c.2) = c' from Prod.ext a.1 a.2]
        exact hc'
      · have a := key v4 w2 ea; have b := key v3 w3 eb; omega
      · have a := key v4 w3 ea; have b := key v3 w4 eb; omega
      · have a := key v4 w4 ea; have b := key v3 w1 eb; omega
    · refine ⟨⟨c, hc, Or.inr (Or.inr (Or.inr rfl))⟩, ?_⟩
      rintro ⟨c', hc', e⟩
      obtain ⟨w1, w2, w3, w4⟩ := h.vert c' hc'
      rcases e with e | e | e | e <;> simp only [Prod.mk.injEq] at e <;> obtain ⟨ea, eb⟩ := e
      · have a := key v1 w1 ea; have b := key v4 w2 eb; omega
      · have a := key v1 w2 ea
        exact hb c' hc' a.2.symm a.1.symm
      · have a := key v1 w3 ea; have b := key v4 w4 eb; omega
      · have a := key v1 w4 ea; have b := key v4 w1 eb
        exact h.stwo c hc c' hc' b.2 a.2.symm

end Cells

theorem grid_nodup {α : Type} {m n : ℕ} {f : ℕ → ℕ → α}
    (h : ∀ i < m, ∀ j < n, ∀ i' < m, ∀ j' < n, f i j = f i' j' → i = i' ∧ j = j') :
    (grid m n f).Nodup := by
  unfold grid
  rw [List.nodup_flatMap]
  constructor
  · intro i hi
    refine List.Nodup.map_on ?_ List.nodup_range
    intro j hj j' hj' e
    exact (h i (List.mem_range.1 hi) j (List.mem_range.1 hj) i (List.mem_range.1 hi) j'
      (List.mem_range.1 hj') e).2
  · refine List.Pairwise.imp_of_mem ?_ List.nodup_range
    intro i i' hi hi' hne x hx hx'
    obtain ⟨j, hj, rfl⟩ := List.mem_map.1 hx
    obtain ⟨j', hj', e⟩ := List.mem_map.1 hx'
    exact hne (h i (List.mem_range.1 hi) j (List.mem_range.1 hj) i' (List.mem_range.1 hi') j'
      (List.mem_range.1 hj') e.symm).1

/-! ### Areas -/

theorem cross_self {K : Type} [CommRing K] (p : K × K) : cross p p = 0 := by
  simp [cross]

theorem cross_swap {K : Type} [CommRing K] (p q : K × K) : cross q p = -cross p q := by
  simp [cross]

/-- Interior sides cancel: the areas of the elements add up to the area enclosed by the edges. -/
theorem sum_polyArea {K : Type} [Field K] (nodes : List (K × K)) {N : ℕ}
    {elements edges : List (List ℕ)} (h : CellsOk N elements edges) :
    (elements.map (polyArea nodes)).sum = enclosed nodes edges := by
  classical
  set c : ℕ × ℕ → K := fun s => cross (nodes.getD s.1 (0, 0)) (nodes.getD s.2 (0, 0)) with hc
  set L := elements.flatMap sides with hL
  have h1 : (elements.map (polyArea nodes)).sum = (L.map c).sum / 2 := by
    rw [hL]
    clear_value L
    clear h hL
    induction elements with
    | nil => simp
    | cons e es ih =>
      rw [List.map_cons, List.sum_cons, ih, List.flatMap_cons, List.map_append, List.sum_append, add_div]
      rfl
  have h2 : (edges.map fun e => cross (nodes.getD (e.getD 0 0) (0, 0)) (nodes.getD (e.getD 1 0) (0, 0)))
      = (edges.map fun e => (e.getD 0 0, e.getD 1 0)).map c := by
    rw [List.map_map]; rfl
  set E := edges.map fun e => (e.getD 0 0, e.getD 1 0) with hE
  have hEn : E.Nodup := by
    refine List.Nodup.map_on ?_ h.edgesOnce
    intro e he e' he' heq
    obtain ⟨a, b, rfl⟩ := h.pair e he
    obtain ⟨a', b', rfl⟩ := h.pair e' he'
    simpa using heq
  have hEmem : ∀ x : ℕ × ℕ, x ∈ E ↔ x ∈ L ∧ x.swap ∉ L := by
    rintro ⟨a, b⟩
    rw [hL, Prod.swap_prod_mk, ← h.boundary a b, hE, List.mem_map]
    constructor
    · rintro ⟨e, he, heq⟩
      obtain ⟨a', b', rfl⟩ := h.pair e he
      simp at heq
      obtain ⟨rfl, rfl⟩ := heq
      exact he
    · intro he
      exact ⟨_, he, by simp⟩
  unfold enclosed
  rw [h1, h2]
  congr 1
  have hLn : L.Nodup := h.once
  rw [← List.sum_toFinset c hLn, ← List.sum_toFinset c hEn,
    ← Finset.sum_filter_add_sum_filter_not L.toFinset (fun x => x.swap ∈ L) c]
  have hz : ∑ x ∈ L.toFinset with x.swap ∈ L, c x = 0 := by
    refine Finset.sum_involution (fun x _ => x.swap) ?_ ?_ ?_ ?_
    · rintro ⟨a, b⟩ _
      show c (a, b) + c (b, a) = 0
      simp only [hc]
      rw [cross_swap]; ring
    · rintro ⟨a, b⟩ _ hne heq
      apply hne
      simp only [Prod.swap_prod_mk, Prod.mk.injEq] at heq
      obtain ⟨rfl, -⟩ := heq
      exact cross_self _
    · rintro x hx
      simp only [Finset.mem_filter, List.mem_toFinset] at hx ⊢
      exact ⟨hx.2, by simpa using hx.1⟩
    · rintro x _
      exact Prod.swap_swap x
  rw [hz, zero_add]
  congr 1
  ext x
  simp only [Finset.mem_filter, List.mem_toFinset]
  exact (hEmem x).symm

end Pansfem
