/-
Lemmas about triangulations with neighbours.
-/
import Verif.Spec.Delaunay
import Mathlib.Algebra.BigOperators.Group.Finset.Basic
import Mathlib.Algebra.Order.Ring.Abs
import Mathlib.Tactic.Ring
import Mathlib.Tactic.Linarith
import Mathlib.Tactic.FinCases

namespace Pansfem

theorem fin3_cases : ∀ i k : Fin 3, i = k ∨ i = k + 1 ∨ i = k + 2 := by decide
theorem fin3_adj : ∀ i k : Fin 3, ¬i = k → k = i + 1 ∨ i = k + 1 := by decide
theorem fin3_absurd : ∀ i j : Fin 3, j + 1 = i + 2 → ¬j + 2 = i + 1 := by decide
theorem fin3_shift : ∀ i i' : Fin 3, i + 1 = i' + 2 → i' = i + 2 := by decide

theorem fin3 {P : Fin 3 → Prop} (k : Fin 3) (h0 : P k) (h1 : P (k + 1)) (h2 : P (k + 2)) (i : Fin 3) :
    P i := by
  rcases fin3_cases i k with rfl | rfl | rfl <;> assumption

@[simp] theorem fin3_12 (k : Fin 3) : k + 1 + 2 = k := by revert k; decide
@[simp] theorem fin3_21 (k : Fin 3) : k + 2 + 1 = k := by revert k; decide
@[simp] theorem fin3_11 (k : Fin 3) : k + 1 + 1 = k + 2 := by revert k; decide
@[simp] theorem fin3_22 (k : Fin 3) : k + 2 + 2 = k + 1 := by revert k; decide
theorem fin3_ne1 (k : Fin 3) : k + 1 ≠ k := by revert k; decide
theorem fin3_ne2 (k : Fin 3) : k + 2 ≠ k := by revert k; decide
theorem fin3_ne12 (k : Fin 3) : k + 1 ≠ k + 2 := by revert k; decide

section Area

set_option linter.unusedSectionVars false

variable {K : Type} [Field K] [LinearOrder K] [IsStrictOrderedRing K] {pos : ℤ → K × K}
  {els els' : List DTri}

theorem vecpro_rot (a b c : K × K) : vecpro a b c = vecpro b c a := by
  unfold vecpro; ring

theorem vecpro_swap (a b c : K × K) : vecpro a c b = -vecpro a b c := by
  unfold vecpro; ring

theorem area2_rot (pos : ℤ → K × K) (e : DTri) (k : Fin 3) :
    area2 pos e = vecpro (pos (e.nodes k)) (pos (e.nodes (k + 1))) (pos (e.nodes (k + 2))) := by
  have h : (2 : Fin 3) + 1 = 0 ∧ (1 : Fin 3) + 2 = 0 ∧ (1 : Fin 3) + 1 = 2 ∧ (2 : Fin 3) + 2 = 1 := by
    decide
  revert k
  refine fin3 0 ?_ ?_ ?_
  · rfl
  · rw [area2, vecpro_rot]; simp [h]
  · rw [area2, ← vecpro_rot]; simp [h]

theorem nodes_ne {e : DTri} (h : 0 < area2 pos e) (k : Fin 3) : e.nodes k ≠ e.nodes (k + 1) := by
  intro he
  rw [area2_rot pos e k, he] at h
  simp [vecpro] at h

theorem nodes_inj {e : DTri} (h : 0 < area2 pos e) {i k : Fin 3} (he : e.nodes i = e.nodes k) : i = k := by
  by_contra hne
  rcases fin3_adj i k hne with rfl | rfl
  · exact nodes_ne h i he
  · exact nodes_ne h k he.symm

theorem Oriented.at (h : Oriented pos els) {t : ℕ} {e : DTri} (he : els[t]? = some e) :
    0 < area2 pos e := h e (List.mem_of_getElem? he)

theorem Glued.symm {t i u j} (h : Glued els t i u j) : Glued els u j t i := by
  obtain ⟨e, f, h1, h2, h3, h4, h5, h6⟩ := h
  exact ⟨f, e, h2, h1, h4, h3, h6.symm, h5.symm⟩

theorem Glued.left {t i u j} (h : Glued els t i u j) {e : DTri} (he : els[t]? = some e) :
    e.neighbors i = u := by
  obtain ⟨e', f, h1, h2, h3, -⟩ := h
  rw [he] at h1
  cases h1
  exact h3

theorem Glued.right {t i u j} (h : Glued els t i u j) {f : DTri} (hf : els[u]? = some f) :
    f.neighbors j = t := h.symm.left hf

/-- No element is its own neighbour. -/
theorem Glued.ne (ho : Oriented pos els) {t i u j} (h : Glued els t i u j) : t ≠ u := by
  rintro rfl
  obtain ⟨e, f, h1, h2, h3, h4, h5, h6⟩ := h
  rw [h1] at h2
  cases h2
  exact fin3_absurd i j (nodes_inj (ho.at h1) h5) (nodes_inj (ho.at h1) h6)

/-- Two elements have at most one side in common. -/
theorem neighbors_inj (hl : Linked els) (ho : Oriented pos els) {u : ℕ} {f : DTri}
    (hf : els[u]? = some f) {j j' : Fin 3} (hj : f.neighbors j = f.neighbors j')
    (hne : f.neighbors j ≠ -1) : j = j' := by
  have key : ∀ j, f.neighbors j = f.neighbors (j + 1) → f.neighbors j = -1 := by
    intro j hj
    by_contra hne
    rcases hl u f hf j with h | ⟨t, i, h⟩
    · exact hne h
    rcases hl u f hf (j + 1) with h' | ⟨t', i', h'⟩
    · exact hne (hj.trans h')
    have e1 := h.left hf
    have e2 := h'.left hf
    have : t' = t := by exact_mod_cast (e2.symm.trans (hj.symm.trans e1))
    subst this
    obtain ⟨f1, e, a1, a2, a3, a4, a5, a6⟩ := h
    obtain ⟨f2, e', b1, b2, b3, b4, b5, b6⟩ := h'
    rw [hf] at a1 b1
    cases a1; cases b1
    rw [a2] at b2
    cases b2
    simp only [fin3_11, fin3_12] at b5 b6
    -- the nodes of `e` are the nodes of `f` the other way round
    have hi : i' = i + 2 := fin3_shift _ _ (nodes_inj (ho.at a2) (a5.trans b6.symm))
    subst hi
    simp only [fin3_21, fin3_22] at b5 b6
    have p1 := ho.at hf
    have p2 := ho.at a2
    rw [area2_rot pos f j] at p1
    rw [area2_rot pos e i, b5, a5, a6, vecpro_swap] at p2
    linarith
  by_contra hn
  rcases fin3_adj j j' hn with rfl | rfl
  · exact hne (key j hj)
  · exact hne (hj.trans (key j' hj.symm))

/-- The partner of a side is the only side of its element with this neighbour. -/
theorem Glued.unique (hl : Linked els) (ho : Oriented pos els) {t i u j} (h : Glued els t i u j)
    {f : DTri} (hf : els[u]? = some f) {j' : Fin 3} (hj : f.neighbors j' = t) : j' = j :=
  neighbors_inj hl ho hf (hj.trans (h.right hf).symm) (by rw [hj]; omega)

end Area

/-! ### The total area -/

section Total

variable {K : Type} [Field K] {pos : ℤ → K × K}

/-- The area at a place of the list, zero outside. -/
def areaAt (pos : ℤ → K × K) (els : List DTri) (s : ℕ) : K := ((els[s]?).map (area2 pos)).getD 0

theorem total2_range (els : List DTri) : total2 pos els = ∑ s ∈ Finset.range els.length, areaAt pos els s := by
  induction els using List.reverseRecOn with
  | nil => simp [total2]
  | append_singleton l x ih =>
    rw [total2, List.map_append, List.sum_append, ← total2, ih, List.length_append, List.length_singleton,
      Finset.sum_range_succ]
    congr 1
    · refine Finset.sum_congr rfl fun s hs => ?_
      rw [areaAt, areaAt, List.getElem?_append_left (Finset.mem_range.1 hs)]
    · simp [areaAt]

theorem total2_range_le (els : List DTri) {M : ℕ} (hM : els.length ≤ M) :
    total2 pos els = ∑ s ∈ Finset.range M, areaAt pos els s := by
  rw [total2_range]
  refine Finset.sum_subset (fun s hs => ?_) fun s _ hs => ?_
  · rw [Finset.mem_range] at *; omega
  · rw [Finset.mem_range, not_lt] at hs
    rw [areaAt, List.getElem?_eq_none hs]
    rfl

/-- A change at the places of `S` only. -/
theorem total2_change {els els' : List DTri} (S : Finset ℕ)
    (h : ∀ s, s ∉ S → areaAt pos els' s = areaAt pos els s) :
    total2 pos els' - total2 pos els = ∑ s ∈ S, (areaAt pos els' s - areaAt pos els s) := by
  classical
  obtain ⟨M, hM⟩ : ∃ M, S ⊆ Finset.range M :=
    ⟨S.sup id + 1, fun s hs => by
      rw [Finset.mem_range]
      have : s ≤ S.sup id := Finset.le_sup (f := id) hs
      omega⟩
  have hsub : S ⊆ Finset.range (max M (max els.length els'.length)) :=
    hM.trans (Finset.range_subset_range.2 (le_max_left _ _))
  rw [total2_range_le els (M := max M (max els.length els'.length)) (by omega),
    total2_range_le els' (M := max M (max els.length els'.length)) (by omega),
    ← Finset.sum_sub_distrib]
  refine (Finset.sum_subset hsub fun s _ hs => ?_).symm
  rw [h s hs, sub_self]

end Total

/-! ### Changing neighbours -/

/-- The effect of `relink`: at the element `z` the neighbour `old` becomes `new`. -/
def patch (z old new : ℤ) (s : ℕ) (g : DTri) : DTri :=
  { g with neighbors := fun k => if z = s ∧ g.neighbors k = old then new else g.neighbors k }

theorem oppositenode_eq {e : DTri} {i : Fin 3} {old : ℤ} (hi : e.neighbors i = old)
    (hu : ∀ i', e.neighbors i' = old → i' = i) : e.oppositenode old = some i := by
  unfold DTri.oppositenode
  by_cases h0 : e.neighbors 0 = old
  · rw [if_pos h0, hu 0 h0]
  rw [if_neg h0]
  by_cases h1 : e.neighbors 1 = old
  · rw [if_pos h1, hu 1 h1]
  rw [if_neg h1]
  by_cases h2 : e.neighbors 2 = old
  · rw [if_pos h2, hu 2 h2]
  · exact absurd hi (fin3 (P := fun i => ¬e.neighbors i = old) 0 h0 h1 h2 i)

/-- What must hold at `z` for the change to go well. -/
def CanRelink (els : List DTri) (z old : ℤ) : Prop :=
  z = -1 ∨ ∃ (u : ℕ) (f : DTri) (i : Fin 3), z = u ∧ els[u]? = some f ∧ f.neighbors i = old ∧
    ∀ i', f.neighbors i' = old → i' = i

theorem relink_eq {els : List DTri} {u : ℕ} {f : DTri} {i : Fin 3} {old new : ℤ}
    (hf : els[u]? = some f) (hi : f.neighbors i = old) (hu : ∀ i', f.neighbors i' = old → i' = i) :
    relink els u old new = some (els.mapIdx (patch u old new)) := by
  unfold relink
  rw [hf]
  simp only [bind, Option.bind, oppositenode_eq hi hu, pure]
  congr 1
  apply List.ext_getElem?
  intro s
  rw [List.getElem?_mapIdx, List.getElem?_set]
  by_cases hs : u = s
  · subst hs
    have hlt : u < els.length := by
      by_contra h
      rw [List.getElem?_eq_none (by omega)] at hf
      cases hf
    rw [if_pos rfl, if_pos hlt, hf]
    simp only [patch, Option.map_some, true_and, Option.some.injEq, DTri.mk.injEq, and_true]
    funext k
    by_cases hk : k = i
    · subst hk
      rw [Function.update_self, if_pos hi]
    · rw [Function.update_of_ne hk, if_neg fun h => hk (hu k h)]
  · rw [if_neg hs]
    cases h : els[s]? with
    | none => rfl
    | some g =>
      have : ¬((u : ℤ) = s) := by omega
      simp [patch, this]

theorem mapIdx_patch_neg (els : List DTri) (old new : ℤ) : els.mapIdx (patch (-1) old new) = els := by
  apply List.ext_getElem?
  intro s
  rw [List.getElem?_mapIdx]
  cases h : els[s]? with
  | none => rfl
  | some g =>
    have : ¬((-1 : ℤ) = s) := by omega
    simp [patch, this]

theorem relinkNonneg_eq {els : List DTri} {z old new : ℤ} (h : CanRelink els z old) :
    relinkNonneg els z old new = some (els.mapIdx (patch z old new)) := by
  rcases h with rfl | ⟨u, f, i, rfl, hf, hi, hu⟩
  · rw [mapIdx_patch_neg]; rfl
  · rw [relinkNonneg, if_pos (by omega), Int.toNat_natCast, relink_eq hf hi hu]

theorem relinkSome_eq {els : List DTri} {z old new : ℤ} (h : CanRelink els z old) :
    relinkSome els z old new = some (els.mapIdx (patch z old new)) := by
  rcases h with rfl | ⟨u, f, i, rfl, hf, hi, hu⟩
  · rw [mapIdx_patch_neg]; rfl
  · rw [relinkSome, if_neg (by omega), if_neg (by omega), Int.toNat_natCast, relink_eq hf hi hu]

/-! ### Replacing elements -/

/-- Elements `R` are replaced: the outer sides of the old ones become sides of the new ones as `φ` says,
the other sides of the new ones fit to each other. -/
theorem linked_replace {els els' : List DTri} (R : ℕ → Prop) (φ : ℕ → Fin 3 → ℕ × Fin 3)
    (hl : Linked els)
    (hback : ∀ s g', ¬R s → els'[s]? = some g' → ∃ g, els[s]? = some g)
    (hout : ∀ s g, ¬R s → els[s]? = some g → ∃ g', els'[s]? = some g' ∧ g'.nodes = g.nodes ∧
      ∀ k, (∀ r, R r → g.neighbors k ≠ r) → g'.neighbors k = g.neighbors k)
    (hport : ∀ s k r i g', ¬R s → R r → Glued els s k r i → els'[s]? = some g' →
      g'.neighbors k = (φ r i).1)
    (hin : ∀ r i h, R r → els[r]? = some h → (∀ s, R s → h.neighbors i ≠ s) → h.neighbors i ≠ -1 →
      ∃ h', els'[(φ r i).1]? = some h' ∧ h'.neighbors (φ r i).2 = h.neighbors i ∧
        h'.nodes ((φ r i).2 + 1) = h.nodes (i + 1) ∧ h'.nodes ((φ r i).2 + 2) = h.nodes (i + 2))
    (hnew : ∀ r' i' h', R r' → els'[r']? = some h' → h'.neighbors i' = -1 ∨
      (∃ u j, Glued els' r' i' u j) ∨
      ∃ r i h, R r ∧ els[r]? = some h ∧ φ r i = (r', i') ∧ h'.neighbors i' = h.neighbors i ∧
        ∀ s, R s → h.neighbors i ≠ s) :
    Linked els' := by
  intro t e' he' i'
  by_cases ht : R t
  · rcases hnew t i' e' ht he' with h | h | ⟨r, i, h, hr, hh, hφ, hn, hno⟩
    · exact Or.inl h
    · exact Or.inr h
    · by_cases hm : h.neighbors i = -1
      · exact Or.inl (hn.trans hm)
      right
      rcases hl r h hh i with h0 | ⟨s, k, hg⟩
      · exact absurd h0 hm
      have hs : ¬R s := fun hs => hno s hs (hg.left hh)
      obtain ⟨h1, g, a1, a2, a3, a4, a5, a6⟩ := hg
      rw [hh] at a1
      cases a1
      obtain ⟨g', b1, b2, -⟩ := hout s g hs a2
      have b3 := hport s k r i g' hs hr ⟨g, h, a2, hh, a4, a3, a6.symm, a5.symm⟩ b1
      obtain ⟨h', c1, c2, c3, c4⟩ := hin r i h hr hh hno hm
      rw [hφ] at c1 c2 c3 c4 b3
      rw [he'] at c1
      cases c1
      exact ⟨s, k, e', g', he', b1, c2.trans a3, b3, by rw [b2, c4, a5], by rw [b2, c3, a6]⟩
  · obtain ⟨g, hg⟩ := hback t e' ht he'
    obtain ⟨g', b1, b2, b3⟩ := hout t g ht hg
    rw [he'] at b1
    cases b1
    rcases hl t g hg i' with h0 | ⟨r, i, hgl⟩
    · left
      rw [b3 i' fun r _ h => by rw [h0] at h; omega, h0]
    right
    by_cases hr : R r
    · have p := hport t i' r i e' ht hr hgl he'
      obtain ⟨g1, h, a1, a2, a3, a4, a5, a6⟩ := hgl
      rw [hg] at a1
      cases a1
      obtain ⟨h', c1, c2, c3, c4⟩ := hin r i h hr a2
        (fun s hs hh => by rw [a4] at hh; exact ht (by have : t = s := by exact_mod_cast hh
                                                       rwa [this])) (by rw [a4]; omega)
      exact ⟨(φ r i).1, (φ r i).2, e', h', he', c1, p, c2.trans a4, by rw [c3, a5, b2],
        by rw [c4, a6, b2]⟩
    · obtain ⟨g1, h, a1, a2, a3, a4, a5, a6⟩ := hgl
      rw [hg] at a1
      cases a1
      obtain ⟨h', c1, c2, c3⟩ := hout r h hr a2
      refine ⟨r, i, e', h', he', c1, ?_, ?_, by rw [c2, b2, a5], by rw [c2, b2, a6]⟩
      · rw [b3 i' fun s hs hh => by rw [a3] at hh; exact hr (by have : r = s := by exact_mod_cast hh
                                                                rwa [this]), a3]
      · rw [c3 i fun s hs hh => by rw [a4] at hh; exact ht (by have : t = s := by exact_mod_cast hh
                                                               rwa [this]), a4]

end Pansfem
