/-
The changes of the triangulation by insertions and swaps.
-/
import Verif.Lemmas.Delaunay

namespace Pansfem

variable {K : Type} [Field K] [LinearOrder K] [IsStrictOrderedRing K] {pos : ℤ → K × K}
  {els : List DTri}

theorem fin3_other : ∀ i : Fin 3, i ≠ 0 → ¬i = 1 → i = 2 := by decide

theorem patch_of_ne {z old new : ℤ} {s : ℕ} (h : z ≠ s) (g : DTri) : patch z old new s g = g := by
  simp [patch, h]

theorem patch_nodes (z old new : ℤ) (s : ℕ) (g : DTri) : (patch z old new s g).nodes = g.nodes := rfl

theorem patch_active (z old new : ℤ) (s : ℕ) (g : DTri) : (patch z old new s g).active = g.active := rfl

theorem canRelink (hl : Linked els) (ho : Oriented pos els) {t : ℕ} {e : DTri} (he : els[t]? = some e)
    (i : Fin 3) : CanRelink els (e.neighbors i) t := by
  rcases hl t e he i with h | ⟨u, j, h⟩
  · exact Or.inl h
  · have h' := h
    obtain ⟨e', f, h1, h2, h3, h4, -⟩ := h
    rw [he] at h1
    cases h1
    exact Or.inr ⟨u, f, j, h3, h2, h4, fun i' hi' => h'.unique hl ho h2 hi'⟩

/-- A neighbour is another element. -/
theorem neighbor_ne (hl : Linked els) (ho : Oriented pos els) {t : ℕ} {e : DTri} (he : els[t]? = some e)
    (i : Fin 3) : e.neighbors i ≠ t := by
  rcases hl t e he i with h | ⟨u, j, h⟩
  · rw [h]; omega
  · rw [h.left he]
    have := h.ne ho
    omega

theorem neighbors_ne (hl : Linked els) (ho : Oriented pos els) {t : ℕ} {e : DTri} (he : els[t]? = some e)
    {i k : Fin 3} (hik : i ≠ k) {u : ℕ} (hu : e.neighbors i = u) : e.neighbors k ≠ u :=
  fun h => hik (neighbors_inj hl ho he (hu.trans h.symm) (by rw [hu]; omega))

theorem lt_of_some {α : Type} {l : List α} {i : ℕ} {a : α} (h : l[i]? = some a) : i < l.length := by
  by_contra hn
  rw [List.getElem?_eq_none (by omega)] at h
  cases h

theorem mapIdx_some {α β : Type} {l : List α} {g : ℕ → α → β} {i : ℕ} {a : α} (h : l[i]? = some a) :
    (l.mapIdx g)[i]? = some (g i a) := by
  rw [List.getElem?_mapIdx, h]; rfl

theorem set_other {α : Type} {l : List α} {i s : ℕ} (a : α) (h : i ≠ s) : (l.set i a)[s]? = l[s]? := by
  rw [List.getElem?_set, if_neg h]

theorem set_same {α : Type} {l : List α} {i : ℕ} (a : α) (h : i < l.length) : (l.set i a)[i]? = some a := by
  rw [List.getElem?_set, if_pos rfl, if_pos h]

/-! ### The swap -/

/-- The elements across the sides that change their element are different. -/
theorem swap_outer_ne (hl : Linked els) (ho : Oriented pos els) {now nei : ℕ} {e f : DTri} {j : Fin 3}
    (he : els[now]? = some e) (hf : els[nei]? = some f) (hg : Glued els now 0 nei j) {u : ℕ}
    (hz2 : e.neighbors 1 = u) : f.neighbors (j + 1) ≠ u := by
  have hne : now ≠ nei := hg.ne ho
  rcases hl now e he 1 with h | ⟨u', k, h⟩
  · rw [h] at hz2; omega
  have : u' = u := by have := h.left he; rw [hz2] at this; exact_mod_cast this.symm
  subst this
  intro hz
  rcases hl nei f hf (j + 1) with h' | ⟨w, l, h'⟩
  · rw [h'] at hz; omega
  have : w = u' := by have := h'.left hf; rw [hz] at this; exact_mod_cast this.symm
  subst this
  obtain ⟨e1, g, a1, a2, a3, a4, a5, a6⟩ := h
  obtain ⟨f1, g1, b1, b2, b3, b4, b5, b6⟩ := h'
  obtain ⟨e2, f2, d1, d2, d3, d4, d5, d6⟩ := hg
  rw [he] at a1 d1
  rw [hf] at b1 d2
  rw [a2] at b2
  cases a1; cases b1; cases b2; cases d1; cases d2
  have hkl : ¬l = k := by
    rintro rfl
    rw [a4] at b4
    exact hne (by exact_mod_cast b4)
  simp only [fin3_12, fin3_11] at b5 b6
  rcases fin3_adj l k hkl with rfl | rfl
  · -- `k = l + 1`
    simp only [fin3_11, fin3_12, show (1 : Fin 3) + 2 = 0 by decide,
      show (1 : Fin 3) + 1 = 2 by decide] at a5 a6
    have : e.nodes 0 = e.nodes 1 := by
      rw [← a5, b6, d6]; rfl
    exact absurd (nodes_inj (ho.at he) this) (by decide)
  · -- `l = k + 1`
    simp only [fin3_11, fin3_12, show (1 : Fin 3) + 2 = 0 by decide,
      show (1 : Fin 3) + 1 = 2 by decide] at a5 a6 b5 b6
    have : f.nodes j = f.nodes (j + 1) := by
      rw [← b5, a6, d5]; rfl
    exact absurd (nodes_inj (ho.at hf) this) (fin3_ne1 j).symm

theorem swapAt_spec (hl : Linked els) (ho : Oriented pos els) {now nei : ℕ} {e f : DTri} {j : Fin 3}
    (he : els[now]? = some e) (hf : els[nei]? = some f) (h0 : e.neighbors 0 = nei)
    (hg : Glued els now 0 nei j) (p1 m1 : ℤ) :
    ∃ els', swapAt els p1 m1 now nei j = some els' ∧
      (∃ e', els'[now]? = some e' ∧ e'.nodes = ![e.nodes 0, e.nodes 1, f.nodes j] ∧
        e'.neighbors = ![f.neighbors (j + 1), (nei : ℤ), e.neighbors 2] ∧ e'.active = e.active) ∧
      (∃ f', els'[nei]? = some f' ∧ f'.nodes = ![e.nodes 0, f.nodes j, e.nodes 2] ∧
        f'.neighbors = ![f.neighbors (j + 2), e.neighbors 1, (now : ℤ)] ∧ f'.active = f.active) ∧
      els'.length = els.length ∧
      ∀ s, s ≠ now → s ≠ nei → els'[s]? = (els[s]?).map fun g =>
        patch (e.neighbors 1) now nei s (patch (f.neighbors (j + 1)) nei now s g) := by
  have hj := hg.right hf
  have hne : now ≠ nei := hg.ne ho
  -- the first change of a neighbour
  have c1 := canRelink hl ho hf (j + 1)
  have z1now : f.neighbors (j + 1) ≠ now := neighbors_ne hl ho hf (fin3_ne1 j).symm hj
  have z1nei : f.neighbors (j + 1) ≠ nei := neighbor_ne hl ho hf _
  have z2now : e.neighbors 1 ≠ now := neighbor_ne hl ho he _
  have z2nei : e.neighbors 1 ≠ nei := neighbors_ne hl ho he (by decide) h0
  have n1 : (els.mapIdx (patch (f.neighbors (j + 1)) nei now))[now]? = some e := by
    rw [mapIdx_some he, patch_of_ne z1now]
  have m1' : (els.mapIdx (patch (f.neighbors (j + 1)) nei now))[nei]? = some f := by
    rw [mapIdx_some hf, patch_of_ne z1nei]
  -- the second one
  have c2 : CanRelink (els.mapIdx (patch (f.neighbors (j + 1)) nei now)) (e.neighbors 1) now := by
    rcases hl now e he 1 with h | ⟨u, k, h⟩
    · exact Or.inl h
    have hu := swap_outer_ne hl ho he hf hg (h.left he)
    have h' := h
    obtain ⟨e1, g, a1, a2, a3, a4, -⟩ := h
    rw [he] at a1
    cases a1
    refine Or.inr ⟨u, g, k, a3, ?_, a4, fun i' hi' => h'.unique hl ho a2 hi'⟩
    rw [mapIdx_some a2, patch_of_ne hu]
  have n2 : ((els.mapIdx (patch (f.neighbors (j + 1)) nei now)).mapIdx
      (patch (e.neighbors 1) now nei))[now]? = some e := by
    rw [mapIdx_some n1, patch_of_ne z2now]
  have m2' : ((els.mapIdx (patch (f.neighbors (j + 1)) nei now)).mapIdx
      (patch (e.neighbors 1) now nei))[nei]? = some f := by
    rw [mapIdx_some m1', patch_of_ne z2nei]
  have hln := lt_of_some he
  have hlf := lt_of_some hf
  set L := (els.mapIdx (patch (f.neighbors (j + 1)) nei now)).mapIdx
    (patch (e.neighbors 1) now nei) with hL
  have hlen : L.length = els.length := by simp [hL]
  have hLs : ∀ s, L[s]? = (els[s]?).map fun g =>
        patch (e.neighbors 1) now nei s (patch (f.neighbors (j + 1)) nei now s g) := by
    intro s
    rw [hL, List.getElem?_mapIdx, List.getElem?_mapIdx, Option.map_map]
    rfl
  unfold swapAt
  rw [hf]
  simp only [bind, Option.bind]
  rw [relinkNonneg_eq c1]
  simp only [n1]
  rw [relinkNonneg_eq c2]
  simp only [← hL, n2, m2']
  rw [set_other _ hne.symm, n2]
  simp only [pure]
  by_cases hm : f.nodes j = m1 ∨ f.nodes j = p1
  · rw [if_pos hm, set_same _ (by simpa [hlen] using hln)]
    simp only
    rw [set_other _ hne, set_other _ hne, set_same _ (by simpa [hlen] using hlf)]
    refine ⟨_, rfl, ?_, ?_, by simp [hlen], ?_⟩
    · rw [set_other _ hne.symm, set_same _ (by simpa [hlen] using hln)]
      exact ⟨_, rfl, rfl, rfl, rfl⟩
    · rw [set_same _ (by simpa [hlen] using hlf)]
      exact ⟨_, rfl, rfl, rfl, rfl⟩
    · intro s hs1 hs2
      rw [set_other _ hs2.symm, set_other _ hs1.symm, set_other _ hs1.symm, set_other _ hs2.symm, hLs]
  · rw [if_neg hm]
    refine ⟨_, rfl, ?_, ?_, by simp [hlen], ?_⟩
    · rw [set_same _ (by simpa [hlen] using hln)]
      exact ⟨_, rfl, rfl, rfl, rfl⟩
    · rw [set_other _ hne, set_same _ (by simpa [hlen] using hlf)]
      exact ⟨_, rfl, rfl, rfl, rfl⟩
    · intro s hs1 hs2
      rw [set_other _ hs1.symm, set_other _ hs2.symm, hLs]

theorem swap_linked (hl : Linked els) (ho : Oriented pos els) {now nei : ℕ} {e f : DTri} {j : Fin 3}
    (he : els[now]? = some e) (hf : els[nei]? = some f) (h0 : e.neighbors 0 = nei)
    (hg : Glued els now 0 nei j) {els' : List DTri}
    (hnow : ∃ e', els'[now]? = some e' ∧ e'.nodes = ![e.nodes 0, e.nodes 1, f.nodes j] ∧
        e'.neighbors = ![f.neighbors (j + 1), (nei : ℤ), e.neighbors 2] ∧ e'.active = e.active)
    (hnei : ∃ f', els'[nei]? = some f' ∧ f'.nodes = ![e.nodes 0, f.nodes j, e.nodes 2] ∧
        f'.neighbors = ![f.neighbors (j + 2), e.neighbors 1, (now : ℤ)] ∧ f'.active = f.active)
    (hrest : ∀ s, s ≠ now → s ≠ nei → els'[s]? = (els[s]?).map fun g =>
        patch (e.neighbors 1) now nei s (patch (f.neighbors (j + 1)) nei now s g)) :
    Linked els' := by
  have hj := hg.right hf
  have hne : now ≠ nei := hg.ne ho
  have hne' : (now : ℤ) ≠ nei := by omega
  have z1now : f.neighbors (j + 1) ≠ now := neighbors_ne hl ho hf (fin3_ne1 j).symm hj
  have z1nei : f.neighbors (j + 1) ≠ nei := neighbor_ne hl ho hf _
  have z3now : f.neighbors (j + 2) ≠ now := neighbors_ne hl ho hf (fin3_ne2 j).symm hj
  have z3nei : f.neighbors (j + 2) ≠ nei := neighbor_ne hl ho hf _
  have z2now : e.neighbors 1 ≠ now := neighbor_ne hl ho he _
  have z2nei : e.neighbors 1 ≠ nei := neighbors_ne hl ho he (by decide) h0
  have z4now : e.neighbors 2 ≠ now := neighbor_ne hl ho he _
  have z4nei : e.neighbors 2 ≠ nei := neighbors_ne hl ho he (by decide) h0
  obtain ⟨e', ne, ne1, ne2, -⟩ := hnow
  obtain ⟨f', nf, nf1, nf2, -⟩ := hnei
  obtain ⟨e2, f2, d1, d2, d3, d4, d5, d6⟩ := id hg
  rw [he] at d1
  rw [hf] at d2
  cases d1; cases d2
  rw [show (0 : Fin 3) + 2 = 2 by decide] at d5
  rw [show (0 : Fin 3) + 1 = 1 by decide] at d6
  refine linked_replace (els := els) (fun s => s = now ∨ s = nei)
    (fun r i => if r = now then (if i = 1 then (nei, 1) else (now, 2))
      else if i = j + 1 then (now, 0) else (nei, 0)) hl ?_ ?_ ?_ ?_ ?_
  · -- nothing new outside
    intro s g' hs hg'
    rw [not_or] at hs
    rw [hrest s hs.1 hs.2] at hg'
    cases h : els[s]? with
    | none => rw [h] at hg'; cases hg'
    | some g => exact ⟨g, rfl⟩
  · -- outside
    intro s g hs hgs
    rw [not_or] at hs
    refine ⟨patch (e.neighbors 1) now nei s (patch (f.neighbors (j + 1)) nei now s g),
      by rw [hrest s hs.1 hs.2, hgs]; rfl, rfl, fun k hk => ?_⟩
    have k1 : g.neighbors k ≠ now := hk now (Or.inl rfl)
    have k2 : g.neighbors k ≠ nei := hk nei (Or.inr rfl)
    simp only [patch, k2, and_false, if_false, k1]
  · -- the sides outside that look at the two elements
    intro s k r i g' hs hr hgl hg'
    rw [not_or] at hs
    obtain ⟨g, h, a1, a2, a3, a4, -⟩ := hgl
    rw [hrest s hs.1 hs.2, a1] at hg'
    cases hg'
    rcases hr with rfl | rfl
    · rw [he] at a2
      cases a2
      have hi0 : i ≠ 0 := by
        rintro rfl
        rw [h0] at a4
        exact hs.2 (by exact_mod_cast a4.symm)
      rw [if_pos rfl]
      by_cases hi : i = 1
      · subst hi
        rw [if_pos rfl]
        simp [patch, a3, a4, hne']
      · have hi2 : i = 2 := fin3_other i hi0 hi
        subst hi2
        have : e.neighbors 1 ≠ s := neighbors_ne hl ho he (by decide) a4
        simp [patch, a3, hne', this]
    · rw [hf] at a2
      cases a2
      have hi0 : i ≠ j := by
        rintro rfl
        rw [hj] at a4
        exact hs.1 (by exact_mod_cast a4.symm)
      rw [if_neg hne.symm]
      by_cases hi : i = j + 1
      · subst hi
        rw [if_pos rfl]
        have : e.neighbors 1 ≠ s := fun h => swap_outer_ne hl ho he hf hg h a4
        simp [patch, a3, a4, this]
      · rw [if_neg hi]
        have : f.neighbors (j + 1) ≠ s := neighbors_ne hl ho hf hi a4
        simp [patch, a3, hne'.symm, this]
  · -- the outer sides of the two elements
    intro r i h hr hh hno hm
    rcases hr with rfl | rfl
    · rw [he] at hh
      cases hh
      simp only [if_true]
      rcases fin3_cases i 0 with rfl | rfl | rfl
      · exact absurd h0 (hno nei (Or.inr rfl))
      · rw [if_pos (by decide)]
        exact ⟨f', nf, by rw [nf2]; rfl, by rw [nf1]; rfl, by rw [nf1]; rfl⟩
      · rw [if_neg (by decide)]
        exact ⟨e', ne, by rw [ne2]; rfl, by rw [ne1]; rfl, by rw [ne1]; rfl⟩
    · rw [hf] at hh
      cases hh
      simp only [hne.symm, if_false]
      rcases fin3_cases i j with rfl | rfl | rfl
      · exact absurd hj (hno now (Or.inl rfl))
      · rw [if_pos rfl, fin3_11, fin3_12, d6]
        exact ⟨e', ne, by rw [ne2]; rfl, by rw [ne1]; rfl, by rw [ne1]; rfl⟩
      · rw [if_neg (fin3_ne12 j).symm, fin3_21, fin3_22, d5]
        exact ⟨f', nf, by rw [nf2]; rfl, by rw [nf1]; rfl, by rw [nf1]; rfl⟩
  · -- the new sides
    have inner : Glued els' now 1 nei 2 :=
      ⟨e', f', ne, nf, by rw [ne2]; rfl, by rw [nf2]; rfl, by rw [ne1, nf1]; rfl, by rw [ne1, nf1]; rfl⟩
    intro r' i' h' hr' hh'
    rcases hr' with rfl | rfl
    · rw [ne] at hh'
      cases hh'
      rcases fin3_cases i' 0 with rfl | rfl | rfl
      · exact Or.inr (Or.inr ⟨nei, j + 1, f, Or.inr rfl, hf, by simp [hne.symm], by rw [ne2]; rfl,
          by rintro s (rfl | rfl) <;> assumption⟩)
      · exact Or.inr (Or.inl ⟨nei, 2, inner⟩)
      · exact Or.inr (Or.inr ⟨_, 2, e, Or.inl rfl, he, by simp, by rw [ne2]; rfl,
          by rintro s (rfl | rfl) <;> assumption⟩)
    · rw [nf] at hh'
      cases hh'
      rcases fin3_cases i' 0 with rfl | rfl | rfl
      · exact Or.inr (Or.inr ⟨_, j + 2, f, Or.inr rfl, hf, by simp [hne.symm], by rw [nf2]; rfl,
          by rintro s (rfl | rfl) <;> assumption⟩)
      · exact Or.inr (Or.inr ⟨now, 1, e, Or.inl rfl, he, by simp, by rw [nf2]; rfl,
          by rintro s (rfl | rfl) <;> assumption⟩)
      · exact Or.inr (Or.inl ⟨now, 1, inner.symm⟩)

theorem neighbor_lt (hl : Linked els) {s : ℕ} {g : DTri} (hg : els[s]? = some g) {k : Fin 3} {u : ℕ}
    (hu : g.neighbors k = u) : u < els.length := by
  rcases hl s g hg k with h | ⟨w, i, h⟩
  · rw [h] at hu; omega
  · have := h.left hg
    have e1 : w = u := by rw [hu] at this; exact_mod_cast this.symm
    obtain ⟨-, f, -, hf, -⟩ := h
    have := lt_of_some hf
    omega

/-! ### A node inside an element -/

theorem getelementinTopo_spec (hl : Linked els) (ho : Oriented pos els) {now : ℕ} {e : DTri}
    (he : els[now]? = some e) (p1 q m1 : ℤ) :
    ∃ els', getelementinTopo els now p1 q m1 = some els' ∧
      (∃ t, els'[now]? = some t ∧ t.nodes = ![q, e.nodes 1, e.nodes 2] ∧
        t.neighbors = ![e.neighbors 0, (els.length : ℤ), els.length + 1] ∧ t.active = true) ∧
      (∃ t, els'[els.length]? = some t ∧ t.nodes = ![q, e.nodes 2, e.nodes 0] ∧
        t.neighbors = ![e.neighbors 1, (els.length : ℤ) + 1, (now : ℤ)] ∧ t.active = true) ∧
      (∃ t, els'[els.length + 1]? = some t ∧ t.nodes = ![q, e.nodes 0, e.nodes 1] ∧
        t.neighbors = ![e.neighbors 2, (now : ℤ), (els.length : ℤ)] ∧ t.active = true) ∧
      els'.length = els.length + 2 ∧
      ∀ s, s ≠ now → s < els.length → els'[s]? = (els[s]?).map fun g =>
        patch (e.neighbors 2) now (els.length + 1) s (patch (e.neighbors 1) now els.length s g) := by
  have z1 : e.neighbors 1 ≠ now := neighbor_ne hl ho he _
  have z2 : e.neighbors 2 ≠ now := neighbor_ne hl ho he _
  have n1 : (els.mapIdx (patch (e.neighbors 1) now els.length))[now]? = some e := by
    rw [mapIdx_some he, patch_of_ne z1]
  have c1 := canRelink hl ho he 1
  have c2 : CanRelink (els.mapIdx (patch (e.neighbors 1) now els.length)) (e.neighbors 2) now := by
    rcases canRelink hl ho he 2 with h | ⟨u, f, i, h1, h2, h3, h4⟩
    · exact Or.inl h
    · refine Or.inr ⟨u, f, i, h1, ?_, h3, h4⟩
      rw [mapIdx_some h2, patch_of_ne (neighbors_ne hl ho he (by decide) h1)]
  have hln := lt_of_some he
  set L := (els.mapIdx (patch (e.neighbors 1) now els.length)).mapIdx
    (patch (e.neighbors 2) now (els.length + 1)) with hL
  have hlen : L.length = els.length := by simp [hL]
  have hLs : ∀ s, L[s]? = (els[s]?).map fun g =>
      patch (e.neighbors 2) now (els.length + 1) s (patch (e.neighbors 1) now els.length s g) := by
    intro s
    rw [hL, List.getElem?_mapIdx, List.getElem?_mapIdx, Option.map_map]
    rfl
  unfold getelementinTopo
  rw [he]
  simp only [bind, Option.bind]
  rw [relinkNonneg_eq c1]
  simp only [n1]
  rw [relinkNonneg_eq c2]
  simp only [← hL, pure]
  refine ⟨_, rfl, ?_, ?_, ?_, by simp [hlen], ?_⟩
  · rw [List.getElem?_append_left (by simpa [hlen] using hln), set_same _ (by simpa [hlen] using hln)]
    exact ⟨_, rfl, rfl, rfl, rfl⟩
  · rw [List.getElem?_append_right (by simp [hlen])]
    simp only [List.length_set, hlen, Nat.sub_self]
    exact ⟨_, rfl, rfl, rfl, rfl⟩
  · rw [List.getElem?_append_right (by simp [hlen])]
    simp only [List.length_set, hlen, Nat.add_sub_cancel_left]
    exact ⟨_, rfl, rfl, rfl, rfl⟩
  · intro s hs hlt
    rw [List.getElem?_append_left (by simpa [hlen] using hlt), set_other _ hs.symm, hLs]

theorem in_linked (hl : Linked els) (ho : Oriented pos els) {now : ℕ} {e : DTri}
    (he : els[now]? = some e) {q : ℤ} {els' : List DTri}
    (h0 : ∃ t, els'[now]? = some t ∧ t.nodes = ![q, e.nodes 1, e.nodes 2] ∧
        t.neighbors = ![e.neighbors 0, (els.length : ℤ), els.length + 1] ∧ t.active = true)
    (h1 : ∃ t, els'[els.length]? = some t ∧ t.nodes = ![q, e.nodes 2, e.nodes 0] ∧
        t.neighbors = ![e.neighbors 1, (els.length : ℤ) + 1, (now : ℤ)] ∧ t.active = true)
    (h2 : ∃ t, els'[els.length + 1]? = some t ∧ t.nodes = ![q, e.nodes 0, e.nodes 1] ∧
        t.neighbors = ![e.neighbors 2, (now : ℤ), (els.length : ℤ)] ∧ t.active = true)
    (hlen : els'.length = els.length + 2)
    (hrest : ∀ s, s ≠ now → s < els.length → els'[s]? = (els[s]?).map fun g =>
        patch (e.neighbors 2) now (els.length + 1) s (patch (e.neighbors 1) now els.length s g)) :
    Linked els' := by
  have hln := lt_of_some he
  have hbound := fun (s : ℕ) (g : DTri) hg k (u : ℕ) => neighbor_lt (s := s) (g := g) (k := k) (u := u) hl hg
  have z : ∀ k, e.neighbors k ≠ now := neighbor_ne hl ho he
  obtain ⟨t0, n0, a0, b0, -⟩ := h0
  obtain ⟨t1, n1, a1, b1, -⟩ := h1
  obtain ⟨t2, n2, a2, b2, -⟩ := h2
  have hno : ∀ i : Fin 3, ∀ s, (s = now ∨ s = els.length ∨ s = els.length + 1) → e.neighbors i ≠ (s : ℤ) := by
    rintro i s (rfl | rfl | rfl) h
    · exact z i h
    · exact absurd (hbound _ _ he i _ h) (by omega)
    · exact absurd (hbound _ _ he i _ h) (by omega)
  refine linked_replace (els := els) (fun s => s = now ∨ s = els.length ∨ s = els.length + 1)
    (fun _ i => if i = 0 then (now, 0) else if i = 1 then (els.length, 0) else (els.length + 1, 0))
    hl ?_ ?_ ?_ ?_ ?_
  · intro s g' hs hg'
    simp only [not_or] at hs
    have := lt_of_some hg'
    exact ⟨els[s], by rw [List.getElem?_eq_getElem]⟩
  · intro s g hs hgs
    simp only [not_or] at hs
    refine ⟨patch (e.neighbors 2) now (els.length + 1) s (patch (e.neighbors 1) now els.length s g),
      by rw [hrest s hs.1 (lt_of_some hgs), hgs]; rfl, rfl, fun k hk => ?_⟩
    have k1 : g.neighbors k ≠ now := hk now (Or.inl rfl)
    simp [patch, k1]
  · intro s k r i g' hs hr hgl hg'
    simp only [not_or] at hs
    obtain ⟨g, h, c1, c2, c3, c4, -⟩ := hgl
    rw [hrest s hs.1 (lt_of_some c1), c1] at hg'
    cases hg'
    have hr' := lt_of_some c2
    have hrn : r = now := by
      rcases hr with h | h | h
      · exact h
      · omega
      · omega
    subst hrn
    rw [he] at c2
    cases c2
    have hN : ¬((els.length : ℤ) = r) := by omega
    rcases fin3_cases i 0 with rfl | rfl | rfl
    · have x1 : e.neighbors 1 ≠ s := neighbors_ne hl ho he (by decide) c4
      have x2 : e.neighbors 2 ≠ s := neighbors_ne hl ho he (by decide) c4
      simp [patch, x1, x2, c3]
    · have c4' : e.neighbors 1 = s := c4
      simp [patch, c4', c3, hN]
    · have c4' : e.neighbors 2 = s := c4
      have x1 : e.neighbors 1 ≠ s := neighbors_ne hl ho he (by decide) c4'
      simp [patch, c4', x1, c3]
  · intro r i h hr hh _ _
    have hr' := lt_of_some hh
    have hrn : r = now := by
      rcases hr with h | h | h
      · exact h
      · omega
      · omega
    subst hrn
    rw [he] at hh
    cases hh
    rcases fin3_cases i 0 with rfl | rfl | rfl
    · exact ⟨t0, n0, by rw [b0]; rfl, by rw [a0]; rfl, by rw [a0]; rfl⟩
    · exact ⟨t1, n1, by rw [b1]; rfl, by rw [a1]; rfl, by rw [a1]; rfl⟩
    · exact ⟨t2, n2, by rw [b2]; rfl, by rw [a2]; rfl, by rw [a2]; rfl⟩
  · have g01 : Glued els' now 1 els.length 2 :=
      ⟨t0, t1, n0, n1, by rw [b0]; rfl, by rw [b1]; rfl, by rw [a0, a1]; rfl, by rw [a0, a1]; rfl⟩
    have g02 : Glued els' now 2 (els.length + 1) 1 :=
      ⟨t0, t2, n0, n2, by rw [b0]; rfl, by rw [b2]; rfl, by rw [a0, a2]; rfl, by rw [a0, a2]; rfl⟩
    have g12 : Glued els' els.length 1 (els.length + 1) 2 :=
      ⟨t1, t2, n1, n2, by rw [b1]; rfl, by rw [b2]; rfl, by rw [a1, a2]; rfl, by rw [a1, a2]; rfl⟩
    intro r' i' h' hr' hh'
    rcases hr' with rfl | rfl | rfl
    · rw [n0] at hh'
      cases hh'
      rcases fin3_cases i' 0 with rfl | rfl | rfl
      · exact Or.inr (Or.inr ⟨_, 0, e, Or.inl rfl, he, rfl, by rw [b0]; rfl, hno 0⟩)
      · exact Or.inr (Or.inl ⟨_, _, g01⟩)
      · exact Or.inr (Or.inl ⟨_, _, g02⟩)
    · rw [n1] at hh'
      cases hh'
      rcases fin3_cases i' 0 with rfl | rfl | rfl
      · exact Or.inr (Or.inr ⟨now, 1, e, Or.inl rfl, he, rfl, by rw [b1]; rfl, hno 1⟩)
      · exact Or.inr (Or.inl ⟨_, _, g12⟩)
      · exact Or.inr (Or.inl ⟨_, _, g01.symm⟩)
    · rw [n2] at hh'
      cases hh'
      rcases fin3_cases i' 0 with rfl | rfl | rfl
      · exact Or.inr (Or.inr ⟨now, 2, e, Or.inl rfl, he, rfl, by rw [b2]; rfl, hno 2⟩)
      · exact Or.inr (Or.inl ⟨_, _, g02.symm⟩)
      · exact Or.inr (Or.inl ⟨_, _, g12.symm⟩)

/-! ### A node on a side without a neighbour -/

theorem getelementonTopo1_spec (hl : Linked els) (ho : Oriented pos els) {now : ℕ} {e : DTri}
    (he : els[now]? = some e) (k : Fin 3) (p1 q m1 : ℤ) :
    ∃ els', getelementonTopo1 els now k p1 q m1 = some els' ∧
      (∃ t, els'[now]? = some t ∧ t.nodes = ![q, e.nodes k, e.nodes (k + 1)] ∧
        t.neighbors = ![e.neighbors (k + 2), -1, (els.length : ℤ)] ∧ t.active = true) ∧
      (∃ t, els'[els.length]? = some t ∧ t.nodes = ![q, e.nodes (k + 2), e.nodes k] ∧
        t.neighbors = ![e.neighbors (k + 1), (now : ℤ), -1] ∧ t.active = true) ∧
      els'.length = els.length + 1 ∧
      ∀ s, s ≠ now → s < els.length → els'[s]? = (els[s]?).map fun g =>
        patch (e.neighbors (k + 1)) now els.length s g := by
  have c1 := canRelink hl ho he (k + 1)
  have hln := lt_of_some he
  set L := els.mapIdx (patch (e.neighbors (k + 1)) now els.length) with hL
  have hlen : L.length = els.length := by simp [hL]
  unfold getelementonTopo1
  rw [he]
  simp only [bind, Option.bind]
  rw [relinkSome_eq c1]
  simp only [← hL, pure]
  refine ⟨_, rfl, ?_, ?_, by simp [hlen], ?_⟩
  · rw [List.getElem?_append_left (by simpa [hlen] using hln), set_same _ (by simpa [hlen] using hln)]
    exact ⟨_, rfl, rfl, rfl, rfl⟩
  · rw [List.getElem?_append_right (by simp [hlen])]
    simp only [List.length_set, hlen, Nat.sub_self]
    exact ⟨_, rfl, rfl, rfl, rfl⟩
  · intro s hs hlt
    rw [List.getElem?_append_left (by simpa [hlen] using hlt), set_other _ hs.symm, hL,
      List.getElem?_mapIdx]

theorem on1_linked (hl : Linked els) (ho : Oriented pos els) {now : ℕ} {e : DTri}
    (he : els[now]? = some e) {k : Fin 3} (hk : e.neighbors k = -1) {q : ℤ} {els' : List DTri}
    (h0 : ∃ t, els'[now]? = some t ∧ t.nodes = ![q, e.nodes k, e.nodes (k + 1)] ∧
        t.neighbors = ![e.neighbors (k + 2), -1, (els.length : ℤ)] ∧ t.active = true)
    (h1 : ∃ t, els'[els.length]? = some t ∧ t.nodes = ![q, e.nodes (k + 2), e.nodes k] ∧
        t.neighbors = ![e.neighbors (k + 1), (now : ℤ), -1] ∧ t.active = true)
    (hlen : els'.length = els.length + 1)
    (hrest : ∀ s, s ≠ now → s < els.length → els'[s]? = (els[s]?).map fun g =>
        patch (e.neighbors (k + 1)) now els.length s g) :
    Linked els' := by
  have hln := lt_of_some he
  have z : ∀ k, e.neighbors k ≠ now := neighbor_ne hl ho he
  obtain ⟨t0, n0, a0, b0, -⟩ := h0
  obtain ⟨t1, n1, a1, b1, -⟩ := h1
  have hno : ∀ i : Fin 3, ∀ s, (s = now ∨ s = els.length) → e.neighbors i ≠ (s : ℤ) := by
    rintro i s (rfl | rfl) h
    · exact z i h
    · exact absurd (neighbor_lt hl he h) (by omega)
  refine linked_replace (els := els) (fun s => s = now ∨ s = els.length)
    (fun _ i => if i = k + 2 then (now, 0) else (els.length, 0)) hl ?_ ?_ ?_ ?_ ?_
  · intro s g' hs hg'
    simp only [not_or] at hs
    have := lt_of_some hg'
    exact ⟨els[s], by rw [List.getElem?_eq_getElem]⟩
  · intro s g hs hgs
    simp only [not_or] at hs
    refine ⟨patch (e.neighbors (k + 1)) now els.length s g,
      by rw [hrest s hs.1 (lt_of_some hgs), hgs]; rfl, rfl, fun k hk => ?_⟩
    have k1 : g.neighbors k ≠ now := hk now (Or.inl rfl)
    simp [patch, k1]
  · intro s l r i g' hs hr hgl hg'
    simp only [not_or] at hs
    obtain ⟨g, h, c1, c2, c3, c4, -⟩ := hgl
    rw [hrest s hs.1 (lt_of_some c1), c1] at hg'
    cases hg'
    have hr' := lt_of_some c2
    have hrn : r = now := by
      rcases hr with h | h
      · exact h
      · omega
    subst hrn
    rw [he] at c2
    cases c2
    rcases fin3_cases i k with rfl | rfl | rfl
    · rw [hk] at c4; omega
    · rw [if_neg (fin3_ne12 k)]
      simp [patch, c4, c3]
    · have x1 : e.neighbors (k + 1) ≠ s := neighbors_ne hl ho he (fin3_ne12 k).symm c4
      simp [patch, x1, c3]
  · intro r i h hr hh _ hm
    have hr' := lt_of_some hh
    have hrn : r = now := by
      rcases hr with h | h
      · exact h
      · omega
    subst hrn
    rw [he] at hh
    cases hh
    rcases fin3_cases i k with rfl | rfl | rfl
    · exact absurd hk hm
    · rw [if_neg (fin3_ne12 k), fin3_11, fin3_12]
      exact ⟨t1, n1, by rw [b1]; rfl, by rw [a1]; rfl, by rw [a1]; rfl⟩
    · rw [if_pos rfl, fin3_21, fin3_22]
      exact ⟨t0, n0, by rw [b0]; rfl, by rw [a0]; rfl, by rw [a0]; rfl⟩
  · have g01 : Glued els' now 2 els.length 1 :=
      ⟨t0, t1, n0, n1, by rw [b0]; rfl, by rw [b1]; rfl, by rw [a0, a1]; rfl, by rw [a0, a1]; rfl⟩
    intro r' i' h' hr' hh'
    rcases hr' with rfl | rfl
    · rw [n0] at hh'
      cases hh'
      rcases fin3_cases i' 0 with rfl | rfl | rfl
      · exact Or.inr (Or.inr ⟨_, k + 2, e, Or.inl rfl, he, by rw [if_pos rfl], by rw [b0]; rfl, hno _⟩)
      · exact Or.inl (by rw [b0]; rfl)
      · exact Or.inr (Or.inl ⟨_, _, g01⟩)
    · rw [n1] at hh'
      cases hh'
      rcases fin3_cases i' 0 with rfl | rfl | rfl
      · exact Or.inr (Or.inr ⟨now, k + 1, e, Or.inl rfl, he, by rw [if_neg (fin3_ne12 k)],
          by rw [b1]; rfl, hno _⟩)
      · exact Or.inr (Or.inl ⟨_, _, g01.symm⟩)
      · exact Or.inl (by rw [b1]; rfl)

/-! ### A node on a side with a neighbour -/

theorem getelementonTopo2_spec (hl : Linked els) (ho : Oriented pos els) {now nei : ℕ} {e f : DTri}
    {j k : Fin 3} (he : els[now]? = some e) (hf : els[nei]? = some f) (hg : Glued els now k nei j)
    (p1 q m1 : ℤ) :
    ∃ els', getelementonTopo2 els now k nei j p1 q m1 = some els' ∧
      (∃ t, els'[now]? = some t ∧ t.nodes = ![q, e.nodes k, e.nodes (k + 1)] ∧
        t.neighbors = ![e.neighbors (k + 2), (nei : ℤ), (els.length : ℤ)] ∧ t.active = true) ∧
      (∃ t, els'[nei]? = some t ∧ t.nodes = ![q, e.nodes (k + 1), f.nodes j] ∧
        t.neighbors = ![f.neighbors (j + 1), (els.length : ℤ) + 1, (now : ℤ)] ∧ t.active = true) ∧
      (∃ t, els'[els.length]? = some t ∧ t.nodes = ![q, e.nodes (k + 2), e.nodes k] ∧
        t.neighbors = ![e.neighbors (k + 1), (now : ℤ), (els.length : ℤ) + 1] ∧ t.active = true) ∧
      (∃ t, els'[els.length + 1]? = some t ∧ t.nodes = ![q, f.nodes j, e.nodes (k + 2)] ∧
        t.neighbors = ![f.neighbors (j + 2), (els.length : ℤ), (nei : ℤ)] ∧ t.active = true) ∧
      els'.length = els.length + 2 ∧
      ∀ s, s ≠ now → s ≠ nei → s < els.length → els'[s]? = (els[s]?).map fun g =>
        patch (f.neighbors (j + 2)) nei (els.length + 1) s
          (patch (e.neighbors (k + 1)) now els.length s g) := by
  have hne : now ≠ nei := hg.ne ho
  have hk := hg.left he
  have c1 := canRelink hl ho he (k + 1)
  have hln := lt_of_some he
  have hlf := lt_of_some hf
  have m1' : (els.mapIdx (patch (e.neighbors (k + 1)) now els.length))[nei]? = some f := by
    rw [mapIdx_some hf, patch_of_ne (neighbors_ne hl ho he (fin3_ne1 k).symm hk)]
  have c2 : CanRelink (els.mapIdx (patch (e.neighbors (k + 1)) now els.length)) (f.neighbors (j + 2))
      nei := by
    rcases canRelink hl ho hf (j + 2) with h | ⟨u, g, i, h1, h2, h3, h4⟩
    · exact Or.inl h
    · have hnn : ¬((nei : ℤ) = now) := by omega
      refine Or.inr ⟨u, _, i, h1, mapIdx_some h2, ?_, ?_⟩
      · simp [patch, h3, hnn]
      · intro i' hi'
        apply h4
        simp only [patch] at hi'
        split at hi'
        · omega
        · exact hi'
  set L := (els.mapIdx (patch (e.neighbors (k + 1)) now els.length)).mapIdx
    (patch (f.neighbors (j + 2)) nei (els.length + 1)) with hL
  have hlen : L.length = els.length := by simp [hL]
  have hLs : ∀ s, L[s]? = (els[s]?).map fun g =>
      patch (f.neighbors (j + 2)) nei (els.length + 1) s
        (patch (e.neighbors (k + 1)) now els.length s g) := by
    intro s
    rw [hL, List.getElem?_mapIdx, List.getElem?_mapIdx, Option.map_map]
    rfl
  unfold getelementonTopo2
  rw [he, hf]
  simp only [bind, Option.bind]
  rw [relinkSome_eq c1]
  simp only [m1']
  rw [relinkSome_eq c2]
  simp only [← hL, pure]
  refine ⟨_, rfl, ?_, ?_, ?_, ?_, by simp [hlen], ?_⟩
  · rw [List.getElem?_append_left (by simpa [hlen] using hln), set_other _ hne.symm,
      set_same _ (by simpa [hlen] using hln)]
    exact ⟨_, rfl, rfl, rfl, rfl⟩
  · rw [List.getElem?_append_left (by simpa [hlen] using hlf), set_same _ (by simpa [hlen] using hlf)]
    exact ⟨_, rfl, rfl, rfl, rfl⟩
  · rw [List.getElem?_append_right (by simp [hlen])]
    simp only [List.length_set, hlen, Nat.sub_self]
    exact ⟨_, rfl, rfl, rfl, rfl⟩
  · rw [List.getElem?_append_right (by simp [hlen])]
    simp only [List.length_set, hlen, Nat.add_sub_cancel_left]
    exact ⟨_, rfl, rfl, rfl, rfl⟩
  · intro s hs hs' hlt
    rw [List.getElem?_append_left (by simpa [hlen] using hlt), set_other _ hs'.symm,
      set_other _ hs.symm, hLs]

theorem on2_linked (hl : Linked els) (ho : Oriented pos els) {now nei : ℕ} {e f : DTri} {j k : Fin 3}
    (he : els[now]? = some e) (hf : els[nei]? = some f) (hg : Glued els now k nei j) {q : ℤ}
    {els' : List DTri}
    (h0 : ∃ t, els'[now]? = some t ∧ t.nodes = ![q, e.nodes k, e.nodes (k + 1)] ∧
        t.neighbors = ![e.neighbors (k + 2), (nei : ℤ), (els.length : ℤ)] ∧ t.active = true)
    (h1 : ∃ t, els'[nei]? = some t ∧ t.nodes = ![q, e.nodes (k + 1), f.nodes j] ∧
        t.neighbors = ![f.neighbors (j + 1), (els.length : ℤ) + 1, (now : ℤ)] ∧ t.active = true)
    (h2 : ∃ t, els'[els.length]? = some t ∧ t.nodes = ![q, e.nodes (k + 2), e.nodes k] ∧
        t.neighbors = ![e.neighbors (k + 1), (now : ℤ), (els.length : ℤ) + 1] ∧ t.active = true)
    (h3 : ∃ t, els'[els.length + 1]? = some t ∧ t.nodes = ![q, f.nodes j, e.nodes (k + 2)] ∧
        t.neighbors = ![f.neighbors (j + 2), (els.length : ℤ), (nei : ℤ)] ∧ t.active = true)
    (hlen : els'.length = els.length + 2)
    (hrest : ∀ s, s ≠ now → s ≠ nei → s < els.length → els'[s]? = (els[s]?).map fun g =>
        patch (f.neighbors (j + 2)) nei (els.length + 1) s
          (patch (e.neighbors (k + 1)) now els.length s g)) :
    Linked els' := by
  have hln := lt_of_some he
  have hlf := lt_of_some hf
  have hne : now ≠ nei := hg.ne ho
  have hne' : ¬((now : ℤ) = nei) := by omega
  have hne'' : ¬((nei : ℤ) = now) := by omega
  have hk := hg.left he
  have hj := hg.right hf
  obtain ⟨t0, n0, a0, b0, -⟩ := h0
  obtain ⟨t1, n1, a1, b1, -⟩ := h1
  obtain ⟨t2, n2, a2, b2, -⟩ := h2
  obtain ⟨t3, n3, a3, b3, -⟩ := h3
  obtain ⟨e2, f2, d1, d2, d3, d4, d5, d6⟩ := id hg
  rw [he] at d1
  rw [hf] at d2
  cases d1; cases d2
  have hnoe : ∀ i : Fin 3, i ≠ k → ∀ s, (s = now ∨ s = nei ∨ s = els.length ∨ s = els.length + 1) →
      e.neighbors i ≠ (s : ℤ) := by
    rintro i hi s (rfl | rfl | rfl | rfl) h
    · exact neighbor_ne hl ho he i h
    · exact neighbors_ne hl ho he hi h hk
    · exact absurd (neighbor_lt hl he h) (by omega)
    · exact absurd (neighbor_lt hl he h) (by omega)
  have hnof : ∀ i : Fin 3, i ≠ j → ∀ s, (s = now ∨ s = nei ∨ s = els.length ∨ s = els.length + 1) →
      f.neighbors i ≠ (s : ℤ) := by
    rintro i hi s (rfl | rfl | rfl | rfl) h
    · exact neighbors_ne hl ho hf hi h hj
    · exact neighbor_ne hl ho hf i h
    · exact absurd (neighbor_lt hl hf h) (by omega)
    · exact absurd (neighbor_lt hl hf h) (by omega)
  refine linked_replace (els := els)
    (fun s => s = now ∨ s = nei ∨ s = els.length ∨ s = els.length + 1)
    (fun r i => if r = now then (if i = k + 2 then (now, 0) else (els.length, 0))
      else (if i = j + 1 then (nei, 0) else (els.length + 1, 0))) hl ?_ ?_ ?_ ?_ ?_
  · intro s g' hs hg'
    simp only [not_or] at hs
    have := lt_of_some hg'
    exact ⟨els[s], by rw [List.getElem?_eq_getElem]⟩
  · intro s g hs hgs
    simp only [not_or] at hs
    refine ⟨patch (f.neighbors (j + 2)) nei (els.length + 1) s
          (patch (e.neighbors (k + 1)) now els.length s g),
      by rw [hrest s hs.1 hs.2.1 (lt_of_some hgs), hgs]; rfl, rfl, fun l hl' => ?_⟩
    have k1 : g.neighbors l ≠ now := hl' now (Or.inl rfl)
    have k2 : g.neighbors l ≠ nei := hl' nei (Or.inr (Or.inl rfl))
    simp [patch, k1, k2]
  · intro s l r i g' hs hr hgl hg'
    simp only [not_or] at hs
    obtain ⟨g, h, c1, c2, c3, c4, -⟩ := hgl
    rw [hrest s hs.1 hs.2.1 (lt_of_some c1), c1] at hg'
    cases hg'
    have hr' := lt_of_some c2
    have hrn : r = now ∨ r = nei := by
      rcases hr with h | h | h | h
      · exact Or.inl h
      · exact Or.inr h
      · omega
      · omega
    rcases hrn with rfl | rfl
    · rw [he] at c2
      cases c2
      rw [if_pos rfl]
      have hN : ¬((els.length : ℤ) = nei) := by omega
      rcases fin3_cases i k with rfl | rfl | rfl
      · rw [hk] at c4
        exact absurd (by exact_mod_cast c4.symm) hs.2.1
      · rw [if_neg (fin3_ne12 k)]
        simp [patch, c4, c3, hN]
      · have x1 : e.neighbors (k + 1) ≠ s := neighbors_ne hl ho he (fin3_ne12 k).symm c4
        simp [patch, x1, c3, hne']
    · rw [hf] at c2
      cases c2
      rw [if_neg hne.symm]
      rcases fin3_cases i j with rfl | rfl | rfl
      · rw [hj] at c4
        exact absurd (by exact_mod_cast c4.symm) hs.1
      · have x1 : f.neighbors (j + 2) ≠ s := neighbors_ne hl ho hf (fin3_ne12 j) c4
        rw [if_pos rfl]
        simp [patch, x1, c3, hne'']
      · rw [if_neg (fin3_ne12 j).symm]
        simp [patch, c4, c3, hne'']
  · intro r i h hr hh hno hm
    have hr' := lt_of_some hh
    have hrn : r = now ∨ r = nei := by
      rcases hr with h | h | h | h
      · exact Or.inl h
      · exact Or.inr h
      · omega
      · omega
    rcases hrn with rfl | rfl
    · rw [he] at hh
      cases hh
      simp only [if_true]
      rcases fin3_cases i k with rfl | rfl | rfl
      · exact absurd hk (hno nei (Or.inr (Or.inl rfl)))
      · rw [if_neg (fin3_ne12 k), fin3_11, fin3_12]
        exact ⟨t2, n2, by rw [b2]; rfl, by rw [a2]; rfl, by rw [a2]; rfl⟩
      · rw [if_pos rfl, fin3_21, fin3_22]
        exact ⟨t0, n0, by rw [b0]; rfl, by rw [a0]; rfl, by rw [a0]; rfl⟩
    · rw [hf] at hh
      cases hh
      simp only [hne.symm, if_false]
      rcases fin3_cases i j with rfl | rfl | rfl
      · exact absurd hj (hno now (Or.inl rfl))
      · rw [if_pos rfl, fin3_11, fin3_12, d6]
        exact ⟨t1, n1, by rw [b1]; rfl, by rw [a1]; rfl, by rw [a1]; rfl⟩
      · rw [if_neg (fin3_ne12 j).symm, fin3_21, fin3_22, d5]
        exact ⟨t3, n3, by rw [b3]; rfl, by rw [a3]; rfl, by rw [a3]; rfl⟩
  · have g01 : Glued els' now 1 nei 2 :=
      ⟨t0, t1, n0, n1, by rw [b0]; rfl, by rw [b1]; rfl, by rw [a0, a1]; rfl, by rw [a0, a1]; rfl⟩
    have g02 : Glued els' now 2 els.length 1 :=
      ⟨t0, t2, n0, n2, by rw [b0]; rfl, by rw [b2]; rfl, by rw [a0, a2]; rfl, by rw [a0, a2]; rfl⟩
    have g13 : Glued els' nei 1 (els.length + 1) 2 :=
      ⟨t1, t3, n1, n3, by rw [b1]; rfl, by rw [b3]; rfl, by rw [a1, a3]; rfl, by rw [a1, a3]; rfl⟩
    have g23 : Glued els' els.length 2 (els.length + 1) 1 :=
      ⟨t2, t3, n2, n3, by rw [b2]; rfl, by rw [b3]; rfl, by rw [a2, a3]; rfl, by rw [a2, a3]; rfl⟩
    intro r' i' h' hr' hh'
    rcases hr' with rfl | rfl | rfl | rfl
    · rw [n0] at hh'
      cases hh'
      rcases fin3_cases i' 0 with rfl | rfl | rfl
      · exact Or.inr (Or.inr ⟨_, k + 2, e, Or.inl rfl, he, by simp, by rw [b0]; rfl,
          hnoe _ (fin3_ne2 k)⟩)
      · exact Or.inr (Or.inl ⟨_, _, g01⟩)
      · exact Or.inr (Or.inl ⟨_, _, g02⟩)
    · rw [n1] at hh'
      cases hh'
      rcases fin3_cases i' 0 with rfl | rfl | rfl
      · exact Or.inr (Or.inr ⟨_, j + 1, f, Or.inr (Or.inl rfl), hf, by simp [hne.symm],
          by rw [b1]; rfl, hnof _ (fin3_ne1 j)⟩)
      · exact Or.inr (Or.inl ⟨_, _, g13⟩)
      · exact Or.inr (Or.inl ⟨_, _, g01.symm⟩)
    · rw [n2] at hh'
      cases hh'
      rcases fin3_cases i' 0 with rfl | rfl | rfl
      · exact Or.inr (Or.inr ⟨now, k + 1, e, Or.inl rfl, he, by simp,
          by rw [b2]; rfl, hnoe _ (fin3_ne1 k)⟩)
      · exact Or.inr (Or.inl ⟨_, _, g02.symm⟩)
      · exact Or.inr (Or.inl ⟨_, _, g23⟩)
    · rw [n3] at hh'
      cases hh'
      rcases fin3_cases i' 0 with rfl | rfl | rfl
      · exact Or.inr (Or.inr ⟨nei, j + 2, f, Or.inr (Or.inl rfl), hf, by simp [hne.symm],
          by rw [b3]; rfl, hnof _ (fin3_ne2 j)⟩)
      · exact Or.inr (Or.inl ⟨_, _, g23.symm⟩)
      · exact Or.inr (Or.inl ⟨_, _, g13.symm⟩)

end Pansfem
