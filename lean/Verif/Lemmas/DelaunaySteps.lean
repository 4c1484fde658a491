/-
Insertions and swaps keep a triangulation consistent.
-/
import Verif.Lemmas.DelaunayOps
import Mathlib.Tactic.LinearCombination
import Mathlib.Tactic.FieldSimp

namespace Pansfem

set_option linter.unusedSectionVars false

variable {K : Type} [Field K] [LinearOrder K] [IsStrictOrderedRing K]

/-! ### The location of a point -/

theorem selfEps_pos : (0 : K) < selfEps := by
  unfold selfEps
  positivity

theorem inouton_neg {a b c q : K × K} :
    (inoutonAt a b c q = -1 → 0 < vecpro a b q) ∧ (inoutonAt a b c q = -2 → 0 < vecpro b c q) ∧
      (inoutonAt a b c q = -3 → 0 < vecpro c a q) := by
  unfold inoutonAt
  simp only
  refine ⟨fun h => ?_, fun h => ?_, fun h => ?_⟩ <;>
  · split_ifs at h <;> first | omega | (rename_i h' ; exact h'.1) | skip

/-- The result zero means: strictly inside. -/
theorem inouton_zero {a b c q : K × K} (h : 0 < vecpro a b c) (h0 : inoutonAt a b c q = 0) :
    0 < vecpro a b q ∧ 0 < vecpro b c q ∧ 0 < vecpro c a q := by
  have hs : vecpro a b q + vecpro b c q + vecpro c a q = vecpro a b c := by unfold vecpro; ring
  have he := selfEps_pos (K := K)
  unfold inoutonAt at h0
  simp only at h0
  split_ifs at h0 with h1 h2 h3 h4 h5 h6 <;> try (exact absurd h0 (by decide))
  push Not at h1 h2 h3
  rw [not_le] at h4 h5 h6
  have n0 : vecpro a b q ≠ 0 := fun h => by rw [h, abs_zero] at h4; linarith
  have n1 : vecpro b c q ≠ 0 := fun h => by rw [h, abs_zero] at h5; linarith
  have n2 : vecpro c a q ≠ 0 := fun h => by rw [h, abs_zero] at h6; linarith
  rcases lt_or_gt_of_ne n0 with a0 | a0 <;> rcases lt_or_gt_of_ne n1 with a1 | a1 <;>
    rcases lt_or_gt_of_ne n2 with a2 | a2
  · linarith
  · exact absurd (h1 a2).1 (not_le.2 a0)
  · exact absurd (h3 a1).1 (not_le.2 a2)
  · exact absurd (h1 a2).1 (not_le.2 a0)
  · exact absurd (h2 a0).1 (not_le.2 a1)
  · exact absurd (h2 a0).1 (not_le.2 a1)
  · exact absurd (h3 a1).1 (not_le.2 a2)
  · exact ⟨a0, a1, a2⟩

theorem atInt_some {nodes : List (DNode K)} {z : ℤ} (h0 : 0 ≤ z) (h1 : z < nodes.length) :
    ∃ p, atInt nodes z = some p ∧ p.x = placeOf nodes z := by
  have : atInt nodes z = some nodes[z.toNat] := by
    rw [atInt, if_neg (by omega), List.getElem?_eq_getElem (by omega)]
  exact ⟨_, this, by rw [placeOf, this]⟩

theorem inouton_eq {nodes : List (DNode K)} {e : DTri} {q : ℤ}
    (hi : ∀ i, 0 ≤ e.nodes i ∧ e.nodes i < nodes.length) (hq : 0 ≤ q ∧ q < nodes.length) :
    e.inouton q nodes = some (inoutonAt (placeOf nodes (e.nodes 0)) (placeOf nodes (e.nodes 1))
      (placeOf nodes (e.nodes 2)) (placeOf nodes q)) := by
  obtain ⟨a, ha, ha'⟩ := atInt_some (hi 0).1 (hi 0).2
  obtain ⟨b, hb, hb'⟩ := atInt_some (hi 1).1 (hi 1).2
  obtain ⟨c, hc, hc'⟩ := atInt_some (hi 2).1 (hi 2).2
  obtain ⟨x, hx, hx'⟩ := atInt_some hq.1 hq.2
  simp [DTri.inouton, ha, hb, hc, hx, ha', hb', hc', hx']

/-- A wanted swap gives two counterclockwise elements. -/
theorem swapWanted_spec {nodes : List (DNode K)} {e f : DTri} {j : Fin 3}
    (he : ∀ i, 0 ≤ e.nodes i ∧ e.nodes i < nodes.length)
    (hf : ∀ i, 0 ≤ f.nodes i ∧ f.nodes i < nodes.length) :
    ∃ w, swapWanted nodes e f j = some w ∧ (w = true →
      0 < vecpro (placeOf nodes (e.nodes 0)) (placeOf nodes (e.nodes 1)) (placeOf nodes (f.nodes j)) ∧
      0 < vecpro (placeOf nodes (f.nodes j)) (placeOf nodes (f.nodes (j + 1))) (placeOf nodes (e.nodes 0))) := by
  obtain ⟨a, ha, ha'⟩ := atInt_some (he 1).1 (he 1).2
  obtain ⟨b, hb, hb'⟩ := atInt_some (he 2).1 (he 2).2
  obtain ⟨p, hp, hp'⟩ := atInt_some (he 0).1 (he 0).2
  obtain ⟨d, hd, hd'⟩ := atInt_some (hf j).1 (hf j).2
  unfold swapWanted
  rw [ha, hb, hp, hd]
  simp only [bind, Option.bind, pure]
  split_ifs with h1
  · rw [inouton_eq he (hf j)]
    simp only
    split_ifs with h2
    · rw [inouton_eq hf (he 0)]
      simp only
      refine ⟨_, rfl, fun hw => ?_⟩
      rw [Bool.and_eq_true, decide_eq_true_eq] at hw
      refine ⟨inouton_neg.1 h2, ?_⟩
      have hw := hw.1
      rcases fin3_cases j 0 with rfl | rfl | rfl
      · exact inouton_neg.1 hw
      · exact inouton_neg.2.1 hw
      · exact inouton_neg.2.2 hw
    · exact ⟨_, rfl, by simp⟩
  · exact ⟨_, rfl, by simp⟩

/-! ### The steps -/

variable {nodes : List (DNode K)} {els : List DTri}

theorem forall_mem {P : DTri → Prop} {els' : List DTri} (h : ∀ (s : ℕ) (e : DTri), els'[s]? = some e → P e) :
    ∀ e ∈ els', P e := fun e he => by
  obtain ⟨s, hs⟩ := List.mem_iff_getElem?.1 he
  exact h s e hs

theorem areaAt_some {pos : ℤ → K × K} {s : ℕ} {e : DTri} (h : els[s]? = some e) :
    areaAt pos els s = area2 pos e := by
  rw [areaAt, h]; rfl

theorem areaAt_map {pos : ℤ → K × K} {els' : List DTri} {s : ℕ} {g : DTri → DTri}
    (h : els'[s]? = (els[s]?).map g) (hn : ∀ e, (g e).nodes = e.nodes) :
    areaAt pos els' s = areaAt pos els s := by
  rw [areaAt, areaAt, h, Option.map_map]
  congr 1
  cases els[s]? with
  | none => rfl
  | some e => simp [area2, hn]

theorem area2_nodes {pos : ℤ → K × K} {e : DTri} {a b c : ℤ} (h : e.nodes = ![a, b, c]) :
    area2 pos e = vecpro (pos a) (pos b) (pos c) := by
  rw [area2, h]; rfl

theorem vec3_forall {P : ℤ → Prop} {e : DTri} {a b c : ℤ} (h : e.nodes = ![a, b, c]) (ha : P a) (hb : P b)
    (hc : P c) (i : Fin 3) : P (e.nodes i) := by
  rw [h]
  exact fin3 (P := fun i => P ((![a, b, c] : Fin 3 → ℤ) i)) 0 ha hb hc i

/-- The nodes of an element, for the elements numbered `q` first. -/
def Others (q : ℤ) (els : List DTri) : Finset ℕ :=
  (Finset.range els.length).filter fun s => ((els[s]?).map fun e => e.nodes 0) ≠ some q

/-- A swap keeps neighbours, numbers and area; if the two new elements are counterclockwise, it keeps
the triangulation consistent. -/
theorem swap_step (hc : Consistent nodes els) {now nei : ℕ} {e f : DTri} {j : Fin 3}
    (he : els[now]? = some e) (hf : els[nei]? = some f) (hg : Glued els now 0 nei j) (p1 m1 : ℤ) :
    ∃ els', swapAt els p1 m1 now nei j = some els' ∧ Linked els' ∧
      (∀ e ∈ els', ∀ i, 0 ≤ e.nodes i ∧ e.nodes i < nodes.length) ∧
      total2 (placeOf nodes) els' = total2 (placeOf nodes) els ∧
      (0 < vecpro (placeOf nodes (e.nodes 0)) (placeOf nodes (e.nodes 1)) (placeOf nodes (f.nodes j)) →
        0 < vecpro (placeOf nodes (f.nodes j)) (placeOf nodes (f.nodes (j + 1))) (placeOf nodes (e.nodes 0)) →
        Consistent nodes els') ∧
      (∃ e', els'[now]? = some e' ∧ e'.nodes = ![e.nodes 0, e.nodes 1, f.nodes j]) ∧
      (∃ f', els'[nei]? = some f' ∧ f'.nodes = ![e.nodes 0, f.nodes j, e.nodes 2]) ∧
      els'.length = els.length ∧
      (∀ s, s ≠ now → s ≠ nei → ((els'[s]?).map fun e => e.nodes) = (els[s]?).map fun e => e.nodes) := by
  have hl := hc.linked
  have ho := hc.oriented
  have hne := hg.ne ho
  have h0 := hg.left he
  obtain ⟨els', hs, hnow, hnei, hlen, hrest⟩ := swapAt_spec hl ho he hf h0 hg p1 m1
  have hlink := swap_linked hl ho he hf h0 hg hnow hnei hrest
  obtain ⟨e', ne, ne1, -, ne3⟩ := hnow
  obtain ⟨f', nf, nf1, -, nf3⟩ := hnei
  obtain ⟨e2, f2, d1, d2, d3, d4, d5, d6⟩ := id hg
  rw [he] at d1
  rw [hf] at d2
  cases d1; cases d2
  rw [show (0 : Fin 3) + 2 = 2 by decide] at d5
  rw [show (0 : Fin 3) + 1 = 1 by decide] at d6
  have ie := hc.indices e (List.mem_of_getElem? he)
  have jf := hc.indices f (List.mem_of_getElem? hf)
  have split : ∀ {P : DTri → Prop}, P e' → P f' → (∀ (s : ℕ) (g g' : DTri), els[s]? = some g → els'[s]? = some g' →
      g'.nodes = g.nodes → g'.active = g.active → P g') → ∀ e ∈ els', P e := by
    intro P h1 h2 h3
    refine forall_mem fun s g' hg' => ?_
    by_cases s1 : s = now
    · subst s1
      rw [ne] at hg'
      cases hg'
      exact h1
    by_cases s2 : s = nei
    · subst s2
      rw [nf] at hg'
      cases hg'
      exact h2
    have hr := hrest s s1 s2
    rw [hg'] at hr
    cases h : els[s]? with
    | none => rw [h] at hr; cases hr
    | some g =>
      rw [h] at hr
      simp only [Option.map_some, Option.some.injEq] at hr
      exact h3 s g g' h hg' (by rw [hr]; rfl) (by rw [hr]; rfl)
  have hidx : ∀ e ∈ els', ∀ i, 0 ≤ e.nodes i ∧ e.nodes i < nodes.length :=
    split (vec3_forall (P := fun z => 0 ≤ z ∧ z < nodes.length) ne1 (ie 0) (ie 1) (jf j))
      (vec3_forall (P := fun z => 0 ≤ z ∧ z < nodes.length) nf1 (ie 0) (jf j) (ie 2))
      fun s g g' h1 _ h2 _ => by rw [h2]; exact hc.indices g (List.mem_of_getElem? h1)
  refine ⟨els', hs, hlink, hidx, ?_, fun q1 q2 => ⟨hlink, ?_, hidx, ?_⟩, ⟨e', ne, ne1⟩, ⟨f', nf, nf1⟩,
    hlen, fun s s1 s2 => ?_⟩
  · rw [← sub_eq_zero, total2_change {now, nei} fun s hs => ?_]
    · rw [Finset.sum_pair hne, areaAt_some ne, areaAt_some nf, areaAt_some he, areaAt_some hf,
        area2_nodes ne1, area2_nodes nf1, area2_rot _ f j, d5, d6, area2]
      unfold vecpro
      ring
    · simp only [Finset.mem_insert, Finset.mem_singleton, not_or] at hs
      exact areaAt_map (hrest s hs.1 hs.2) fun _ => rfl
  · refine split ?_ ?_ fun s g g' h1 _ h2 _ => ?_
    · rw [area2_nodes ne1]; exact q1
    · rw [area2_nodes nf1, vecpro_rot, ← d5]; exact q2
    · rw [area2, h2]; exact ho.at h1
  · refine split ?_ ?_ fun s g g' h1 _ _ h2 => ?_
    · rw [ne3]; exact hc.active e (List.mem_of_getElem? he)
    · rw [nf3]; exact hc.active f (List.mem_of_getElem? hf)
    · rw [h2]; exact hc.active g (List.mem_of_getElem? h1)
  · rw [hrest s s1 s2, Option.map_map]
    rfl

/-- The neighbour across the side 0, and the number of the opposite node. -/
theorem neighbor_glued (hc : Consistent nodes els) {now : ℕ} {e : DTri} (he : els[now]? = some e)
    {k : Fin 3} (h0 : ¬e.neighbors k < 0) : ∃ (nei : ℕ) (f : DTri) (j : Fin 3), e.neighbors k = nei ∧
      els[nei]? = some f ∧ f.oppositenode now = some j ∧ Glued els now k nei j := by
  rcases hc.linked now e he k with h | ⟨u, j, h⟩
  · rw [h] at h0; omega
  · have h' := h
    obtain ⟨e1, f, a1, a2, a3, a4, -⟩ := h
    rw [he] at a1
    cases a1
    exact ⟨u, f, j, a3, a2, oppositenode_eq a4 fun i hi => h'.unique hc.linked hc.oriented a2 hi, h'⟩

/-- The nodes that occur stay the same. -/
def SameNodes (els els' : List DTri) : Prop :=
  ∀ e' ∈ els', ∀ i, ∃ e ∈ els, ∃ k, e'.nodes i = e.nodes k

theorem SameNodes.refl (els : List DTri) : SameNodes els els := fun e he i => ⟨e, he, i, rfl⟩

theorem SameNodes.trans {a b c : List DTri} (h1 : SameNodes a b) (h2 : SameNodes b c) : SameNodes a c := by
  intro e he i
  obtain ⟨e1, h3, k, h4⟩ := h2 e he i
  obtain ⟨e2, h5, l, h6⟩ := h1 e1 h3 k
  exact ⟨e2, h5, l, h4.trans h6⟩

/-- A side that the code swaps for the boundary only although the two new elements are not both
counterclockwise: the element `now`, its neighbour across the side 0 with the opposite node `p1` or
`m1`. -/
def ForcedSwap (nodes : List (DNode K)) (p1 m1 : ℤ) (now : ℕ) (els : List DTri) : Prop :=
  ∃ (nei : ℕ) (e f : DTri) (j : Fin 3), els[now]? = some e ∧ els[nei]? = some f ∧ Glued els now 0 nei j ∧
    (f.nodes j = p1 ∨ f.nodes j = m1) ∧
    ¬(0 < vecpro (placeOf nodes (e.nodes 0)) (placeOf nodes (e.nodes 1)) (placeOf nodes (f.nodes j)) ∧
      0 < vecpro (placeOf nodes (f.nodes j)) (placeOf nodes (f.nodes (j + 1))) (placeOf nodes (e.nodes 0)))

/-- The loop `swapping` ends and keeps the triangulation consistent, unless it comes to a forced swap. -/
theorem swapping_spec {q p1 m1 : ℤ} : ∀ (n : ℕ) (stack : List ℕ) (els : List DTri),
    Consistent nodes els → (∀ t ∈ stack, ∃ e, els[t]? = some e ∧ e.nodes 0 = q) →
    2 * (Others q els).card + stack.length ≤ n →
    (∃ els', swapping nodes p1 m1 n stack els = some els' ∧ Consistent nodes els' ∧
      total2 (placeOf nodes) els' = total2 (placeOf nodes) els ∧ els'.length = els.length) ∨
    (∃ els' now n' stack', swapping nodes p1 m1 n stack els = swapping nodes p1 m1 n' (now :: stack') els' ∧
      Consistent nodes els' ∧ total2 (placeOf nodes) els' = total2 (placeOf nodes) els ∧
      els'.length = els.length ∧ SameNodes els els' ∧ ForcedSwap nodes p1 m1 now els') := by
  intro n
  induction n with
  | zero =>
    intro stack els hc _ hn
    cases stack with
    | nil => exact Or.inl ⟨els, rfl, hc, rfl, rfl⟩
    | cons t s => simp at hn
  | succ n ih =>
    intro stack els hc hst hn
    cases stack with
    | nil => exact Or.inl ⟨els, rfl, hc, rfl, rfl⟩
    | cons now stack =>
      obtain ⟨e, he, heq⟩ := hst now (by simp)
      have hst' : ∀ t ∈ stack, ∃ e, els[t]? = some e ∧ e.nodes 0 = q := fun t ht => hst t (by simp [ht])
      have hn' : 2 * (Others q els).card + stack.length ≤ n := by
        rw [List.length_cons] at hn; omega
      have hself : swapping nodes p1 m1 (n + 1) (now :: stack) els =
        swapping nodes p1 m1 (n + 1) (now :: stack) els := rfl
      conv_lhs at hself => unfold swapping
      rw [he] at hself
      simp only [bind, Option.bind] at hself
      by_cases h0 : e.neighbors 0 < 0
      · rw [if_pos h0] at hself
        rw [← hself]
        exact ih stack els hc hst' hn'
      rw [if_neg h0] at hself
      obtain ⟨nei, f, j, hnei, hf, hj, hg⟩ := neighbor_glued hc he h0
      rw [hnei, Int.toNat_natCast, hf] at hself
      simp only [hc.active f (List.mem_of_getElem? hf), if_true, hj] at hself
      have ie := hc.indices e (List.mem_of_getElem? he)
      have jf := hc.indices f (List.mem_of_getElem? hf)
      obtain ⟨w, hw, hw'⟩ := swapWanted_spec (j := j) ie jf
      rw [hw] at hself
      simp only at hself
      by_cases hwt : w = true ∨ f.nodes j = p1 ∨ f.nodes j = m1
      · rw [if_pos hwt] at hself
        by_cases hq : 0 < vecpro (placeOf nodes (e.nodes 0)) (placeOf nodes (e.nodes 1)) (placeOf nodes (f.nodes j)) ∧
          0 < vecpro (placeOf nodes (f.nodes j)) (placeOf nodes (f.nodes (j + 1))) (placeOf nodes (e.nodes 0))
        swap
        · exact Or.inr ⟨els, now, n + 1, stack, rfl, hc, rfl, rfl, SameNodes.refl els, nei, e, f, j, he, hf, hg,
            hwt.resolve_left fun h => hq (hw' h), hq⟩
        obtain ⟨q1, q2⟩ := hq
        obtain ⟨els', h1, -, -, h2, h3, ⟨e', n1, n2⟩, ⟨f', n3, n4⟩, h4, h5⟩ :=
          swap_step hc he hf hg p1 m1
        have hc' := h3 q1 q2
        rw [h1] at hself
        simp only at hself
        have hne := hg.ne hc.oriented
        obtain ⟨e2, f2, d1, d2, d3, d4, d5, d6⟩ := id hg
        rw [he] at d1
        rw [hf] at d2
        cases d1; cases d2
        -- the new node is not in the neighbour
        have hfq : ∀ i, f.nodes i ≠ q := by
          refine fin3 j ?_ ?_ ?_
          · intro h
            rw [h, ← heq] at q1
            simp [vecpro, mul_comm] at q1
          · rw [d5, ← heq]
            exact fun h => absurd (nodes_inj (hc.oriented.at he) h) (by decide)
          · rw [d6, ← heq]
            exact fun h => absurd (nodes_inj (hc.oriented.at he) h) (by decide)
        -- what is on the stack
        have hzero : ∀ (t : ℕ) (e : DTri), els[t]? = some e → e.nodes 0 = q →
            ∃ e' : DTri, els'[t]? = some e' ∧ e'.nodes 0 = q := by
          intro t g hg' hgq
          by_cases t1 : t = now
          · subst t1
            exact ⟨e', n1, by rw [n2, ← heq]; rfl⟩
          by_cases t2 : t = nei
          · subst t2
            exact ⟨f', n3, by rw [n4, ← heq]; rfl⟩
          have := h5 t t1 t2
          rw [hg'] at this
          cases h : els'[t]? with
          | none => rw [h] at this; cases this
          | some g' =>
            rw [h] at this
            simp only [Option.map_some, Option.some.injEq] at this
            exact ⟨g', rfl, by rw [this, hgq]⟩
        have hsame : SameNodes els els' := by
          refine forall_mem fun s g' hg' => ?_
          by_cases t1 : s = now
          · subst t1
            rw [n1] at hg'
            cases hg'
            have me := List.mem_of_getElem? he
            exact vec3_forall (P := fun z => ∃ e ∈ els, ∃ k, z = e.nodes k) n2 ⟨e, me, 0, rfl⟩
              ⟨e, me, 1, rfl⟩ ⟨f, List.mem_of_getElem? hf, j, rfl⟩
          by_cases t2 : s = nei
          · subst t2
            rw [n3] at hg'
            cases hg'
            have me := List.mem_of_getElem? he
            exact vec3_forall (P := fun z => ∃ e ∈ els, ∃ k, z = e.nodes k) n4 ⟨e, me, 0, rfl⟩
              ⟨f, List.mem_of_getElem? hf, j, rfl⟩ ⟨e, me, 2, rfl⟩
          have := h5 s t1 t2
          rw [hg'] at this
          cases h : els[s]? with
          | none => rw [h] at this; cases this
          | some g =>
            rw [h] at this
            simp only [Option.map_some, Option.some.injEq] at this
            exact fun i => ⟨g, List.mem_of_getElem? h, i, by rw [this]⟩
        have hcard : (Others q els').card < (Others q els).card := by
          apply Finset.card_lt_card
          rw [Finset.ssubset_iff_of_subset]
          · refine ⟨nei, ?_, ?_⟩
            · rw [Others, Finset.mem_filter, hf]
              exact ⟨Finset.mem_range.2 (lt_of_some hf), by simpa using hfq 0⟩
            · rw [Others, Finset.mem_filter, n3]
              intro h
              exact h.2 (by simp [n4, heq])
          · intro s hs
            rw [Others, Finset.mem_filter] at hs ⊢
            refine ⟨by rw [← h4]; exact hs.1, fun h => ?_⟩
            cases hh : els[s]? with
            | none => rw [hh] at h; cases h
            | some g =>
              rw [hh] at h
              simp only [Option.map_some, Option.some.injEq] at h
              obtain ⟨g', hg', hgq⟩ := hzero s g hh h
              exact hs.2 (by rw [hg']; simp [hgq])
        have hrec := ih (nei :: now :: stack) els' hc' (by
            intro t ht
            simp only [List.mem_cons] at ht
            rcases ht with rfl | rfl | ht
            · exact ⟨f', n3, by rw [n4, ← heq]; rfl⟩
            · exact ⟨e', n1, by rw [n2, ← heq]; rfl⟩
            · obtain ⟨g, g1, g2⟩ := hst' t ht
              exact hzero t g g1 g2)
          (by
            simp only [List.length_cons] at hn ⊢
            omega)
        rw [hself] at hrec
        rcases hrec with ⟨els'', r1, r2, r3, r4⟩ | ⟨els'', t, n', s', r1, r2, r3, r4, r5, r6⟩
        · exact Or.inl ⟨els'', r1, r2, r3.trans h2, r4.trans h4⟩
        · exact Or.inr ⟨els'', t, n', s', r1, r2, r3.trans h2, r4.trans h4, hsame.trans r5, r6⟩
      · rw [if_neg hwt] at hself
        rw [← hself]
        exact ih stack els hc hst' hn'

end Pansfem
