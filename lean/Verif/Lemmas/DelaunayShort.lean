/-
No refinement makes the longest side longer: halves of sides and lines from a corner to the middle of the
opposite side are not longer than the sides of the element, and a swap puts the shorter diagonal.
-/
import Verif.Lemmas.DelaunayLongest
import Verif.Lemmas.DelaunaySides

namespace Pansfem

set_option linter.unusedSectionVars false

variable {K : Type} [Field K] [LinearOrder K] [IsStrictOrderedRing K]

/-- The sides of all elements have a squared length of at most `c`. -/
def Short (pos : ℤ → K × K) (c : K) (els : List DTri) : Prop :=
  ∀ e ∈ els, ∀ i : Fin 3, distSq (pos (e.nodes (i + 1))) (pos (e.nodes (i + 2))) ≤ c

theorem distSq_comm (a b : K × K) : distSq a b = distSq b a := by unfold distSq; ring

/-- The distance to a point on a segment is at most the distance to one of the ends. -/
theorem segment_le {a b p q : K × K} {c : K} (h : OnSegment a b q) (ha : distSq p a ≤ c) (hb : distSq p b ≤ c) :
    distSq p q ≤ c := by
  obtain ⟨r, h0, h1, rfl⟩ := h
  have h1' : 0 < 1 - r := by linarith
  have e : distSq p ((1 - r) * a.1 + r * b.1, (1 - r) * a.2 + r * b.2) =
      (1 - r) * distSq p a + r * distSq p b - r * (1 - r) * distSq a b := by
    unfold distSq; ring
  have n : 0 ≤ r * (1 - r) * distSq a b := by
    have : 0 ≤ distSq a b := by unfold distSq; positivity
    positivity
  rw [e]
  nlinarith [mul_le_mul_of_nonneg_left ha h1'.le, mul_le_mul_of_nonneg_left hb h0.le]

theorem segment_end {a b q : K × K} {c : K} (h : OnSegment a b q) (hab : distSq a b ≤ c) :
    distSq a q ≤ c ∧ distSq b q ≤ c := by
  have hc : 0 ≤ c := le_trans (by unfold distSq; positivity) hab
  have z : ∀ x : K × K, distSq x x = 0 := fun x => by unfold distSq; ring
  exact ⟨segment_le h (by rw [z]; exact hc) hab, segment_le h (by rw [distSq_comm]; exact hab) (by rw [z]; exact hc)⟩

/-- An element from its three corners. -/
theorem short_nodes {pos : ℤ → K × K} {c : K} {e : DTri} {x y z : ℤ} (h : e.nodes = ![x, y, z])
    (h1 : distSq (pos x) (pos y) ≤ c) (h2 : distSq (pos y) (pos z) ≤ c) (h3 : distSq (pos x) (pos z) ≤ c) (i : Fin 3) :
    distSq (pos (e.nodes (i + 1))) (pos (e.nodes (i + 2))) ≤ c := by
  rw [h]
  refine fin3 (P := fun i => distSq (pos ((![x, y, z] : Fin 3 → ℤ) (i + 1))) (pos ((![x, y, z] : Fin 3 → ℤ) (i + 2))) ≤ c)
    0 ?_ ?_ ?_ i
  · exact h2
  · show distSq (pos z) (pos x) ≤ c
    rw [distSq_comm]; exact h3
  · exact h1

theorem Short.at {pos : ℤ → K × K} {c : K} {els : List DTri} (h : Short pos c els) {t : ℕ} {e : DTri}
    (he : els[t]? = some e) (k : Fin 3) :
    distSq (pos (e.nodes (k + 1))) (pos (e.nodes (k + 2))) ≤ c ∧
    distSq (pos (e.nodes k)) (pos (e.nodes (k + 1))) ≤ c ∧ distSq (pos (e.nodes (k + 2))) (pos (e.nodes k)) ≤ c := by
  have m := List.mem_of_getElem? he
  have h1 := h e m (k + 1)
  have h2 := h e m (k + 2)
  rw [fin3_11, fin3_12] at h1
  rw [fin3_21, fin3_22] at h2
  exact ⟨h e m k, h2, h1⟩

/-- Lists that differ at some places only. -/
theorem short_of {pos : ℤ → K × K} {c : K} {els els' : List DTri} (h : Short pos c els) (S : Finset ℕ)
    (hS : ∀ s ∈ S, ∀ e, els'[s]? = some e → ∀ i : Fin 3, distSq (pos (e.nodes (i + 1))) (pos (e.nodes (i + 2))) ≤ c)
    (hr : ∀ s, s ∉ S → (els'[s]?).map DTri.nodes = (els[s]?).map DTri.nodes) : Short pos c els' := by
  refine forall_mem fun s e' he' => ?_
  by_cases hs : s ∈ S
  · exact hS s hs e' he'
  · have := hr s hs
    rw [he'] at this
    cases h' : els[s]? with
    | none => rw [h'] at this; cases this
    | some e =>
      rw [h'] at this
      simp only [Option.map_some, Option.some.injEq] at this
      rw [this]
      exact h e (List.mem_of_getElem? h')

/-- A swap that is wanted replaces a side by a shorter one. -/
theorem swapWanted_short {nodes : List (DNode K)} {e f : DTri} {j : Fin 3} (h : swapWanted nodes e f j = some true) :
    distSq (placeOf nodes (e.nodes 0)) (placeOf nodes (f.nodes j)) <
      distSq (placeOf nodes (e.nodes 1)) (placeOf nodes (e.nodes 2)) := by
  unfold swapWanted at h
  simp only [Option.bind_eq_bind, Option.bind_eq_some_iff] at h
  obtain ⟨a, ha, b, hb, p, hp, d, hd, h⟩ := h
  unfold placeOf
  rw [ha, hb, hp, hd]
  split_ifs at h with hlt
  · exact hlt
  · cases h

theorem swap_short {nodes : List (DNode K)} {c : K} {els els' : List DTri} {now nei : ℕ} {e f : DTri} {j : Fin 3}
    {p1 m1 : ℤ} (hc : Consistent nodes els) (hs : Short (placeOf nodes) c els) (he : els[now]? = some e)
    (hf : els[nei]? = some f) (hg : Glued els now 0 nei j) (hw : swapWanted nodes e f j = some true)
    (h : swapAt els p1 m1 now nei j = some els') : Short (placeOf nodes) c els' := by
  obtain ⟨l, k1, -, -, -, -, ⟨e', a1, a2⟩, ⟨f', b1, b2⟩, -, k9⟩ := swap_step hc he hf hg p1 m1
  rw [h] at k1
  cases k1
  obtain ⟨e2, f2, d1, d2, -, -, d5, d6⟩ := id hg
  rw [he] at d1
  rw [hf] at d2
  cases d1; cases d2
  obtain ⟨x1, x2, x3⟩ := hs.at he 0
  obtain ⟨y1, y2, y3⟩ := hs.at hf j
  have new := (swapWanted_short hw).le.trans x1
  have y2' : distSq (placeOf nodes (f.nodes j)) (placeOf nodes (e.nodes 2)) ≤ c := d5 ▸ y2
  have y3' : distSq (placeOf nodes (e.nodes 1)) (placeOf nodes (f.nodes j)) ≤ c := d6 ▸ y3
  refine short_of hs {now, nei} ?_ fun s hs => ?_
  · simp only [Finset.mem_insert, Finset.mem_singleton, forall_eq_or_imp, forall_eq]
    constructor
    · intro g hg'
      rw [a1] at hg'
      cases hg'
      exact short_nodes a2 x2 y3' new
    · intro g hg'
      rw [b1] at hg'
      cases hg'
      exact short_nodes b2 new y2' (by rw [distSq_comm]; exact x3)
  · simp only [Finset.mem_insert, Finset.mem_singleton, not_or] at hs
    exact k9 s hs.1 hs.2

theorem on1_short {nodes : List (DNode K)} {c : K} {els els' : List DTri} {now : ℕ} {e : DTri} {k : Fin 3}
    {p1 q m1 : ℤ} (hc : Consistent nodes els) (hs : Short (placeOf nodes) c els) (he : els[now]? = some e)
    (hon : OnSegment (placeOf nodes (e.nodes (k + 1))) (placeOf nodes (e.nodes (k + 2))) (placeOf nodes q))
    (h : getelementonTopo1 els now k p1 q m1 = some els') : Short (placeOf nodes) c els' := by
  obtain ⟨l, k1, ⟨t0, a1, a2, -⟩, ⟨t1, b1, b2, -⟩, hlen, hr⟩ := getelementonTopo1_spec hc.linked hc.oriented he k p1 q m1
  rw [h] at k1
  cases k1
  obtain ⟨x1, x2, x3⟩ := hs.at he k
  obtain ⟨y1, y2⟩ := segment_end hon x1
  have y3 := segment_le hon x2 (by rw [distSq_comm]; exact x3)
  refine short_of hs {now, els.length} ?_ fun s hs => ?_
  · simp only [Finset.mem_insert, Finset.mem_singleton, forall_eq_or_imp, forall_eq]
    constructor
    · intro g hg'
      rw [a1] at hg'
      cases hg'
      exact short_nodes a2 (by rw [distSq_comm]; exact y3) x2 (by rw [distSq_comm]; exact y1)
    · intro g hg'
      rw [b1] at hg'
      cases hg'
      exact short_nodes b2 (by rw [distSq_comm]; exact y2) x3 (by rw [distSq_comm]; exact y3)
  · simp only [Finset.mem_insert, Finset.mem_singleton, not_or] at hs
    by_cases hl : s < els.length
    · rw [hr s hs.1 hl, Option.map_map]
      rfl
    · rw [List.getElem?_eq_none (by omega), List.getElem?_eq_none (by omega)]

theorem on2_short {nodes : List (DNode K)} {c : K} {els els' : List DTri} {now nei : ℕ} {e f : DTri} {k j : Fin 3}
    {p1 q m1 : ℤ} (hc : Consistent nodes els) (hs : Short (placeOf nodes) c els) (he : els[now]? = some e)
    (hf : els[nei]? = some f) (hg : Glued els now k nei j)
    (hon : OnSegment (placeOf nodes (e.nodes (k + 1))) (placeOf nodes (e.nodes (k + 2))) (placeOf nodes q))
    (h : getelementonTopo2 els now k nei j p1 q m1 = some els') : Short (placeOf nodes) c els' := by
  obtain ⟨l, k1, ⟨t0, a1, a2, -⟩, ⟨t1, b1, b2, -⟩, ⟨t2, c1, c2, -⟩, ⟨t3, d1, d2, -⟩, hlen, hr⟩ :=
    getelementonTopo2_spec hc.linked hc.oriented he hf hg p1 q m1
  rw [h] at k1
  cases k1
  obtain ⟨e2, f2, g1, g2, -, -, g5, g6⟩ := id hg
  rw [he] at g1
  rw [hf] at g2
  cases g1; cases g2
  obtain ⟨x1, x2, x3⟩ := hs.at he k
  obtain ⟨-, w2, w3⟩ := hs.at hf j
  rw [g5] at w2
  rw [g6] at w3
  obtain ⟨y1, y2⟩ := segment_end hon x1
  have y3 := segment_le hon x2 (by rw [distSq_comm]; exact x3)
  have y4 := segment_le hon (by rw [distSq_comm]; exact w3) w2
  refine short_of hs {now, nei, els.length, els.length + 1} ?_ fun s hs => ?_
  · simp only [Finset.mem_insert, Finset.mem_singleton, forall_eq_or_imp, forall_eq]
    refine ⟨?_, ?_, ?_, ?_⟩
    · intro g hg'
      rw [a1] at hg'
      cases hg'
      exact short_nodes a2 (by rw [distSq_comm]; exact y3) x2 (by rw [distSq_comm]; exact y1)
    · intro g hg'
      rw [b1] at hg'
      cases hg'
      exact short_nodes b2 (by rw [distSq_comm]; exact y1) w3 (by rw [distSq_comm]; exact y4)
    · intro g hg'
      rw [c1] at hg'
      cases hg'
      exact short_nodes c2 (by rw [distSq_comm]; exact y2) x3 (by rw [distSq_comm]; exact y3)
    · intro g hg'
      rw [d1] at hg'
      cases hg'
      exact short_nodes d2 (by rw [distSq_comm]; exact y4) w2 (by rw [distSq_comm]; exact y2)
  · simp only [Finset.mem_insert, Finset.mem_singleton, not_or] at hs
    by_cases hl : s < els.length
    · rw [hr s hs.1 hs.2.1 hl, Option.map_map]
      rfl
    · rw [List.getElem?_eq_none (by omega), List.getElem?_eq_none (by omega)]

/-- **No insertion on a side makes the longest side longer.** -/
theorem getelementon_short {c : K} {d d' : Delaunay K} {nodes : List (DNode K)}
    (hc : Consistent d.nodes d.elements) {now : ℕ} {e : DTri} (he : d.elements[now]? = some e) {q : ℤ}
    (hq : 0 ≤ q ∧ q < d.nodes.length) (k : Fin 3)
    (hon : OnSegment (placeOf d.nodes (e.nodes (k + 1))) (placeOf d.nodes (e.nodes (k + 2))) (placeOf d.nodes q))
    {p1 m1 : ℤ} (hp1 : p1 < 0) (hm1 : m1 < 0) {rounds : ℕ} (hm : markBoundary d.nodes q (e.sides k) = some nodes)
    (h : d.getelementon rounds now k p1 q m1 = some d') (hs : Short (placeOf d.nodes) c d.elements) :
    Short (placeOf d'.nodes) c d'.elements := by
  obtain ⟨h1, h2, els, stack, h3, -, h5, h6⟩ := getelementon_parts hc he hq k hon hm h
  have hpos : placeOf d'.nodes = placeOf d.nodes := by
    rw [h1]
    exact funext h2
  have hpos' : placeOf nodes = placeOf d.nodes := funext h2
  rw [hpos]
  have hins : Short (placeOf d.nodes) c els := by
    rcases h6 with ⟨-, h6⟩ | ⟨nei, f, j, hf, hg, h6⟩
    · exact on1_short hc hs he hon h6
    · exact on2_short hc hs he hf hg hon h6
  rw [← hpos'] at hins ⊢
  exact swapping_induct (P := Short (placeOf nodes) c) hp1 hm1
    (fun l l' now nei e f j hc hl he hf hg hw h => swap_short hc hl he hf hg hw h) _ _ _ _ h3.consistent hins h5

end Pansfem
