/-
The insertion of a node keeps a triangulation consistent.
-/
import Verif.Lemmas.DelaunaySteps

namespace Pansfem

set_option linter.unusedSectionVars false

variable {K : Type} [Field K] [LinearOrder K] [IsStrictOrderedRing K]

variable {nodes : List (DNode K)} {els : List DTri}

/-- Some elements are replaced or added, the others change their neighbours only. -/
theorem splice {els' : List DTri} {S : Finset ℕ} (hc : Consistent nodes els) (hl : Linked els')
    (hS : ∀ s ∈ S, ∃ t, els'[s]? = some t ∧ t.active = true ∧ 0 < area2 (placeOf nodes) t ∧
      ∀ i, 0 ≤ t.nodes i ∧ t.nodes i < nodes.length)
    (hr : ∀ s, s ∉ S → ∃ g : DTri → DTri, els'[s]? = (els[s]?).map g ∧
      (∀ e, (g e).nodes = e.nodes) ∧ ∀ e, (g e).active = e.active) :
    Consistent nodes els' := by
  have key : ∀ t ∈ els', t.active = true ∧ 0 < area2 (placeOf nodes) t ∧
      ∀ i, 0 ≤ t.nodes i ∧ t.nodes i < nodes.length := by
    refine forall_mem fun s t ht => ?_
    by_cases hs : s ∈ S
    · obtain ⟨t', h1, h2⟩ := hS s hs
      rw [ht] at h1
      cases h1
      exact h2
    · obtain ⟨g, h1, h2, h3⟩ := hr s hs
      rw [ht] at h1
      cases h : els[s]? with
      | none => rw [h] at h1; cases h1
      | some e =>
        rw [h] at h1
        simp only [Option.map_some, Option.some.injEq] at h1
        rw [h1, h3, area2, h2]
        exact ⟨hc.active e (List.mem_of_getElem? h), hc.oriented.at h, hc.indices e (List.mem_of_getElem? h)⟩
  exact ⟨hl, fun t ht => (key t ht).2.1, fun t ht => (key t ht).2.2, fun t ht => (key t ht).1⟩

theorem none_map {els' : List DTri} {s : ℕ} (h : els.length ≤ s) (h' : els'.length ≤ s) (g : DTri → DTri) :
    els'[s]? = (els[s]?).map g := by
  rw [List.getElem?_eq_none h, List.getElem?_eq_none h']
  rfl

/-- The nodes of the new elements are old ones or `q`. -/
def NodesOr (q : ℤ) (els els' : List DTri) : Prop :=
  ∀ e' ∈ els', ∀ i, e'.nodes i = q ∨ ∃ e ∈ els, ∃ k, e'.nodes i = e.nodes k

theorem nodesOr {els' : List DTri} {S : Finset ℕ} {q : ℤ}
    (hS : ∀ s ∈ S, ∃ t, els'[s]? = some t ∧ ∀ i, t.nodes i = q ∨ ∃ e ∈ els, ∃ k, t.nodes i = e.nodes k)
    (hr : ∀ s, s ∉ S → ∃ g : DTri → DTri, els'[s]? = (els[s]?).map g ∧
      (∀ e, (g e).nodes = e.nodes) ∧ ∀ e, (g e).active = e.active) :
    NodesOr q els els' := by
  refine forall_mem fun s t ht => ?_
  by_cases hs : s ∈ S
  · obtain ⟨t', h1, h2⟩ := hS s hs
    rw [ht] at h1
    cases h1
    exact h2
  · obtain ⟨g, h1, h2, h3⟩ := hr s hs
    rw [ht] at h1
    cases h : els[s]? with
    | none => rw [h] at h1; cases h1
    | some e =>
      rw [h] at h1
      simp only [Option.map_some, Option.some.injEq] at h1
      exact fun i => Or.inr ⟨e, List.mem_of_getElem? h, i, by rw [h1, h2]⟩

/-- What an insertion does before the swaps. -/
structure Inserted (nodes : List (DNode K)) (els els' : List DTri) (q : ℤ) (stack : List ℕ) : Prop where
  consistent : Consistent nodes els'
  total : total2 (placeOf nodes) els' = total2 (placeOf nodes) els
  first : ∀ t ∈ stack, ∃ e, els'[t]? = some e ∧ e.nodes 0 = q
  nodes : NodesOr q els els'

theorem in_step (hc : Consistent nodes els) {now : ℕ} {e : DTri} (he : els[now]? = some e) {q : ℤ}
    (hq : 0 ≤ q ∧ q < nodes.length)
    (h0 : 0 < vecpro (placeOf nodes (e.nodes 0)) (placeOf nodes (e.nodes 1)) (placeOf nodes q))
    (h1 : 0 < vecpro (placeOf nodes (e.nodes 1)) (placeOf nodes (e.nodes 2)) (placeOf nodes q))
    (h2 : 0 < vecpro (placeOf nodes (e.nodes 2)) (placeOf nodes (e.nodes 0)) (placeOf nodes q)) (p1 m1 : ℤ) :
    ∃ els', getelementinTopo els now p1 q m1 = some els' ∧ els'.length = els.length + 2 ∧
      Inserted nodes els els' q [els.length + 1, els.length, now] := by
  obtain ⟨els', hs, a0, a1, a2, hlen, hrest⟩ := getelementinTopo_spec hc.linked hc.oriented he p1 q m1
  have hlink := in_linked hc.linked hc.oriented he a0 a1 a2 hlen hrest
  obtain ⟨t0, b0, c0, -, d0⟩ := a0
  obtain ⟨t1, b1, c1, -, d1⟩ := a1
  obtain ⟨t2, b2, c2, -, d2⟩ := a2
  have ie := hc.indices e (List.mem_of_getElem? he)
  have me := List.mem_of_getElem? he
  have hlt := lt_of_some he
  have hr : ∀ s, s ∉ ({now, els.length, els.length + 1} : Finset ℕ) → ∃ g : DTri → DTri,
      els'[s]? = (els[s]?).map g ∧ (∀ e, (g e).nodes = e.nodes) ∧ ∀ e, (g e).active = e.active := by
    intro s hs
    simp only [Finset.mem_insert, Finset.mem_singleton, not_or] at hs
    by_cases hsl : s < els.length
    · exact ⟨_, hrest s hs.1 hsl, fun _ => rfl, fun _ => rfl⟩
    · exact ⟨id, none_map (by omega) (by omega) id, fun _ => rfl, fun _ => rfl⟩
  refine ⟨els', hs, hlen, splice (S := {now, els.length, els.length + 1}) hc hlink ?_ hr, ?_, ?_, ?_⟩
  · simp only [Finset.mem_insert, Finset.mem_singleton, forall_eq_or_imp, forall_eq]
    refine ⟨⟨t0, b0, d0, ?_, ?_⟩, ⟨t1, b1, d1, ?_, ?_⟩, ⟨t2, b2, d2, ?_, ?_⟩⟩
    · rw [area2_nodes c0, vecpro_rot]; exact h1
    · exact vec3_forall (P := fun z => 0 ≤ z ∧ z < nodes.length) c0 hq (ie 1) (ie 2)
    · rw [area2_nodes c1, vecpro_rot]; exact h2
    · exact vec3_forall (P := fun z => 0 ≤ z ∧ z < nodes.length) c1 hq (ie 2) (ie 0)
    · rw [area2_nodes c2, vecpro_rot]; exact h0
    · exact vec3_forall (P := fun z => 0 ≤ z ∧ z < nodes.length) c2 hq (ie 0) (ie 1)
  · rw [← sub_eq_zero, total2_change {now, els.length, els.length + 1} fun s hs => ?_]
    · rw [Finset.sum_insert (by simp; omega), Finset.sum_pair (by omega), areaAt_some b0, areaAt_some b1,
        areaAt_some b2, areaAt_some he, area2_nodes c0, area2_nodes c1, area2_nodes c2, area2,
        areaAt, areaAt, List.getElem?_eq_none (by omega), List.getElem?_eq_none (by omega)]
      simp only [vecpro, Option.map_none, Option.getD_none]
      ring
    · obtain ⟨g, h1, h2, -⟩ := hr s hs
      exact areaAt_map h1 h2
  · simp only [List.mem_cons, List.not_mem_nil, or_false, forall_eq_or_imp, forall_eq]
    exact ⟨⟨t2, b2, by rw [c2]; rfl⟩, ⟨t1, b1, by rw [c1]; rfl⟩, ⟨t0, b0, by rw [c0]; rfl⟩⟩
  · refine nodesOr (S := {now, els.length, els.length + 1}) ?_ hr
    simp only [Finset.mem_insert, Finset.mem_singleton, forall_eq_or_imp, forall_eq]
    let P : ℤ → Prop := fun z => z = q ∨ ∃ e ∈ els, ∃ k, z = e.nodes k
    have o : ∀ i, e.nodes i = q ∨ ∃ e' ∈ els, ∃ k, e.nodes i = e'.nodes k := fun i => Or.inr ⟨e, me, i, rfl⟩
    exact ⟨⟨t0, b0, vec3_forall (P := P) c0 (Or.inl rfl) (o 1) (o 2)⟩, ⟨t1, b1, vec3_forall (P := P) c1 (Or.inl rfl) (o 2) (o 0)⟩,
      ⟨t2, b2, vec3_forall (P := P) c2 (Or.inl rfl) (o 0) (o 1)⟩⟩

theorem on1_step (hc : Consistent nodes els) {now : ℕ} {e : DTri} (he : els[now]? = some e) {q : ℤ}
    {k : Fin 3} (hk : e.neighbors k = -1) (hq : 0 ≤ q ∧ q < nodes.length)
    (h0 : vecpro (placeOf nodes (e.nodes (k + 1))) (placeOf nodes (e.nodes (k + 2))) (placeOf nodes q) = 0)
    (h1 : 0 < vecpro (placeOf nodes (e.nodes (k + 2))) (placeOf nodes (e.nodes k)) (placeOf nodes q))
    (h2 : 0 < vecpro (placeOf nodes (e.nodes k)) (placeOf nodes (e.nodes (k + 1))) (placeOf nodes q)) (p1 m1 : ℤ) :
    ∃ els', getelementonTopo1 els now k p1 q m1 = some els' ∧ els'.length = els.length + 1 ∧
      Inserted nodes els els' q [els.length, now] := by
  obtain ⟨els', hs, a0, a1, hlen, hrest⟩ := getelementonTopo1_spec hc.linked hc.oriented he k p1 q m1
  have hlink := on1_linked hc.linked hc.oriented he hk a0 a1 hlen hrest
  obtain ⟨t0, b0, c0, -, d0⟩ := a0
  obtain ⟨t1, b1, c1, -, d1⟩ := a1
  have ie := hc.indices e (List.mem_of_getElem? he)
  have me := List.mem_of_getElem? he
  have hlt := lt_of_some he
  have hr : ∀ s, s ∉ ({now, els.length} : Finset ℕ) → ∃ g : DTri → DTri,
      els'[s]? = (els[s]?).map g ∧ (∀ e, (g e).nodes = e.nodes) ∧ ∀ e, (g e).active = e.active := by
    intro s hs
    simp only [Finset.mem_insert, Finset.mem_singleton, not_or] at hs
    by_cases hsl : s < els.length
    · exact ⟨_, hrest s hs.1 hsl, fun _ => rfl, fun _ => rfl⟩
    · exact ⟨id, none_map (by omega) (by omega) id, fun _ => rfl, fun _ => rfl⟩
  refine ⟨els', hs, hlen, splice (S := {now, els.length}) hc hlink ?_ hr, ?_, ?_, ?_⟩
  · simp only [Finset.mem_insert, Finset.mem_singleton, forall_eq_or_imp, forall_eq]
    refine ⟨⟨t0, b0, d0, ?_, ?_⟩, ⟨t1, b1, d1, ?_, ?_⟩⟩
    · rw [area2_nodes c0, vecpro_rot]; exact h2
    · exact vec3_forall (P := fun z => 0 ≤ z ∧ z < nodes.length) c0 hq (ie _) (ie _)
    · rw [area2_nodes c1, vecpro_rot]; exact h1
    · exact vec3_forall (P := fun z => 0 ≤ z ∧ z < nodes.length) c1 hq (ie _) (ie _)
  · rw [← sub_eq_zero, total2_change {now, els.length} fun s hs => ?_]
    · rw [Finset.sum_pair (by omega), areaAt_some b0, areaAt_some b1,
        areaAt_some he, area2_nodes c0, area2_nodes c1, area2_rot _ e k,
        areaAt, List.getElem?_eq_none (by omega)]
      simp only [Option.map_none, Option.getD_none]
      simp only [vecpro] at h0 ⊢
      linear_combination -h0
    · obtain ⟨g, h1, h2, -⟩ := hr s hs
      exact areaAt_map h1 h2
  · simp only [List.mem_cons, List.not_mem_nil, or_false, forall_eq_or_imp, forall_eq]
    exact ⟨⟨t1, b1, by rw [c1]; rfl⟩, ⟨t0, b0, by rw [c0]; rfl⟩⟩
  · refine nodesOr (S := {now, els.length}) ?_ hr
    simp only [Finset.mem_insert, Finset.mem_singleton, forall_eq_or_imp, forall_eq]
    let P : ℤ → Prop := fun z => z = q ∨ ∃ e ∈ els, ∃ k, z = e.nodes k
    have o : ∀ i, e.nodes i = q ∨ ∃ e' ∈ els, ∃ k, e.nodes i = e'.nodes k := fun i => Or.inr ⟨e, me, i, rfl⟩
    exact ⟨⟨t0, b0, vec3_forall (P := P) c0 (Or.inl rfl) (o _) (o _)⟩, ⟨t1, b1, vec3_forall (P := P) c1 (Or.inl rfl) (o _) (o _)⟩⟩

theorem on2_step (hc : Consistent nodes els) {now nei : ℕ} {e f : DTri} {j k : Fin 3}
    (he : els[now]? = some e) (hf : els[nei]? = some f) (hg : Glued els now k nei j) {q : ℤ}
    (hq : 0 ≤ q ∧ q < nodes.length)
    (h1 : 0 < vecpro (placeOf nodes (e.nodes (k + 2))) (placeOf nodes (e.nodes k)) (placeOf nodes q))
    (h2 : 0 < vecpro (placeOf nodes (e.nodes k)) (placeOf nodes (e.nodes (k + 1))) (placeOf nodes q))
    (h3 : 0 < vecpro (placeOf nodes (e.nodes (k + 1))) (placeOf nodes (f.nodes j)) (placeOf nodes q))
    (h4 : 0 < vecpro (placeOf nodes (f.nodes j)) (placeOf nodes (e.nodes (k + 2))) (placeOf nodes q))
    (p1 m1 : ℤ) :
    ∃ els', getelementonTopo2 els now k nei j p1 q m1 = some els' ∧ els'.length = els.length + 2 ∧
      Inserted nodes els els' q [els.length + 1, els.length, nei, now] := by
  obtain ⟨els', hs, a0, a1, a2, a3, hlen, hrest⟩ :=
    getelementonTopo2_spec hc.linked hc.oriented he hf hg p1 q m1
  have hlink := on2_linked hc.linked hc.oriented he hf hg a0 a1 a2 a3 hlen hrest
  have hne := hg.ne hc.oriented
  obtain ⟨e2, f2, e1, e2', -, -, e5, e6⟩ := id hg
  rw [he] at e1
  rw [hf] at e2'
  cases e1; cases e2'
  obtain ⟨t0, b0, c0, -, d0⟩ := a0
  obtain ⟨t1, b1, c1, -, d1⟩ := a1
  obtain ⟨t2, b2, c2, -, d2⟩ := a2
  obtain ⟨t3, b3, c3, -, d3⟩ := a3
  have ie := hc.indices e (List.mem_of_getElem? he)
  have jf := hc.indices f (List.mem_of_getElem? hf)
  have me := List.mem_of_getElem? he
  have mf := List.mem_of_getElem? hf
  have hlt := lt_of_some he
  have hlt' := lt_of_some hf
  have hr : ∀ s, s ∉ ({now, nei, els.length, els.length + 1} : Finset ℕ) → ∃ g : DTri → DTri,
      els'[s]? = (els[s]?).map g ∧ (∀ e, (g e).nodes = e.nodes) ∧ ∀ e, (g e).active = e.active := by
    intro s hs
    simp only [Finset.mem_insert, Finset.mem_singleton, not_or] at hs
    by_cases hsl : s < els.length
    · exact ⟨_, hrest s hs.1 hs.2.1 hsl, fun _ => rfl, fun _ => rfl⟩
    · exact ⟨id, none_map (by omega) (by omega) id, fun _ => rfl, fun _ => rfl⟩
  refine ⟨els', hs, hlen, splice (S := {now, nei, els.length, els.length + 1}) hc hlink ?_ hr, ?_, ?_, ?_⟩
  · simp only [Finset.mem_insert, Finset.mem_singleton, forall_eq_or_imp, forall_eq]
    refine ⟨⟨t0, b0, d0, ?_, ?_⟩, ⟨t1, b1, d1, ?_, ?_⟩, ⟨t2, b2, d2, ?_, ?_⟩, ⟨t3, b3, d3, ?_, ?_⟩⟩
    · rw [area2_nodes c0, vecpro_rot]; exact h2
    · exact vec3_forall (P := fun z => 0 ≤ z ∧ z < nodes.length) c0 hq (ie _) (ie _)
    · rw [area2_nodes c1, vecpro_rot]; exact h3
    · exact vec3_forall (P := fun z => 0 ≤ z ∧ z < nodes.length) c1 hq (ie _) (jf _)
    · rw [area2_nodes c2, vecpro_rot]; exact h1
    · exact vec3_forall (P := fun z => 0 ≤ z ∧ z < nodes.length) c2 hq (ie _) (ie _)
    · rw [area2_nodes c3, vecpro_rot]; exact h4
    · exact vec3_forall (P := fun z => 0 ≤ z ∧ z < nodes.length) c3 hq (jf _) (ie _)
  · rw [← sub_eq_zero, total2_change {now, nei, els.length, els.length + 1} fun s hs => ?_]
    · rw [Finset.sum_insert (by simp; omega), Finset.sum_insert (by simp; omega),
        Finset.sum_pair (by omega), areaAt_some b0, areaAt_some b1,
        areaAt_some b2, areaAt_some b3, areaAt_some he, areaAt_some hf, area2_nodes c0, area2_nodes c1,
        area2_nodes c2, area2_nodes c3, area2_rot _ e k, area2_rot _ f j, e5, e6,
        areaAt, areaAt, List.getElem?_eq_none (by omega), List.getElem?_eq_none (by omega)]
      simp only [vecpro, Option.map_none, Option.getD_none]
      ring
    · obtain ⟨g, h1, h2, -⟩ := hr s hs
      exact areaAt_map h1 h2
  · simp only [List.mem_cons, List.not_mem_nil, or_false, forall_eq_or_imp, forall_eq]
    exact ⟨⟨t3, b3, by rw [c3]; rfl⟩, ⟨t2, b2, by rw [c2]; rfl⟩, ⟨t1, b1, by rw [c1]; rfl⟩,
      ⟨t0, b0, by rw [c0]; rfl⟩⟩
  · refine nodesOr (S := {now, nei, els.length, els.length + 1}) ?_ hr
    simp only [Finset.mem_insert, Finset.mem_singleton, forall_eq_or_imp, forall_eq]
    let P : ℤ → Prop := fun z => z = q ∨ ∃ e ∈ els, ∃ k, z = e.nodes k
    have o : ∀ i, e.nodes i = q ∨ ∃ e' ∈ els, ∃ k, e.nodes i = e'.nodes k := fun i => Or.inr ⟨e, me, i, rfl⟩
    have o' : ∀ i, f.nodes i = q ∨ ∃ e' ∈ els, ∃ k, f.nodes i = e'.nodes k := fun i => Or.inr ⟨f, mf, i, rfl⟩
    exact ⟨⟨t0, b0, vec3_forall (P := P) c0 (Or.inl rfl) (o _) (o _)⟩,
      ⟨t1, b1, vec3_forall (P := P) c1 (Or.inl rfl) (o _) (o' _)⟩,
      ⟨t2, b2, vec3_forall (P := P) c2 (Or.inl rfl) (o _) (o _)⟩,
      ⟨t3, b3, vec3_forall (P := P) c3 (Or.inl rfl) (o' _) (o _)⟩⟩

/-- A point on the common side of two elements is on the inner side of their four outer sides. -/
theorem across_pos {a b c d q : K × K} (h0 : vecpro a b q = 0) (h1 : 0 < vecpro b c q)
    (h2 : 0 < vecpro c a q) (hd : 0 < vecpro d b a) : 0 < vecpro a d q ∧ 0 < vecpro d b q := by
  have hA : 0 < vecpro a b c := by
    have : vecpro a b q + vecpro b c q + vecpro c a q = vecpro a b c := by unfold vecpro; ring
    linarith
  have e1 : vecpro a b c * vecpro a d q = vecpro a b q * vecpro a d c + vecpro c a q * vecpro d b a := by
    unfold vecpro; ring
  have e2 : vecpro a b c * vecpro d b q = vecpro a b q * vecpro d b c + vecpro b c q * vecpro d b a := by
    unfold vecpro; ring
  rw [h0, zero_mul, zero_add] at e1 e2
  exact ⟨pos_of_mul_pos_right (by rw [e1]; positivity) hA.le, pos_of_mul_pos_right (by rw [e2]; positivity) hA.le⟩

/-- The places matter only. -/
theorem Consistent.congr {nodes' : List (DNode K)} (h : Consistent nodes els)
    (hp : ∀ z : ℤ, 0 ≤ z → z < nodes.length → placeOf nodes' z = placeOf nodes z)
    (hl : nodes.length ≤ nodes'.length) :
    Consistent nodes' els ∧ total2 (placeOf nodes') els = total2 (placeOf nodes) els := by
  have ha : ∀ e ∈ els, area2 (placeOf nodes') e = area2 (placeOf nodes) e := by
    intro e he
    have hi := h.indices e he
    rw [area2, area2, hp _ (hi 0).1 (hi 0).2, hp _ (hi 1).1 (hi 1).2, hp _ (hi 2).1 (hi 2).2]
  refine ⟨⟨h.linked, fun e he => ?_, fun e he i => ?_, h.active⟩, ?_⟩
  · rw [ha e he]; exact h.oriented e he
  · have := h.indices e he i
    omega
  · rw [total2, total2, List.map_congr_left ha]

theorem place_append (n : List (DNode K)) (p : DNode K) {z : ℤ} (h0 : 0 ≤ z) (h1 : z < n.length) :
    placeOf (n ++ [p]) z = placeOf n z := by
  rw [placeOf, placeOf, atInt, atInt, if_neg (by omega), if_neg (by omega), List.getElem?_append_left (by omega)]

theorem place_last (n : List (DNode K)) (p : DNode K) : placeOf (n ++ [p]) n.length = p.x := by
  rw [placeOf, atInt, if_neg (by omega), Int.toNat_natCast, List.getElem?_append_right le_rfl]
  simp

theorem markBoundary_spec {q : ℤ} (hq : 0 ≤ q ∧ q < nodes.length) (b : Bool) :
    ∃ nodes', markBoundary nodes q b = some nodes' ∧ (∀ z, placeOf nodes' z = placeOf nodes z) ∧
      nodes'.length = nodes.length := by
  cases b with
  | false => exact ⟨nodes, rfl, fun _ => rfl, rfl⟩
  | true =>
    obtain ⟨p, hp, -⟩ := atInt_some hq.1 hq.2
    refine ⟨nodes.set q.toNat { p with isonboundary := true }, by simp [markBoundary, hp], fun z => ?_,
      by simp⟩
    unfold placeOf
    unfold atInt at hp ⊢
    rw [if_neg (by omega)] at hp
    by_cases hz : z < 0
    · rw [if_pos hz, if_pos hz]
    rw [if_neg hz, if_neg hz]
    by_cases h : q.toNat = z.toNat
    · rw [← h, hp, set_same _ (lt_of_some hp)]
    · rw [set_other _ h]

theorem others_le (q : ℤ) (els : List DTri) : (Others q els).card ≤ els.length :=
  (Finset.card_filter_le _ _).trans (by rw [Finset.card_range])

/-- An insertion followed by the swaps. -/
theorem Inserted.swaps {els' : List DTri} {q : ℤ} {stack : List ℕ} (h : Inserted nodes els els' q stack)
    (p1 m1 : ℤ) {rounds : ℕ} (hr : 2 * els'.length + stack.length ≤ rounds) :
    (∃ els'', swapping nodes p1 m1 rounds stack els' = some els'' ∧ Consistent nodes els'' ∧
      total2 (placeOf nodes) els'' = total2 (placeOf nodes) els ∧ els''.length = els'.length) ∨
    (∃ els'' now n' stack',
      swapping nodes p1 m1 rounds stack els' = swapping nodes p1 m1 n' (now :: stack') els'' ∧
      Consistent nodes els'' ∧ total2 (placeOf nodes) els'' = total2 (placeOf nodes) els ∧
      els''.length = els'.length ∧ NodesOr q els els'' ∧ ForcedSwap nodes p1 m1 now els'') := by
  rcases swapping_spec rounds stack els' h.consistent h.first
    (by have := others_le q els'; omega) with ⟨els'', h1, h2, h3, h4⟩ | ⟨els'', t, n, s, h1, h2, h3, h4, h5, h6⟩
  · exact Or.inl ⟨els'', h1, h2, h3.trans h.total, h4⟩
  · refine Or.inr ⟨els'', t, n, s, h1, h2, h3.trans h.total, h4, fun e he i => ?_, h6⟩
    obtain ⟨f, hf, k, hk⟩ := h5 e he i
    rw [hk]
    exact h.nodes f hf k

/-- Without the neighbours on the boundary there is no forced swap. -/
theorem Inserted.swapping {els' : List DTri} {q : ℤ} {stack : List ℕ} (h : Inserted nodes els els' q stack)
    {p1 m1 : ℤ} (hp : q ≠ p1 ∧ q ≠ m1) (hno : ∀ e ∈ els, ∀ i, e.nodes i ≠ p1 ∧ e.nodes i ≠ m1) {rounds : ℕ}
    (hr : 2 * els'.length + stack.length ≤ rounds) :
    ∃ els'', Pansfem.swapping nodes p1 m1 rounds stack els' = some els'' ∧ Consistent nodes els'' ∧
      total2 (placeOf nodes) els'' = total2 (placeOf nodes) els ∧ els''.length = els'.length := by
  rcases h.swaps p1 m1 hr with h1 | ⟨els'', t, n, s, -, -, -, -, h5, nei, e, f, j, -, hf, -, hj, -⟩
  · exact h1
  · exfalso
    rcases h5 f (List.mem_of_getElem? hf) j with h | ⟨g, hg, k, h⟩
    · rw [h] at hj
      exact hj.elim hp.1 hp.2
    · rw [h] at hj
      exact hj.elim (hno g hg k).1 (hno g hg k).2

end Pansfem
