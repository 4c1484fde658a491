/-
C99: `sortnode` (Delaunay.h:437-460) removes the nodes that are not set.

The nodes that stay keep their order.  If every corner of an element is a set node, then afterwards every
corner has its new number: it is the same node as before, different corners stay different, neighbours,
orientation and area do not change.
-/
import Verif.Lemmas.DelaunaySmooth
import Verif.Props.C59_Delaunay

namespace Pansfem

set_option linter.unusedSectionVars false

variable {K : Type} [Field K] [LinearOrder K] [IsStrictOrderedRing K]

/-- One round of the renumbering. -/
def renumberStep (nodes : List (DNode K)) (i : ℕ) (z : ℤ) : ℤ :=
  match nodes[i]? with
  | some p => if p.isset then z else if (i : ℤ) < z then z - 1 else z
  | none => z

theorem renumber_below (nodes : List (DNode K)) : ∀ (n : ℕ) (z : ℤ), n ≤ nodes.length → (n : ℤ) ≤ z →
    (List.range n).foldr (renumberStep nodes) z = z - n + (nodes.take n).countP fun p => p.isset := by
  intro n
  induction n with
  | zero => intro z _ _; simp
  | succ n ih =>
    intro z hn hz
    have hlt : n < nodes.length := by omega
    have hp := List.getElem?_eq_getElem hlt
    rw [List.range_succ, List.foldr_append, List.foldr_cons, List.foldr_nil, List.take_add_one, hp,
      Option.toList_some, List.countP_append]
    unfold renumberStep
    rw [hp]
    simp only
    by_cases hs : nodes[n].isset = true
    · rw [if_pos hs]
      have := ih z (by omega) (by omega)
      unfold renumberStep at this
      rw [this]
      simp [hs]
      ring
    · rw [if_neg hs, if_pos (by omega)]
      have := ih (z - 1) (by omega) (by omega)
      unfold renumberStep at this
      rw [this]
      simp [hs]
      ring

theorem renumber_above (nodes : List (DNode K)) (z : ℕ) (k : ℕ) :
    (List.range (z + k)).foldr (renumberStep nodes) (z : ℤ) = (List.range z).foldr (renumberStep nodes) (z : ℤ) := by
  induction k with
  | zero => rfl
  | succ k ih =>
    rw [← Nat.add_assoc, List.range_succ, List.foldr_append, List.foldr_cons, List.foldr_nil]
    have : renumberStep nodes (z + k) (z : ℤ) = z := by
      unfold renumberStep
      split
      · rw [if_neg (show ¬((z + k : ℕ) : ℤ) < z by omega)]
        simp
      · rfl
    rw [this, ih]

/-- The new number is the number of set nodes before the node. -/
theorem renumber_eq (nodes : List (DNode K)) {z : ℕ} (hz : z < nodes.length) :
    renumber nodes z = ((nodes.take z).countP fun p => p.isset : ℕ) := by
  have h1 : renumber nodes z = (List.range nodes.length).foldr (renumberStep nodes) (z : ℤ) := rfl
  rw [h1, show nodes.length = z + (nodes.length - z) by omega, renumber_above, renumber_below nodes z z (by omega) le_rfl]
  omega

theorem filter_take_get {α : Type} (p : α → Bool) : ∀ (l : List α) (i : ℕ) (a : α), l[i]? = some a → p a = true →
    (l.filter p)[(l.take i).countP p]? = some a := by
  intro l
  induction l with
  | nil => intro i a h; simp at h
  | cons b l ih =>
    intro i a h hp
    cases i with
    | zero =>
      rw [List.getElem?_cons_zero, Option.some.injEq] at h
      subst h
      simp [List.filter_cons, hp]
    | succ i =>
      rw [List.getElem?_cons_succ] at h
      rw [List.take_succ_cons]
      by_cases hb : p b = true
      · rw [List.filter_cons_of_pos hb, List.countP_cons_of_pos hb, List.getElem?_cons_succ]
        exact ih i a h hp
      · rw [List.filter_cons_of_neg hb, List.countP_cons_of_neg hb]
        exact ih i a h hp

/-- The node at its new number. -/
theorem renumber_get (nodes : List (DNode K)) {z : ℤ} {p : DNode K} (h : atInt nodes z = some p)
    (hp : p.isset = true) : atInt (nodes.filter fun p => p.isset) (renumber nodes z) = some p := by
  unfold atInt at h
  split_ifs at h with hz
  obtain ⟨m, rfl⟩ : ∃ m : ℕ, z = m := ⟨z.toNat, by omega⟩
  rw [Int.toNat_natCast] at h
  rw [renumber_eq nodes (List.getElem?_eq_some_iff.1 h).1, atInt, if_neg (by omega), Int.toNat_natCast]
  exact filter_take_get _ nodes m p h hp

/-- Different nodes get different numbers. -/
theorem renumber_inj (nodes : List (DNode K)) {z z' : ℤ} {p p' : DNode K} (h : atInt nodes z = some p)
    (hp : p.isset = true) (h' : atInt nodes z' = some p') (hp' : p'.isset = true)
    (he : renumber nodes z = renumber nodes z') : z = z' := by
  unfold atInt at h h'
  split_ifs at h with hz
  split_ifs at h' with hz'
  obtain ⟨m, rfl⟩ : ∃ m : ℕ, z = m := ⟨z.toNat, by omega⟩
  obtain ⟨m', rfl⟩ : ∃ m : ℕ, z' = m := ⟨z'.toNat, by omega⟩
  rw [Int.toNat_natCast] at h h'
  rw [renumber_eq nodes (List.getElem?_eq_some_iff.1 h).1, renumber_eq nodes (List.getElem?_eq_some_iff.1 h').1] at he
  have he : (nodes.take m).countP (fun p => p.isset) = (nodes.take m').countP fun p => p.isset := by exact_mod_cast he
  have key : ∀ (a b : ℕ) (q : DNode K), nodes[a]? = some q → q.isset = true → a < b →
      (nodes.take a).countP (fun p => p.isset) < (nodes.take b).countP fun p => p.isset := by
    intro a b q hq hs hab
    have h1 : (nodes.take (a + 1)).countP (fun p => p.isset) = (nodes.take a).countP (fun p => p.isset) + 1 := by
      rw [List.take_add_one, hq, Option.toList_some, List.countP_append]
      simp [hs]
    have h2 : (nodes.take (a + 1)).Sublist (nodes.take b) := (List.take_prefix_take_left (by omega)).sublist
    have := h2.countP_le (p := fun p : DNode K => p.isset)
    omega
  rcases lt_trichotomy m m' with hlt | rfl | hlt
  · have := key m m' p h hp hlt; omega
  · rfl
  · have := key m' m p' h' hp' hlt; omega

/-- All corners are set nodes. -/
def CornersSet (d : Delaunay K) : Prop :=
  ∀ e ∈ d.elements, ∀ i, ∃ p, atInt d.nodes (e.nodes i) = some p ∧ p.isset = true

/-- The nodes that stay: the set ones, in the same order. -/
theorem C99_nodes (d : Delaunay K) : d.sortnode.nodes.Sublist d.nodes ∧
    ∀ p, p ∈ d.sortnode.nodes ↔ p ∈ d.nodes ∧ p.isset = true := by
  refine ⟨List.filter_sublist, fun p => ?_⟩
  exact List.mem_filter

/-- Every corner is the same node as before. -/
theorem C99_corners (d : Delaunay K) (h : CornersSet d) {t : ℕ} {e : DTri} (he : d.elements[t]? = some e) :
    ∃ e', d.sortnode.elements[t]? = some e' ∧ e'.neighbors = e.neighbors ∧ e'.sides = e.sides ∧
      e'.active = e.active ∧ (∀ i, atInt d.sortnode.nodes (e'.nodes i) = atInt d.nodes (e.nodes i)) ∧
      ∀ i j, e'.nodes i = e'.nodes j → e.nodes i = e.nodes j := by
  have hget : d.sortnode.elements[t]? = some { e with nodes := fun i => renumber d.nodes (e.nodes i) } := by
    rw [Delaunay.sortnode, List.getElem?_map, he, Option.map_some]
  refine ⟨_, hget, rfl, rfl, rfl, fun i => ?_, fun i j hij => ?_⟩
  · obtain ⟨p, h1, h2⟩ := h e (List.mem_of_getElem? he) i
    rw [h1]
    exact renumber_get d.nodes h1 h2
  · obtain ⟨p, h1, h2⟩ := h e (List.mem_of_getElem? he) i
    obtain ⟨p', h1', h2'⟩ := h e (List.mem_of_getElem? he) j
    exact renumber_inj d.nodes h1 h2 h1' h2' hij

theorem sortnode_area (d : Delaunay K) (h : CornersSet d) (e : DTri) (he : e ∈ d.elements) :
    area2 (placeOf d.sortnode.nodes) { e with nodes := fun i => renumber d.nodes (e.nodes i) } =
      area2 (placeOf d.nodes) e := by
  have key : ∀ i, placeOf d.sortnode.nodes (renumber d.nodes (e.nodes i)) = placeOf d.nodes (e.nodes i) := by
    intro i
    obtain ⟨p, h1, h2⟩ := h e he i
    have h3 : atInt d.sortnode.nodes (renumber d.nodes (e.nodes i)) = some p := renumber_get d.nodes h1 h2
    rw [placeOf, placeOf, h1, h3]
  simp only [area2, key]

/-- Neighbours, orientation and area stay. -/
theorem C99_mesh (d : Delaunay K) (h : CornersSet d) :
    total2 (placeOf d.sortnode.nodes) d.sortnode.elements = total2 (placeOf d.nodes) d.elements ∧
    (Linked d.elements → Linked d.sortnode.elements) ∧
    (Consistent d.nodes d.elements → Consistent d.sortnode.nodes d.sortnode.elements) ∧
    CornersSet d.sortnode := by
  have hmem : ∀ e' ∈ d.sortnode.elements, ∃ e ∈ d.elements,
      e' = { e with nodes := fun i => renumber d.nodes (e.nodes i) } := by
    intro e' he'
    obtain ⟨e, he, rfl⟩ := List.mem_map.1 he'
    exact ⟨e, he, rfl⟩
  have hget : ∀ t : ℕ, d.sortnode.elements[t]? =
      (d.elements[t]?).map fun e => { e with nodes := fun i => renumber d.nodes (e.nodes i) } := by
    intro t
    rw [Delaunay.sortnode, List.getElem?_map]
  have hlink : Linked d.elements → Linked d.sortnode.elements := by
    intro hl t e' he' i
    rw [hget, Option.map_eq_some_iff] at he'
    obtain ⟨e, he, rfl⟩ := he'
    rcases hl t e he i with hn | ⟨u, j, e1, f, a1, a2, a3, a4, a5, a6⟩
    · exact Or.inl hn
    · rw [he] at a1
      cases a1
      have g1 := hget t
      have g2 := hget u
      rw [he, Option.map_some] at g1
      rw [a2, Option.map_some] at g2
      exact Or.inr ⟨u, j, _, _, g1, g2, a3, a4, congrArg (renumber d.nodes) a5, congrArg (renumber d.nodes) a6⟩
  have hset : CornersSet d.sortnode := by
    intro e' he' i
    obtain ⟨e, he, rfl⟩ := hmem e' he'
    obtain ⟨p, h1, h2⟩ := h e he i
    exact ⟨p, renumber_get d.nodes h1 h2, h2⟩
  refine ⟨?_, hlink, fun hc => ⟨hlink hc.linked, ?_, ?_, ?_⟩, hset⟩
  · rw [total2, total2]
    congr 1
    rw [show d.sortnode.elements = d.elements.map fun e : DTri =>
      { e with nodes := fun i => renumber d.nodes (e.nodes i) } from rfl, List.map_map]
    exact List.map_congr_left fun e he => sortnode_area d h e he
  · intro e' he'
    obtain ⟨e, he, rfl⟩ := hmem e' he'
    rw [sortnode_area d h e he]
    exact hc.oriented e he
  · intro e' he' i
    obtain ⟨p, h1, -⟩ := hset e' he' i
    unfold atInt at h1
    split_ifs at h1 with hz
    have := (List.getElem?_eq_some_iff.1 h1).1
    omega
  · intro e' he'
    obtain ⟨e, he, rfl⟩ := hmem e' he'
    exact hc.active e he

/-! ### A case -/

/-- The nodes 1 and 3 are not set. -/
def gapMesh : Delaunay ℚ :=
  ⟨[⟨(0, 0), true, true⟩, ⟨(9, 9), false, false⟩, ⟨(2, 0), true, true⟩, ⟨(7, 7), false, false⟩,
      ⟨(2, 2), true, true⟩, ⟨(0, 2), true, true⟩],
    [⟨![0, 2, 4], ![-1, 1, -1], fun _ => false, true, true⟩, ⟨![4, 5, 0], ![-1, 0, -1], fun _ => false, true, true⟩]⟩

theorem gapMesh_set : CornersSet gapMesh := by
  have : ∀ t : ℕ, t < 2 → ∀ i : Fin 3, ((gapMesh.elements[t]?).bind fun e => (atInt gapMesh.nodes (e.nodes i)).map
      fun p => p.isset) = some true := by decide +kernel
  refine forall_mem fun s e he i => ?_
  have h := this s (lt_of_some he) i
  rw [he, Option.bind_some, Option.map_eq_some_iff] at h
  exact h

example : (gapMesh.sortnode.elements.map fun e => (e.nodes 0, e.nodes 1, e.nodes 2)) = [(0, 1, 2), (2, 3, 0)] := by
  decide +kernel

example : total2 (placeOf gapMesh.sortnode.nodes) gapMesh.sortnode.elements = 8 :=
  (C99_mesh gapMesh gapMesh_set).1.trans (by decide +kernel)

example : ∃ e', gapMesh.sortnode.elements[1]? = some e' ∧
    ∀ i, atInt gapMesh.sortnode.nodes (e'.nodes i) = atInt gapMesh.nodes ((![4, 5, 0] : Fin 3 → ℤ) i) := by
  obtain ⟨e', h1, -, -, -, h2, -⟩ := C99_corners gapMesh gapMesh_set (t := 1) rfl
  exact ⟨e', h1, h2⟩

end Pansfem
