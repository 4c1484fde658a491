/-
C98: `sortelement` (Delaunay.h:419-434) computes the neighbours.

If no side occurs twice in the same direction, then afterwards an element has a neighbour at a side exactly
if another element has this side in the other direction; that element is the neighbour, and the neighbour
relation is symmetric.  Nothing else changes.
-/
import Verif.Lemmas.DelaunaySmooth
import Verif.Props.C59_Delaunay

namespace Pansfem

set_option linter.unusedSectionVars false

variable {K : Type} [Field K] [LinearOrder K] [IsStrictOrderedRing K]

/-- Every side, with its direction, belongs to one element. -/
def SidesOnce (els : List DTri) : Prop :=
  ∀ (t u : ℕ) (e f : DTri) (i j : Fin 3), els[t]? = some e → els[u]? = some f →
    e.nodes (i + 1) = f.nodes (j + 1) → e.nodes (i + 2) = f.nodes (j + 2) → t = u ∧ i = j

/-- The side `i` of `t` is the side `j` of `u` in the other direction. -/
def Opposite (els : List DTri) (t : ℕ) (i : Fin 3) (u : ℕ) (j : Fin 3) : Prop :=
  ∃ e f, els[t]? = some e ∧ els[u]? = some f ∧ f.nodes (j + 1) = e.nodes (i + 2) ∧
    f.nodes (j + 2) = e.nodes (i + 1)

/-- The test of the code, for all three cases. -/
theorem sideOf_iff (e f : DTri) (i : Fin 3) :
    sideOf e f i = true ↔ ∃ j, f.nodes (j + 1) = e.nodes (i + 2) ∧ f.nodes (j + 2) = e.nodes (i + 1) := by
  unfold sideOf
  rw [decide_eq_true_eq]
  constructor
  · rintro (⟨h1, h2⟩ | ⟨h1, h2⟩ | ⟨h1, h2⟩)
    · exact ⟨1, h2.symm, h1.symm⟩
    · exact ⟨2, h2.symm, h1.symm⟩
    · exact ⟨0, h2.symm, h1.symm⟩
  · rintro ⟨j, h1, h2⟩
    rcases fin3_cases j 0 with rfl | rfl | rfl
    · exact Or.inr (Or.inr ⟨h2.symm, h1.symm⟩)
    · exact Or.inl ⟨h2.symm, h1.symm⟩
    · exact Or.inr (Or.inl ⟨h2.symm, h1.symm⟩)

theorem sortelement_get (d : Delaunay K) (t : ℕ) : d.sortelement.elements[t]? =
    (d.elements[t]?).map fun e => { e with neighbors := fun j => firstAcross d.elements t e j } := by
  unfold Delaunay.sortelement
  rw [List.getElem?_mapIdx]

/-- The neighbour that is found. -/
theorem firstAcross_eq {els : List DTri} (hs : SidesOnce els) {t u : ℕ} {e : DTri} {i j : Fin 3}
    (he : els[t]? = some e) (h : Opposite els t i u j) (hne : t ≠ u) : firstAcross els t e i = u := by
  obtain ⟨e1, f, h1, h2, h3, h4⟩ := h
  rw [he] at h1
  cases h1
  have hsome : ((List.range els.length).find? fun k : ℕ => t ≠ k ∧ ∃ f ∈ els[k]?, sideOf e f i = true).isSome := by
    rw [List.find?_isSome]
    refine ⟨u, List.mem_range.2 (lt_of_some h2), ?_⟩
    rw [decide_eq_true_eq]
    exact ⟨hne, f, h2, (sideOf_iff e f i).2 ⟨j, h3, h4⟩⟩
  obtain ⟨k, hk⟩ := Option.isSome_iff_exists.1 hsome
  have hk' := List.find?_some hk
  rw [decide_eq_true_eq] at hk'
  obtain ⟨-, g, hg, hside⟩ := hk'
  obtain ⟨l, l1, l2⟩ := (sideOf_iff e g i).1 hside
  have := hs k u g f l j hg h2 (l1.trans h3.symm) (l2.trans h4.symm)
  rw [firstAcross, hk, this.1]

theorem firstAcross_none {els : List DTri} {t : ℕ} {e : DTri} {i : Fin 3} (he : els[t]? = some e)
    (h : ∀ u j, t ≠ u → ¬Opposite els t i u j) : firstAcross els t e i = -1 := by
  unfold firstAcross
  cases hk : (List.range els.length).find? fun k : ℕ => t ≠ k ∧ ∃ f ∈ els[k]?, sideOf e f i = true with
  | none => rfl
  | some k =>
    have hk' := List.find?_some hk
    rw [decide_eq_true_eq] at hk'
    obtain ⟨h0, g, hg, hside⟩ := hk'
    obtain ⟨l, l1, l2⟩ := (sideOf_iff e g i).1 hside
    exact absurd ⟨e, g, he, hg, l1, l2⟩ (h k l h0)

/-- Everything but the neighbours stays. -/
theorem C98_same (d : Delaunay K) : d.sortelement.nodes = d.nodes ∧
    d.sortelement.elements.length = d.elements.length ∧
    ∀ (t : ℕ) (e : DTri), d.elements[t]? = some e → ∃ e', d.sortelement.elements[t]? = some e' ∧
      e'.nodes = e.nodes ∧ e'.sides = e.sides ∧ e'.active = e.active ∧ e'.check = e.check := by
  refine ⟨rfl, by simp [Delaunay.sortelement], fun t e he => ?_⟩
  rw [sortelement_get, he]
  exact ⟨_, rfl, rfl, rfl, rfl, rfl⟩

/-- The neighbour at a side is the element with that side in the other direction, `-1` if there is none. -/
theorem C98_neighbor (d : Delaunay K) (hs : SidesOnce d.elements) {t : ℕ} {e : DTri}
    (he : d.sortelement.elements[t]? = some e) (i : Fin 3) :
    (∀ u j, t ≠ u → Opposite d.elements t i u j → e.neighbors i = u) ∧
      ((∀ u j, t ≠ u → ¬Opposite d.elements t i u j) → e.neighbors i = -1) := by
  rw [sortelement_get, Option.map_eq_some_iff] at he
  obtain ⟨e0, h0, rfl⟩ := he
  exact ⟨fun u j hne h => firstAcross_eq hs h0 h hne, fun h => firstAcross_none h0 h⟩

/-- The neighbour relation is symmetric afterwards. -/
theorem C98_linked (d : Delaunay K) (hs : SidesOnce d.elements) : Linked d.sortelement.elements := by
  intro t e he i
  rw [sortelement_get, Option.map_eq_some_iff] at he
  obtain ⟨e0, h0, rfl⟩ := he
  by_cases h : ∃ u j, t ≠ u ∧ Opposite d.elements t i u j
  · obtain ⟨u, j, hne, ho⟩ := h
    right
    obtain ⟨e1, f, h1, h2, h3, h4⟩ := id ho
    rw [h0] at h1
    cases h1
    have hback : Opposite d.elements u j t i := ⟨f, e0, h2, h0, h4.symm, h3.symm⟩
    have g1 := sortelement_get d t
    have g2 := sortelement_get d u
    rw [h0, Option.map_some] at g1
    rw [h2, Option.map_some] at g2
    refine ⟨u, j, _, _, g1, g2, ?_, ?_, h3, h4⟩
    · exact firstAcross_eq hs h0 ho hne
    · exact firstAcross_eq hs h2 hback hne.symm
  · push Not at h
    exact Or.inl (firstAcross_none h0 fun u j hne => h u j hne)

/-- The neighbours of a triangulation are found again. -/
theorem C98_again (d : Delaunay K) (hs : SidesOnce d.elements) {t : ℕ} {e : DTri} {i : Fin 3}
    {u : ℕ} {j : Fin 3} (hg : Glued d.elements t i u j) (hne : t ≠ u) (he : d.sortelement.elements[t]? = some e) :
    e.neighbors i = u := by
  obtain ⟨e0, f, h1, h2, -, -, h5, h6⟩ := hg
  exact (C98_neighbor d hs he i).1 u j hne ⟨e0, f, h1, h2, h5, h6⟩

/-- After the removal of elements (Delaunay.h:262-266) the sides still occur once. -/
theorem C98_delete (d : Delaunay K) (hs : SidesOnce d.elements) : Linked d.deleteelement.sortelement.elements := by
  refine C98_linked _ ?_
  have hsub : ∀ {l : List DTri} {p : DTri → Bool}, SidesOnce l → SidesOnce (l.filter p) := by
    intro l p h t u e f i j ht hu h1 h2
    have hlt := List.sublist_iff_exists_fin_orderEmbedding_get_eq.1 (List.filter_sublist (p := p) (l := l))
    obtain ⟨g, hg⟩ := hlt
    obtain ⟨t1, t2⟩ := List.getElem?_eq_some_iff.1 ht
    obtain ⟨u1, u2⟩ := List.getElem?_eq_some_iff.1 hu
    have a1 := hg ⟨t, t1⟩
    have a2 := hg ⟨u, u1⟩
    simp only [List.get_eq_getElem] at a1 a2
    have := h (g ⟨t, t1⟩) (g ⟨u, u1⟩) e f i j
      (by rw [List.getElem?_eq_getElem (g ⟨t, t1⟩).2, ← a1, t2])
      (by rw [List.getElem?_eq_getElem (g ⟨u, u1⟩).2, ← a2, u2]) h1 h2
    refine ⟨?_, this.2⟩
    have hgg : g ⟨t, t1⟩ = g ⟨u, u1⟩ := Fin.ext this.1
    have := g.injective hgg
    simpa using this
  exact hsub hs

/-! ### A case -/

/-- Two triangles, their neighbours not known, and a third one that will be removed. -/
def looseMesh : Delaunay ℚ :=
  ⟨[(0, 0), (2, 0), (2, 2), (0, 2), (4, 4)].map DNode.fresh,
    [⟨![0, 1, 2], ![7, 7, 7], fun _ => false, true, true⟩,
     ⟨![1, 4, 2], ![7, 7, 7], fun _ => false, false, true⟩,
     ⟨![2, 3, 0], ![7, 7, 7], fun _ => false, true, true⟩]⟩

theorem looseMesh_once : SidesOnce looseMesh.elements := by
  intro t u e f i j he hf h1 h2
  have : ∀ t : ℕ, t < 3 → ∀ u : ℕ, u < 3 → ∀ i j : Fin 3,
      ((looseMesh.elements[t]?).map fun e => (e.nodes (i + 1), e.nodes (i + 2))) =
        ((looseMesh.elements[u]?).map fun e => (e.nodes (j + 1), e.nodes (j + 2))) → t = u ∧ i = j := by
    decide +kernel
  exact this t (lt_of_some he) u (lt_of_some hf) i j (by rw [he, hf]; simp [h1, h2])

example : Linked looseMesh.deleteelement.sortelement.elements := C98_delete _ looseMesh_once

example : (looseMesh.deleteelement.sortelement.elements.map fun e => (e.neighbors 0, e.neighbors 1, e.neighbors 2)) =
    [(-1, 1, -1), (-1, 0, -1)] := by decide +kernel

example : ∀ e, looseMesh.sortelement.elements[0]? = some e → e.neighbors 0 = 1 := fun e he =>
  (C98_neighbor looseMesh looseMesh_once he 0).1 1 1 (by decide) ⟨_, _, rfl, rfl, rfl, rfl⟩

end Pansfem
