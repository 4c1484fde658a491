/-
C54 for the Delaunay mesher (Delaunay.h:773-786), whose nodes come from refinement and smoothing.
-/
import Verif.Model.Delaunay
import Verif.Props.C54_Fixedlist

namespace Pansfem

/-- The Delaunay mesher selects the nodes that `GenerateNodes` returns. -/
theorem C54_delaunay {K : Type} [Zero K] (d : Delaunay K) {ulist : List ℤ} (h : ulist ≠ []) (h0 : ∀ u ∈ ulist, 0 ≤ u)
    (pred : K × K → Bool) : ∃ l, d.generateFixedlist ulist pred = some l ∧ Selects d.generateNodes ulist pred l := by
  refine ⟨_, by rw [Delaunay.generateFixedlist, dofsOk_true h h0, if_neg (by decide)], ?_⟩
  have hw : (d.nodes.mapIdx (fun i p => fixedAt ulist pred (i, p.x))).flatten =
      (d.nodes.mapIdx fun i p => (i, p.x)).flatMap (fixedAt ulist pred) := by
    rw [List.flatMap]
    congr 1
    refine List.ext_getElem (by simp) fun i h1 h2 => ?_
    simp
  have h1 : (d.nodes.mapIdx fun i p => (i, p.x)).map Prod.fst = List.range d.nodes.length := by
    refine List.ext_getElem (by simp) fun i h1 h2 => ?_
    simp
  rw [hw]
  refine selects_of ?_ ?_ ulist pred
  · rw [h1]
    exact List.nodup_range
  · intro n p
    rw [mem_seq h1]
    have : (d.nodes.mapIdx fun i p => (i, p.x)).map Prod.snd = d.generateNodes := by
      refine List.ext_getElem (by simp [Delaunay.generateNodes]) fun i h1 h2 => ?_
      simp [Delaunay.generateNodes]
    rw [this]

/-- Out of range: a negative number or no number at all. -/
theorem C54_delaunay_assert {K : Type} [Zero K] (d : Delaunay K) {ulist : List ℤ} (h : ulist = [] ∨ ∃ u ∈ ulist, u < 0)
    (pred : K × K → Bool) : d.generateFixedlist ulist pred = none := by
  have : dofsOk ulist = false := by
    rw [dofsOk, Bool.and_eq_false_iff]
    rcases h with rfl | ⟨u, hu, h⟩
    · exact Or.inl rfl
    · right
      rw [List.all_eq_false]
      exact ⟨u, hu, by simpa using h⟩
  rw [Delaunay.generateFixedlist, if_pos this]

example : (Delaunay.mk (K := ℤ) ([(0, 0), (2, 0), (0, 3)].map DNode.fresh) []).generateFixedlist [1, 0]
    (fun p => p.1 == 0) = some [((0, 1), 0), ((0, 0), 0), ((2, 1), 0), ((2, 0), 0)] := by decide

example : ∃ l, (Delaunay.mk (K := ℤ) ([(0, 0), (2, 0), (0, 3)].map DNode.fresh) []).generateFixedlist [1, 0]
    (fun p => p.1 == 0) = some l ∧ Selects [(0, 0), (2, 0), (0, 3)] [1, 0] (fun p => p.1 == 0) l :=
  C54_delaunay _ (by decide) (by decide) _

end Pansfem
