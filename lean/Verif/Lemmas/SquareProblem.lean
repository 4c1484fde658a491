/-
Supports and loads that predicates choose among the nodes of a mesh.
-/
import Verif.Model.ProgramSquare
import Verif.Spec.ProgramSquare
import Verif.Lemmas.SquareHeld
import Verif.Props.C54_Fixedlist

noncomputable section

namespace Pansfem

theorem fixedDofs_keys (l : List ((ℕ × ℤ) × ℝ)) :
    (fixedDofs l).map Prod.fst = (l.map Prod.fst).map fun r => (r.1, r.2.toNat) := by
  simp [fixedDofs, Function.comp_def]

theorem fixedDofs_mem {nodes : List (ℝ × ℝ)} {ulist : List ℤ} {pred : ℝ × ℝ → Bool} {l : List ((ℕ × ℤ) × ℝ)}
    (hu : ∀ u ∈ ulist, 0 ≤ u) (h : Selects nodes ulist pred l) (n d : ℕ) :
    (n, d) ∈ (fixedDofs l).map Prod.fst ↔ (∃ r, nodes[n]? = some r ∧ pred r = true) ∧ (d : ℤ) ∈ ulist := by
  rw [fixedDofs_keys, List.mem_map]
  constructor
  · rintro ⟨⟨n', u⟩, h1, h2⟩
    obtain ⟨h3, h4⟩ := (h.2.1 _ _).1 h1
    simp only [Prod.mk.injEq] at h2
    obtain ⟨rfl, rfl⟩ := h2
    rw [Int.toNat_of_nonneg (hu _ h4)]
    exact ⟨h3, h4⟩
  · intro hh
    exact ⟨(n, (d : ℤ)), (h.2.1 _ _).2 hh, by simp⟩

theorem fixedDofs_nodup {nodes : List (ℝ × ℝ)} {ulist : List ℤ} {pred : ℝ × ℝ → Bool} {l : List ((ℕ × ℤ) × ℝ)}
    (hu : ∀ u ∈ ulist, 0 ≤ u) (hn : ulist.Nodup) (h : Selects nodes ulist pred l) :
    ((fixedDofs l).map Prod.fst).Nodup := by
  rw [fixedDofs_keys]
  refine List.Nodup.map_on ?_ (h.2.2 hn)
  rintro ⟨n, u⟩ h1 ⟨n', u'⟩ h2 he
  simp only [Prod.mk.injEq] at he
  have a := hu _ ((h.2.1 _ _).1 h1).2
  have b := hu _ ((h.2.1 _ _).1 h2).2
  exact Prod.ext he.1 (by have := he.2; simp only at a b ⊢; omega)

theorem nodalLoad_setLoads (v : ℝ) (l : List ((ℕ × ℕ) × ℝ)) (n d : ℕ) :
    nodalLoad (setLoads v l) n d = ((l.map Prod.fst).count (n, d) : ℝ) * v := by
  unfold nodalLoad setLoads
  induction l with
  | nil => simp
  | cons r l ih =>
    rw [List.map_cons, List.filter_cons, List.map_cons, List.count_cons]
    by_cases h : r.1 = (n, d)
    · simp only [h, decide_true, if_true, List.map_cons, List.sum_cons, ih, beq_self_eq_true, Nat.cast_add, Nat.cast_one]
      ring
    · simp [h, ih]

/-- What supports and loads chosen by predicates are. -/
theorem chosen_supports {nodes : List (ℝ × ℝ)} {held loaded : ℝ × ℝ → Bool} {us qs : List ((ℕ × ℤ) × ℝ)}
    (s1 : Selects nodes [0, 1] held us) (s2 : Selects nodes [1] loaded qs) (v : ℝ) :
    (∀ r ∈ fixedDofs us, r.2 = 0) ∧ (∀ r ∈ setLoads v (fixedDofs qs), r.2 = v) ∧
      (∀ n d, (n, d) ∈ (fixedDofs us).map Prod.fst ↔ n < (asVectors nodes).length ∧ d < 2 ∧
        held (coord (asVectors nodes) n 0, coord (asVectors nodes) n 1) = true) ∧
      (∀ n d, nodalLoad (setLoads v (fixedDofs qs)) n d = if n < (asVectors nodes).length ∧ d = 1 ∧
        loaded (coord (asVectors nodes) n 0, coord (asVectors nodes) n 1) = true then v else 0) ∧
      ∀ r ∈ setLoads v (fixedDofs qs), r.1.1 < (asVectors nodes).length ∧ r.1.2 < 2 := by
  have node : ∀ (pred : ℝ × ℝ → Bool) (n : ℕ), (∃ r, nodes[n]? = some r ∧ pred r = true) ↔
      n < (asVectors nodes).length ∧ pred (coord (asVectors nodes) n 0, coord (asVectors nodes) n 1) = true := by
    intro pred n
    rw [show (asVectors nodes).length = nodes.length by simp [asVectors]]
    constructor
    · rintro ⟨r, hr, hp⟩
      obtain ⟨c1, c2⟩ := coord_asVectors hr
      exact ⟨(List.getElem?_eq_some_iff.1 hr).1, by rw [c1, c2]; exact hp⟩
    · rintro ⟨hn, hp⟩
      obtain ⟨c1, c2⟩ := coord_asVectors (List.getElem?_eq_getElem hn)
      rw [c1, c2] at hp
      exact ⟨_, List.getElem?_eq_getElem hn, hp⟩
  have keys : ∀ n d, (n, d) ∈ (fixedDofs us).map Prod.fst ↔ n < (asVectors nodes).length ∧ d < 2 ∧
      held (coord (asVectors nodes) n 0, coord (asVectors nodes) n 1) = true := by
    intro n d
    rw [fixedDofs_mem (by decide) s1, node]
    have : (d : ℤ) ∈ ([0, 1] : List ℤ) ↔ d < 2 := by
      simp only [List.mem_cons, List.not_mem_nil, or_false]; omega
    rw [this]
    tauto
  have lkeys : ∀ n d, (n, d) ∈ (fixedDofs qs).map Prod.fst ↔ n < (asVectors nodes).length ∧ d = 1 ∧
      loaded (coord (asVectors nodes) n 0, coord (asVectors nodes) n 1) = true := by
    intro n d
    rw [fixedDofs_mem (by decide) s2, node]
    have : (d : ℤ) ∈ ([1] : List ℤ) ↔ d = 1 := by
      simp only [List.mem_cons, List.not_mem_nil, or_false]; omega
    rw [this]
    tauto
  refine ⟨?_, ?_, keys, ?_, ?_⟩
  · intro r hr
    obtain ⟨r', hr', rfl⟩ := List.mem_map.1 hr
    exact s1.1 r' hr'
  · intro r hr
    obtain ⟨r', hr', rfl⟩ := List.mem_map.1 hr
    rfl
  · intro n d
    rw [nodalLoad_setLoads, List.Nodup.count (fixedDofs_nodup (by decide) (by decide) s2)]
    simp only [lkeys]
    split_ifs <;> simp
  · intro r hr
    obtain ⟨r', hr', rfl⟩ := List.mem_map.1 hr
    obtain ⟨h3, h4, -⟩ := (lkeys r'.1.1 r'.1.2).1 (List.mem_map_of_mem hr')
    exact ⟨h3, by simp only; omega⟩

end Pansfem
