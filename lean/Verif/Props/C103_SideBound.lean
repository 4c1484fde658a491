/-
C103: the bound on the length of the sides (Delaunay.h:681-703).

`makefinemesh` should refine until no side is longer than `_maxside`.  The search finds a longest side of the
active elements (`C103_longest`), and no refinement makes the longest side longer (`C103_refine`).  But the
loop looks at the longest side from before the last refinement and smoothing, and the smoothing may make
sides longer: a pentagon is left with a side longer than the bound (`C103_false`).  What holds is that all
sides are within the bound before the last smoothing (`C103_exit_partial`).
-/
import Verif.Lemmas.DelaunayShort
import Verif.Props.C102_BoundaryMarks

namespace Pansfem

set_option linter.unusedSectionVars false

variable {K : Type} [Field K] [LinearOrder K] [IsStrictOrderedRing K]

/-- The search for the longest side (Delaunay.h:686-696): its result is the length of a side of an active
element and no side of an active element is longer. -/
theorem C103_longest (d : Delaunay K) (hi : ∀ e ∈ d.elements, ∀ i, 0 ≤ e.nodes i ∧ e.nodes i < d.nodes.length)
    (ha : ∃ e ∈ d.elements, e.active = true ∧ 0 < area2 (placeOf d.nodes) e) :
    ∃ c t k e, longest d = some (c, t, k) ∧ d.elements[t]? = some e ∧ e.active = true ∧
      c = distSq (placeOf d.nodes (e.nodes (k + 1))) (placeOf d.nodes (e.nodes (k + 2))) ∧
      ∀ e ∈ d.elements, e.active = true → ∀ k : Fin 3,
        distSq (placeOf d.nodes (e.nodes (k + 1))) (placeOf d.nodes (e.nodes (k + 2))) ≤ c := by
  obtain ⟨⟨c, t, k⟩, h1, h2⟩ := longest_spec hi
  have most : ∀ e ∈ d.elements, e.active = true → ∀ k : Fin 3,
      distSq (placeOf d.nodes (e.nodes (k + 1))) (placeOf d.nodes (e.nodes (k + 2))) ≤ c := by
    intro e he hact k
    obtain ⟨s, hs⟩ := List.mem_iff_getElem?.1 he
    exact h2.most s e k hs trivial hact
  rcases h2.hit with h | ⟨e, h3, -, h4, h5⟩
  · exfalso
    cases h
    obtain ⟨e, he, hact, hpos⟩ := ha
    have hz : ∀ k : Fin 3, placeOf d.nodes (e.nodes (k + 1)) = placeOf d.nodes (e.nodes (k + 2)) := by
      intro k
      have h0 := most e he hact k
      unfold distSq at h0
      have h1 := sq_nonneg ((placeOf d.nodes (e.nodes (k + 1))).1 - (placeOf d.nodes (e.nodes (k + 2))).1)
      have h2 := sq_nonneg ((placeOf d.nodes (e.nodes (k + 1))).2 - (placeOf d.nodes (e.nodes (k + 2))).2)
      refine Prod.ext ?_ ?_
      · exact sub_eq_zero.1 (pow_eq_zero_iff (two_ne_zero) |>.1 (le_antisymm (by linarith) h1))
      · exact sub_eq_zero.1 (pow_eq_zero_iff (two_ne_zero) |>.1 (le_antisymm (by linarith) h2))
    have h0 : placeOf d.nodes (e.nodes 1) = placeOf d.nodes (e.nodes 2) := hz 0
    rw [area2, h0] at hpos
    simp [vecpro, mul_comm] at hpos
  · exact ⟨c, t, k, e, h1, h3, h4, h5, most⟩

/-- No refinement (Delaunay.h:699-700) makes the longest side longer. -/
theorem C103_refine (d : Delaunay K) (hc : Consistent d.nodes d.elements) {t : ℕ} {e : DTri}
    (he : d.elements[t]? = some e) (k : Fin 3) {rounds : ℕ} {d' : Delaunay K} (h : d.refine rounds t k = some d')
    {c : K} (hs : Short (placeOf d.nodes) c d.elements) : Short (placeOf d'.nodes) c d'.elements := by
  have ie := hc.indices e (List.mem_of_getElem? he)
  obtain ⟨a, ha, ha'⟩ := atInt_some (ie (k + 1)).1 (ie (k + 1)).2
  obtain ⟨b, hb, hb'⟩ := atInt_some (ie (k + 2)).1 (ie (k + 2)).2
  let p : DNode K := DNode.fresh (1 / 2 * (a.x.1 + b.x.1), 1 / 2 * (a.x.2 + b.x.2))
  let d1 : Delaunay K := { d with nodes := d.nodes ++ [p] }
  obtain ⟨hc1, -⟩ := hc.congr (nodes' := d1.nodes) (fun z z0 z1 => place_append _ p z0 z1) (by simp [d1])
  have hon : OnSegment (placeOf d1.nodes (e.nodes (k + 1))) (placeOf d1.nodes (e.nodes (k + 2)))
      (placeOf d1.nodes d.nodes.length) := by
    refine ⟨1 / 2, by norm_num, by norm_num, ?_⟩
    rw [place_append _ p (ie _).1 (ie _).2, place_append _ p (ie _).1 (ie _).2, place_last, ← ha', ← hb']
    simp only [p, DNode.fresh, Prod.mk.injEq]
    constructor <;> ring
  have hm := markBoundary_last d.nodes p rfl (e.sides k)
  unfold Delaunay.refine at h
  rw [he] at h
  simp only [bind, Option.bind, ha, hb] at h
  refine getelementon_short (d := d1) hc1 he (by simp [d1]) k hon (by decide) (by decide) hm h ?_
  intro g hg i
  have ig := hc.indices g hg
  rw [place_append _ p (ig _).1 (ig _).2, place_append _ p (ig _).1 (ig _).2]
  exact hs g hg i

theorem longer_false {m bound : K} (h0 : 0 ≤ bound) (h : longer m bound = false) : m ≤ bound ^ 2 := by
  unfold longer at h
  rw [decide_eq_false_iff_not, not_lt, abs_of_nonneg h0] at h
  rw [pow_two]
  exact h

/-- When the loop ends, all sides were within the bound before the last refinement and before the last
smoothing.  Missing: the same after the last smoothing. -/
theorem C103_exit_partial {strict : Prop} (bound : K) (h0 : 0 ≤ bound) (N : ℕ) (d : Delaunay K)
    (hd : BoundaryMarked strict d) (hne : d.elements ≠ []) {rounds : ℕ}
    (hr : 2 * (d.elements.length + 2 * N) + 8 ≤ rounds)
    (ho : ∀ n d1, n ≤ N → FineRun rounds n d d1 → Oriented (placeOf d1.nodes) d1.elements) {d' : Delaunay K}
    (h : d.makefinemesh rounds bound N = some d') :
    ∃ n d1 m d2, FineRun rounds n d d1 ∧ longest d1 = some m ∧ d1.refine rounds m.2.1 m.2.2 = some d2 ∧
      d2.laplacesmoothing rounds = some d' ∧ Short (placeOf d1.nodes) (bound ^ 2) d1.elements ∧
      Short (placeOf d2.nodes) (bound ^ 2) d2.elements := by
  rcases C102_loop bound N d hd hne hr ho with ⟨n, d1, m, d2, -, h2, ⟨h3, x, h4, h5⟩, h6, h7, h8, -⟩ | ⟨h1, -⟩
  · rw [h] at h7
    cases h7
    have hm := longer_false h0 h6
    obtain ⟨m', a1, a2⟩ := longest_spec h8.consistent.indices
    rw [h3] at a1
    cases a1
    have hs : Short (placeOf d1.nodes) (bound ^ 2) d1.elements := by
      intro e he i
      obtain ⟨s, hs⟩ := List.mem_iff_getElem?.1 he
      exact (a2.most s e i hs trivial (h8.consistent.active e he)).trans hm
    have hne1 : d1.elements ≠ [] := by
      intro h0
      unfold Delaunay.refine at h4
      rw [h0] at h4
      simp at h4
    obtain ⟨m', e, b1, b2⟩ := longest_exists h8.consistent hne1
    rw [h3] at b1
    cases b1
    exact ⟨n, d1, m, x, h2, h3, h4, h5, hs, C103_refine d1 h8.consistent b2 m.2.2 h4 hs⟩
  · rw [h] at h1
    cases h1

instance (pos : ℤ → ℚ × ℚ) (c : ℚ) (els : List DTri) : Decidable (Short pos c els) := by
  unfold Short
  infer_instance

/-- The pentagon with the bound 6.5 (its square is 42.25): two rounds, and a side with the squared length
42.4 is left. -/
theorem C103_false : ¬∀ (d : Delaunay ℚ) (bound : ℚ) (rounds n : ℕ) (d' : Delaunay ℚ), 0 ≤ bound →
    BoundaryMarked True d → 2 * (d.elements.length + 2 * n) + 8 ≤ rounds → d.makefinemesh rounds bound n = some d' →
    Short (placeOf d'.nodes) (bound ^ 2) d'.elements := by
  intro h
  have hc : ((pentagon.makefinemesh 22 (13 / 2) 2).map fun d' =>
      decide (Short (placeOf d'.nodes) ((13 / 2) ^ 2) d'.elements)) = some false := by decide +kernel
  obtain ⟨d', hd, hf⟩ := Option.map_eq_some_iff.1 hc
  exact (decide_eq_false_iff_not.1 hf) (h pentagon (13 / 2) 22 2 d' (by norm_num) pentagon_marked (by decide) hd)

example : ∃ c t k, longest pentagon = some (c, t, k) ∧ ∀ e ∈ pentagon.elements, ∀ k : Fin 3,
    distSq (placeOf pentagon.nodes (e.nodes (k + 1))) (placeOf pentagon.nodes (e.nodes (k + 2))) ≤ c := by
  obtain ⟨c, t, k, -, h1, -, -, -, h5⟩ := C103_longest pentagon pentagon_marked.consistent.indices
    ⟨_, List.mem_cons_self, rfl, by decide +kernel⟩
  exact ⟨c, t, k, h1, fun e he => h5 e he (pentagon_marked.consistent.active e he)⟩

example (d' : Delaunay ℚ) (h : pentagon.refine 14 1 1 = some d') : Short (placeOf d'.nodes) 160 d'.elements := by
  refine C103_refine pentagon pentagon_marked.consistent (t := 1) rfl 1 h ?_
  have : ∀ e ∈ pentagon.elements, ∀ k : Fin 3,
      distSq (placeOf pentagon.nodes (e.nodes (k + 1))) (placeOf pentagon.nodes (e.nodes (k + 2))) ≤ 160 := by
    decide +kernel
  exact this

example : ∃ n d1 m d2, FineRun 22 n pentagon d1 ∧ longest d1 = some m ∧ d1.refine 22 m.2.1 m.2.2 = some d2 ∧
    Short (placeOf d2.nodes) ((13 / 2) ^ 2) d2.elements := by
  have : (pentagon.makefinemesh 22 (13 / 2) 2).isSome = true := by decide +kernel
  obtain ⟨d', hd⟩ := Option.isSome_iff_exists.1 this
  obtain ⟨n, d1, m, d2, h1, h2, h3, -, -, h6⟩ := C103_exit_partial (13 / 2) (by norm_num) 2 pentagon pentagon_marked
    (by decide) (rounds := 22) (by decide) pentagon_run hd
  exact ⟨n, d1, m, d2, h1, h2, h3, h6⟩

end Pansfem
