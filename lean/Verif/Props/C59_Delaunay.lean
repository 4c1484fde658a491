/-
C59: insertions and swaps of the Delaunay mesher keep the neighbour relation symmetric, all numbers valid
and the total area (/repo/src/PrePost/Mesher/Delaunay.h:463-678).

From a consistent triangulation every insertion and every single swap does so (`C59_in`, `C59_on`,
`C59_swap`), over all histories of insertions and swaps that leave counterclockwise elements
(`C59_history_partial`).  `swapping` also swaps sides that it wants out of the way of the boundary without
a look at the geometry.  As soon as such a swap turns an element over, the triangulation is no longer
consistent, and the next steps break the neighbour relation: `C59_false`.
-/
import Verif.Lemmas.DelaunayInsert
import Mathlib.Logic.Relation
import Mathlib.Data.Rat.Defs
import Mathlib.Tactic.NormNum

namespace Pansfem

variable {K : Type} [Field K] [LinearOrder K] [IsStrictOrderedRing K]

/-- The point `q` is on the open segment from `a` to `b`. -/
def OnSegment (a b q : K × K) : Prop :=
  ∃ r : K, 0 < r ∧ r < 1 ∧ q = ((1 - r) * a.1 + r * b.1, (1 - r) * a.2 + r * b.2)

/-- Two triangulations of the same size and area. -/
def KeepsMesh (d d' : Delaunay K) : Prop :=
  Consistent d'.nodes d'.elements ∧ total2 (placeOf d'.nodes) d'.elements = total2 (placeOf d.nodes) d.elements

/-- **One swap** (Delaunay.h:646-673), of any side that `swapping` looks at: the neighbour relation stays
symmetric, the numbers valid and the area the same.  If the two new elements are counterclockwise, the
triangulation stays consistent. -/
theorem C59_swap {nodes : List (DNode K)} {els : List DTri} (hc : Consistent nodes els) {now nei : ℕ}
    {e f : DTri} {j : Fin 3} (he : els[now]? = some e) (hf : els[nei]? = some f)
    (hg : Glued els now 0 nei j) (p1 m1 : ℤ) :
    ∃ els', swapAt els p1 m1 now nei j = some els' ∧ Linked els' ∧
      (∀ e ∈ els', ∀ i, 0 ≤ e.nodes i ∧ e.nodes i < nodes.length) ∧
      total2 (placeOf nodes) els' = total2 (placeOf nodes) els ∧
      (0 < vecpro (placeOf nodes (e.nodes 0)) (placeOf nodes (e.nodes 1)) (placeOf nodes (f.nodes j)) →
        0 < vecpro (placeOf nodes (e.nodes 0)) (placeOf nodes (f.nodes j)) (placeOf nodes (e.nodes 2)) →
        Consistent nodes els') := by
  obtain ⟨els', h1, h2, h3, h4, h5, -⟩ := swap_step hc he hf hg p1 m1
  refine ⟨els', h1, h2, h3, h4, fun q1 q2 => h5 q1 ?_⟩
  obtain ⟨e2, f2, d1, d2, -, -, d5, -⟩ := id hg
  rw [he] at d1
  rw [hf] at d2
  cases d1; cases d2
  rw [d5, ← vecpro_rot]
  exact q2

theorem between_on {a b c q : K × K} (hA : 0 < vecpro a b c) (h : OnSegment a b q) :
    vecpro a b q = 0 ∧ 0 < vecpro b c q ∧ 0 < vecpro c a q := by
  obtain ⟨r, h0, h1, rfl⟩ := h
  have h1' : 0 < 1 - r := by linarith
  refine ⟨by unfold vecpro; ring, ?_, ?_⟩
  · have : vecpro b c ((1 - r) * a.1 + r * b.1, (1 - r) * a.2 + r * b.2) = (1 - r) * vecpro a b c := by
      unfold vecpro; ring
    rw [this]; positivity
  · have : vecpro c a ((1 - r) * a.1 + r * b.1, (1 - r) * a.2 + r * b.2) = r * vecpro a b c := by
      unfold vecpro; ring
    rw [this]; positivity

/-- **Insertion into an element**, with the swaps that follow: it ends, and the triangulation is
consistent with the same area -- or the loop comes, in a consistent triangulation, to a swap for the
boundary that turns an element over. -/
theorem C59_in (d : Delaunay K) (hc : Consistent d.nodes d.elements) {now : ℕ} {e : DTri}
    (he : d.elements[now]? = some e) {q : ℤ} (hq : 0 ≤ q ∧ q < d.nodes.length)
    (hin : e.inouton q d.nodes = some 0) (p1 m1 : ℤ) {rounds : ℕ}
    (hr : 2 * d.elements.length + 7 ≤ rounds) :
    (∃ d', d.getelementin rounds now p1 q m1 = some d' ∧ KeepsMesh d d') ∨
    ∃ els t n s, d.getelementin rounds now p1 q m1 =
        (swapping d.nodes p1 m1 n (t :: s) els).map (fun els => ⟨d.nodes, els⟩) ∧
      Consistent d.nodes els ∧ total2 (placeOf d.nodes) els = total2 (placeOf d.nodes) d.elements ∧
      NodesOr q d.elements els ∧ ForcedSwap d.nodes p1 m1 t els := by
  have ie := hc.indices e (List.mem_of_getElem? he)
  rw [inouton_eq ie hq, Option.some.injEq] at hin
  obtain ⟨a0, a1, a2⟩ := inouton_zero (hc.oriented.at he) hin
  obtain ⟨els', h1, hlen, h2⟩ := in_step hc he hq a0 a1 a2 p1 m1
  unfold Delaunay.getelementin
  rw [h1]
  rcases h2.swaps p1 m1 (rounds := rounds) (by simp only [List.length_cons, List.length_nil]; omega) with
    ⟨els'', r1, r2, r3, -⟩ | ⟨els'', t, n, s, r1, r2, r3, -, r5, r6⟩
  · exact Or.inl ⟨⟨d.nodes, els''⟩, by simp [r1], r2, r3⟩
  · exact Or.inr ⟨els'', t, n, s, by
      simp only [bind, Option.bind, r1]
      cases swapping d.nodes p1 m1 n (t :: s) els'' <;> rfl, r2, r3, r5, r6⟩

/-- **Insertion on a side**, with the swaps that follow. -/
theorem C59_on (d : Delaunay K) (hc : Consistent d.nodes d.elements) {now : ℕ} {e : DTri}
    (he : d.elements[now]? = some e) {q : ℤ} (hq : 0 ≤ q ∧ q < d.nodes.length) (k : Fin 3)
    (hon : OnSegment (placeOf d.nodes (e.nodes (k + 1))) (placeOf d.nodes (e.nodes (k + 2))) (placeOf d.nodes q))
    (p1 m1 : ℤ) {rounds : ℕ} (hr : 2 * d.elements.length + 8 ≤ rounds) :
    (∃ d', d.getelementon rounds now k p1 q m1 = some d' ∧ KeepsMesh d d' ∧
      (∀ z, placeOf d'.nodes z = placeOf d.nodes z) ∧ d'.nodes.length = d.nodes.length) ∨
    ∃ nodes els t n s, d.getelementon rounds now k p1 q m1 =
        (swapping nodes p1 m1 n (t :: s) els).map (fun els => ⟨nodes, els⟩) ∧
      Consistent nodes els ∧ total2 (placeOf nodes) els = total2 (placeOf d.nodes) d.elements ∧
      NodesOr q d.elements els ∧ ForcedSwap nodes p1 m1 t els := by
  have hA := hc.oriented.at he
  rw [area2_rot _ e k, vecpro_rot] at hA
  obtain ⟨z0, z1, z2⟩ := between_on hA hon
  obtain ⟨nodes, n1, n2, n3⟩ := markBoundary_spec hq (e.sides k)
  obtain ⟨hc', ht⟩ := hc.congr (nodes' := nodes) (fun z _ _ => n2 z) n3.ge
  have hq' : 0 ≤ q ∧ q < nodes.length := by rw [n3]; exact hq
  rw [← n2, ← n2, ← n2] at z0 z1 z2
  unfold Delaunay.getelementon
  rw [he]
  simp only [bind, Option.bind, n1, pure]
  by_cases hk : e.neighbors k = -1
  · rw [if_pos hk]
    obtain ⟨els', h1, hlen, h2⟩ := on1_step hc' he hk hq' z0 z1 z2 p1 m1
    rw [h1]
    rcases h2.swaps p1 m1 (rounds := rounds) (by simp only [List.length_cons, List.length_nil]; omega) with
      ⟨els'', r1, r2, r3, -⟩ | ⟨els'', t, n, s, r1, r2, r3, -, r5, r6⟩
    · exact Or.inl ⟨⟨nodes, els''⟩, by simp [r1], ⟨r2, r3.trans ht⟩, n2, n3⟩
    · exact Or.inr ⟨nodes, els'', t, n, s, by
        simp only [r1]
        cases swapping nodes p1 m1 n (t :: s) els'' <;> rfl, r2, r3.trans ht, r5, r6⟩
  · rw [if_neg hk]
    have hneg : ¬e.neighbors k < 0 := by
      rcases hc.linked now e he k with h | ⟨u, j, h⟩
      · exact absurd h hk
      · rw [h.left he]; omega
    obtain ⟨nei, f, j, hnei, hf, hj, hg⟩ := neighbor_glued hc' he hneg
    have hat : atInt d.elements (e.neighbors k) = some f := by
      rw [atInt, if_neg hneg, hnei, Int.toNat_natCast, hf]
    rw [hat]
    simp only [hc.active f (List.mem_of_getElem? hf), if_true, hj, hnei, Int.toNat_natCast]
    have hD := hc'.oriented.at hf
    rw [area2_rot _ f j] at hD
    obtain ⟨e2, f2, d1, d2, -, -, d5, d6⟩ := id hg
    rw [he] at d1
    rw [hf] at d2
    cases d1; cases d2
    rw [d5, d6] at hD
    obtain ⟨z3, z4⟩ := across_pos z0 z1 z2 hD
    obtain ⟨els', h1, hlen, h2⟩ := on2_step hc' he hf hg hq' z1 z2 z3 z4 p1 m1
    rw [h1]
    rcases h2.swaps p1 m1 (rounds := rounds) (by simp only [List.length_cons, List.length_nil]; omega) with
      ⟨els'', r1, r2, r3, -⟩ | ⟨els'', t, n, s, r1, r2, r3, -, r5, r6⟩
    · exact Or.inl ⟨⟨nodes, els''⟩, by simp [r1], ⟨r2, r3.trans ht⟩, n2, n3⟩
    · exact Or.inr ⟨nodes, els'', t, n, s, by
        simp only [r1]
        cases swapping nodes p1 m1 n (t :: s) els'' <;> rfl, r2, r3.trans ht, r5, r6⟩

/-- No element has the node `p`. -/
def Unused (p : ℤ) (els : List DTri) : Prop := ∀ e ∈ els, ∀ i, e.nodes i ≠ p

theorem not_forced {nodes : List (DNode K)} {els els' : List DTri} {q p1 m1 : ℤ} {t : ℕ} (h1 : q ≠ p1)
    (h2 : q ≠ m1) (u1 : Unused p1 els) (u2 : Unused m1 els) (hn : NodesOr q els els')
    (hf : ForcedSwap nodes p1 m1 t els') : False := by
  obtain ⟨nei, e, f, j, -, hf, -, hj, -⟩ := hf
  rcases hn f (List.mem_of_getElem? hf) j with h | ⟨g, hg, k, h⟩
  · rw [h] at hj
    exact hj.elim h1 h2
  · rw [h] at hj
    exact hj.elim (u1 g hg k) (u2 g hg k)

/-- The insertion of a node whose neighbours on the boundary are not inserted yet (the first node of every
boundary): the mesher comes to its end and the triangulation is consistent. -/
theorem C59_in_first (d : Delaunay K) (hc : Consistent d.nodes d.elements) {now : ℕ} {e : DTri}
    (he : d.elements[now]? = some e) {q : ℤ} (hq : 0 ≤ q ∧ q < d.nodes.length)
    (hin : e.inouton q d.nodes = some 0) {p1 m1 : ℤ} (h1 : q ≠ p1) (h2 : q ≠ m1)
    (u1 : Unused p1 d.elements) (u2 : Unused m1 d.elements) {rounds : ℕ}
    (hr : 2 * d.elements.length + 7 ≤ rounds) :
    ∃ d', d.getelementin rounds now p1 q m1 = some d' ∧ KeepsMesh d d' := by
  rcases C59_in d hc he hq hin p1 m1 hr with h | ⟨els, t, n, s, -, -, -, r5, r6⟩
  · exact h
  · exact (not_forced h1 h2 u1 u2 r5 r6).elim

/-- The same on a side. -/
theorem C59_on_first (d : Delaunay K) (hc : Consistent d.nodes d.elements) {now : ℕ} {e : DTri}
    (he : d.elements[now]? = some e) {q : ℤ} (hq : 0 ≤ q ∧ q < d.nodes.length) (k : Fin 3)
    (hon : OnSegment (placeOf d.nodes (e.nodes (k + 1))) (placeOf d.nodes (e.nodes (k + 2))) (placeOf d.nodes q))
    {p1 m1 : ℤ} (h1 : q ≠ p1) (h2 : q ≠ m1)
    (u1 : Unused p1 d.elements) (u2 : Unused m1 d.elements) {rounds : ℕ}
    (hr : 2 * d.elements.length + 8 ≤ rounds) :
    ∃ d', d.getelementon rounds now k p1 q m1 = some d' ∧ KeepsMesh d d' := by
  rcases C59_on d hc he hq k hon p1 m1 hr with ⟨d', h, h', -⟩ | ⟨nodes, els, t, n, s, -, -, -, r5, r6⟩
  · exact ⟨d', h, h'⟩
  · exact (not_forced h1 h2 u1 u2 r5 r6).elim

/-- **The refinement** of `makefinemesh` (Delaunay.h:699-700): a node in the middle of any side of any
element, inner or outer. -/
theorem C59_refine (d : Delaunay K) (hc : Consistent d.nodes d.elements) {t : ℕ} {e : DTri}
    (he : d.elements[t]? = some e) (k : Fin 3) {rounds : ℕ} (hr : 2 * d.elements.length + 8 ≤ rounds) :
    ∃ d', d.refine rounds t k = some d' ∧ KeepsMesh d d' ∧
      d'.nodes.length = d.nodes.length + 1 := by
  have ie := hc.indices e (List.mem_of_getElem? he)
  obtain ⟨a, ha, ha'⟩ := atInt_some (ie (k + 1)).1 (ie (k + 1)).2
  obtain ⟨b, hb, hb'⟩ := atInt_some (ie (k + 2)).1 (ie (k + 2)).2
  let p : DNode K := DNode.fresh (1 / 2 * (a.x.1 + b.x.1), 1 / 2 * (a.x.2 + b.x.2))
  let d1 : Delaunay K := { d with nodes := d.nodes ++ [p] }
  obtain ⟨hc1, ht⟩ := hc.congr (nodes' := d1.nodes) (fun z z0 z1 => place_append _ p z0 z1) (by simp [d1])
  have hon : OnSegment (placeOf d1.nodes (e.nodes (k + 1))) (placeOf d1.nodes (e.nodes (k + 2)))
      (placeOf d1.nodes d.nodes.length) := by
    refine ⟨1 / 2, by norm_num, by norm_num, ?_⟩
    rw [place_append _ p (ie _).1 (ie _).2, place_append _ p (ie _).1 (ie _).2, place_last, ← ha', ← hb']
    simp only [p, DNode.fresh, Prod.mk.injEq]
    constructor <;> ring
  have hu : Unused (-2) d.elements := fun g hg i => by have := hc.indices g hg i; omega
  have hne : (d.nodes.length : ℤ) ≠ -2 := by omega
  unfold Delaunay.refine
  rw [he]
  simp only [bind, Option.bind, ha, hb]
  rcases C59_on d1 hc1 he (q := d.nodes.length) (by simp [d1]) k hon (-2) (-2) (rounds := rounds) hr with
    ⟨d', h, h', -, h3⟩ | ⟨nodes, els, t, n, s, -, -, -, r5, r6⟩
  · exact ⟨d', h, ⟨h'.1, h'.2.trans ht⟩, by rw [h3]; simp [d1]⟩
  · exact (not_forced hne hne hu hu r5 r6).elim

/-! ### Histories -/

/-- More rounds do not change a result. -/
theorem swapping_mono {nodes : List (DNode K)} {p1 m1 : ℤ} : ∀ {n : ℕ} {stack : List ℕ} {els els' : List DTri}
    (k : ℕ), swapping nodes p1 m1 n stack els = some els' → swapping nodes p1 m1 (n + k) stack els = some els' := by
  intro n
  induction n with
  | zero =>
    intro stack els els' k h
    cases stack with
    | nil => unfold swapping at h ⊢; exact h
    | cons => simp [swapping] at h
  | succ n ih =>
    intro stack els els' k h
    cases stack with
    | nil => unfold swapping at h ⊢; exact h
    | cons now stack =>
      rw [show n + 1 + k = n + k + 1 by omega]
      unfold swapping at h ⊢
      simp only [Option.bind_eq_bind, Option.bind_eq_some_iff] at h ⊢
      obtain ⟨e, he, h⟩ := h
      refine ⟨e, he, ?_⟩
      split_ifs at h ⊢ with h0
      · exact ih k h
      · simp only [Option.bind_eq_some_iff] at h ⊢
        obtain ⟨f, hf, h⟩ := h
        refine ⟨f, hf, ?_⟩
        split_ifs at h ⊢ with h1
        · simp only [Option.bind_eq_some_iff] at h ⊢
          obtain ⟨j, hj, w, hw, h⟩ := h
          refine ⟨j, hj, w, hw, ?_⟩
          split_ifs at h ⊢ with h2
          · simp only [Option.bind_eq_some_iff] at h ⊢
            obtain ⟨els1, h3, h4⟩ := h
            exact ⟨els1, h3, ih k h4⟩
          · exact ih k h
        · exact ih k h

theorem getelementin_mono {d d' : Delaunay K} {n now : ℕ} {p1 q m1 : ℤ} (k : ℕ)
    (h : d.getelementin n now p1 q m1 = some d') : d.getelementin (n + k) now p1 q m1 = some d' := by
  unfold Delaunay.getelementin at h ⊢
  simp only [Option.bind_eq_bind, Option.bind_eq_some_iff, pure] at h ⊢
  obtain ⟨els, h1, els', h2, h3⟩ := h
  exact ⟨els, h1, els', swapping_mono k h2, h3⟩

theorem getelementon_mono {d d' : Delaunay K} {n now : ℕ} {i : Fin 3} {p1 q m1 : ℤ} (k : ℕ)
    (h : d.getelementon n now i p1 q m1 = some d') : d.getelementon (n + k) now i p1 q m1 = some d' := by
  unfold Delaunay.getelementon at h ⊢
  simp only [Option.bind_eq_bind, Option.bind_eq_some_iff, pure] at h ⊢
  obtain ⟨e, h1, nodes, h2, h⟩ := h
  refine ⟨e, h1, nodes, h2, ?_⟩
  split_ifs at h ⊢ with h3
  · simp only [Option.bind_eq_some_iff] at h ⊢
    obtain ⟨els, h4, els', h5, h6⟩ := h
    exact ⟨els, h4, els', swapping_mono k h5, h6⟩
  · simp only [Option.bind_eq_some_iff] at h ⊢
    obtain ⟨f, hf, h⟩ := h
    refine ⟨f, hf, ?_⟩
    split_ifs at h ⊢ with h4
    · simp only [Option.bind_eq_some_iff] at h ⊢
      obtain ⟨j, hj, els, h4, els', h5, h6⟩ := h
      exact ⟨j, hj, els, h4, els', swapping_mono k h5, h6⟩
    · simp only [Option.bind_eq_some_iff] at h ⊢
      obtain ⟨els, h4, els', h5, h6⟩ := h
      exact ⟨els, h4, els', swapping_mono k h5, h6⟩

theorem refine_mono {d d' : Delaunay K} {n t : ℕ} {i : Fin 3} (k : ℕ)
    (h : d.refine n t i = some d') : d.refine (n + k) t i = some d' := by
  unfold Delaunay.refine at h ⊢
  simp only [Option.bind_eq_bind, Option.bind_eq_some_iff] at h ⊢
  obtain ⟨e, h1, a, h2, b, h3, h⟩ := h
  exact ⟨e, h1, a, h2, b, h3, getelementon_mono k h⟩

/-- What happens to a triangulation: a node goes into an element or onto a side, the side of two elements
is swapped such that both stay counterclockwise, a side is halved, or a node is noted down. -/
inductive DelaunayStep : Delaunay K → Delaunay K → Prop
  | inside {d d' : Delaunay K} {rounds now : ℕ} {e : DTri} {p1 q m1 : ℤ} :
      d.elements[now]? = some e → (0 ≤ q ∧ q < d.nodes.length) → e.inouton q d.nodes = some 0 →
      q ≠ p1 → q ≠ m1 → Unused p1 d.elements → Unused m1 d.elements →
      d.getelementin rounds now p1 q m1 = some d' → DelaunayStep d d'
  | onside {d d' : Delaunay K} {rounds now : ℕ} {e : DTri} {k : Fin 3} {p1 q m1 : ℤ} :
      d.elements[now]? = some e → (0 ≤ q ∧ q < d.nodes.length) →
      OnSegment (placeOf d.nodes (e.nodes (k + 1))) (placeOf d.nodes (e.nodes (k + 2))) (placeOf d.nodes q) →
      q ≠ p1 → q ≠ m1 → Unused p1 d.elements → Unused m1 d.elements →
      d.getelementon rounds now k p1 q m1 = some d' → DelaunayStep d d'
  | half {d d' : Delaunay K} {rounds t : ℕ} {e : DTri} {k : Fin 3} :
      d.elements[t]? = some e → d.refine rounds t k = some d' → DelaunayStep d d'
  | swap {d : Delaunay K} {els : List DTri} {now nei : ℕ} {e f : DTri} {j : Fin 3} {p1 m1 : ℤ} :
      d.elements[now]? = some e → d.elements[nei]? = some f → Glued d.elements now 0 nei j →
      0 < vecpro (placeOf d.nodes (e.nodes 0)) (placeOf d.nodes (e.nodes 1)) (placeOf d.nodes (f.nodes j)) →
      0 < vecpro (placeOf d.nodes (e.nodes 0)) (placeOf d.nodes (f.nodes j)) (placeOf d.nodes (e.nodes 2)) →
      swapAt d.elements p1 m1 now nei j = some els → DelaunayStep d ⟨d.nodes, els⟩
  | note {d : Delaunay K} (p : DNode K) : DelaunayStep d ⟨d.nodes ++ [p], d.elements⟩

theorem C59_step {d d' : Delaunay K} (h : DelaunayStep d d') (hc : Consistent d.nodes d.elements) :
    KeepsMesh d d' := by
  cases h with
  | @inside _ rounds _ _ _ _ _ he hq hin h1 h2 u1 u2 h =>
    obtain ⟨d2, r1, r2⟩ := C59_in_first d hc he hq hin h1 h2 u1 u2
      (rounds := rounds + (2 * d.elements.length + 7)) (by omega)
    rw [getelementin_mono _ h] at r1
    cases r1
    exact r2
  | @onside _ rounds _ _ _ _ _ _ he hq hon h1 h2 u1 u2 h =>
    obtain ⟨d2, r1, r2⟩ := C59_on_first d hc he hq _ hon h1 h2 u1 u2
      (rounds := rounds + (2 * d.elements.length + 8)) (by omega)
    rw [getelementon_mono _ h] at r1
    cases r1
    exact r2
  | @half _ rounds t e k he h =>
    obtain ⟨d2, r1, r2, -⟩ := C59_refine d hc he k (rounds := rounds + (2 * d.elements.length + 8)) (by omega)
    rw [refine_mono _ h] at r1
    cases r1
    exact r2
  | swap he hf hg q1 q2 h =>
    obtain ⟨els', r1, -, -, r4, r5⟩ := C59_swap hc he hf hg _ _
    rw [h] at r1
    cases r1
    exact ⟨r5 q1 q2, r4⟩
  | note p => exact hc.congr (fun z z0 z1 => place_append _ p z0 z1) (by simp)

/-- **All histories** of insertions and swaps that leave counterclockwise elements, of any length: the
neighbour relation is symmetric, the numbers are valid and the area is the one at the start.  Missing for
C59: the swaps for the boundary that turn an element over (see `C59_false`). -/
theorem C59_history_partial {d d' : Delaunay K} (h : Relation.ReflTransGen DelaunayStep d d')
    (hc : Consistent d.nodes d.elements) :
    Linked d'.elements ∧ (∀ e ∈ d'.elements, ∀ i, 0 ≤ e.nodes i ∧ e.nodes i < d'.nodes.length) ∧
      total2 (placeOf d'.nodes) d'.elements = total2 (placeOf d.nodes) d.elements := by
  have : KeepsMesh d d' := by
    induction h with
    | refl => exact ⟨hc, rfl⟩
    | tail _ h ih =>
      have := C59_step h ih.1
      exact ⟨this.1, this.2.trans ih.2⟩
  exact ⟨this.1.linked, this.1.indices, this.2⟩

/-! ### The counterexample -/

/-- Four points, in clockwise order a simple quadrilateral, within a large triangle. -/
def badMesh : Delaunay ℚ :=
  ⟨[(0, 5), (-2, 8), (6, 0), (-7, -3), (0, 40), (-34, -20), (34, -20)].map DNode.fresh,
    [DTri.ofNodes ![4, 5, 6]]⟩

theorem badMesh_consistent : Consistent badMesh.nodes badMesh.elements := by
  have hm : ∀ e ∈ badMesh.elements, e = DTri.ofNodes ![4, 5, 6] := by simp [badMesh]
  refine ⟨?_, ?_, ?_, ?_⟩
  · intro t e he i
    left
    rw [hm e (List.mem_of_getElem? he)]
    rfl
  · intro e he
    rw [hm e he]
    decide +kernel
  · intro e he
    rw [hm e he]
    decide +kernel
  · intro e he
    rw [hm e he]
    rfl

/-- **C59 fails**: from one counterclockwise triangle around four points the boundary polygon is inserted
without any undefined subscript, and afterwards the total signed area is another one. -/
theorem C59_false : ∃ (d d' : Delaunay ℚ) (boundary : List ℤ) (rounds : ℕ),
    Consistent d.nodes d.elements ∧ d.makeroughmesh rounds boundary = some d' ∧
      total2 (placeOf d'.nodes) d'.elements ≠ total2 (placeOf d.nodes) d.elements := by
  have h : ((badMesh.makeroughmesh 100 [0, 1, 2, 3]).map fun d =>
      decide (total2 (placeOf d.nodes) d.elements = total2 (placeOf badMesh.nodes) badMesh.elements)) =
        some false := by
    decide +kernel
  cases hd : badMesh.makeroughmesh 100 [0, 1, 2, 3] with
  | none => rw [hd] at h; cases h
  | some d' =>
    rw [hd, Option.map_some, Option.some.injEq, decide_eq_false_iff_not] at h
    exact ⟨badMesh, d', [0, 1, 2, 3], 100, badMesh_consistent, hd, h⟩

/-! ### Examples -/

/-- A triangle with a point inside it and a point on its first side. -/
def smallMesh : Delaunay ℚ :=
  ⟨[(0, 0), (6, 0), (0, 6), (1, 1), (3, 3)].map DNode.fresh, [DTri.ofNodes ![0, 1, 2]]⟩

theorem smallMesh_consistent : Consistent smallMesh.nodes smallMesh.elements := by
  have hm : ∀ e ∈ smallMesh.elements, e = DTri.ofNodes ![0, 1, 2] := by simp [smallMesh]
  refine ⟨?_, ?_, ?_, ?_⟩
  · intro t e he i
    left
    rw [hm e (List.mem_of_getElem? he)]
    rfl
  · intro e he
    rw [hm e he]
    decide +kernel
  · intro e he
    rw [hm e he]
    decide +kernel
  · intro e he
    rw [hm e he]
    rfl

theorem smallMesh_unused (p : ℤ) (hp : p < 0) : Unused p smallMesh.elements := fun e he i h => by
  have := smallMesh_consistent.indices e he i
  omega

example : ∃ d', smallMesh.getelementin 100 0 (-2) 3 (-2) = some d' ∧ KeepsMesh smallMesh d' :=
  C59_in_first smallMesh smallMesh_consistent (now := 0) rfl (q := 3) (by decide) (by decide +kernel)
    (by decide) (by decide) (smallMesh_unused _ (by decide)) (smallMesh_unused _ (by decide)) (by decide)

example : ∃ d', smallMesh.getelementon 100 0 0 (-2) 4 (-2) = some d' ∧ KeepsMesh smallMesh d' :=
  C59_on_first smallMesh smallMesh_consistent (now := 0) rfl (q := 4) (by decide) 0
    ⟨1 / 2, by norm_num, by norm_num, by decide +kernel⟩
    (by decide) (by decide) (smallMesh_unused _ (by decide)) (smallMesh_unused _ (by decide)) (by decide)

/-- Two halves of the sides one after the other, the second on an inner side. -/
example : ∃ d d', smallMesh.refine 100 0 0 = some d ∧ d.refine 100 0 1 = some d' ∧
    total2 (placeOf d'.nodes) d'.elements = 36 := by
  obtain ⟨d, h1, h2, -⟩ := C59_refine smallMesh smallMesh_consistent (t := 0) rfl 0 (rounds := 100) (by decide)
  have hl : ((smallMesh.refine 100 0 0).map fun d => (d.elements.length, d.elements[0]?.isSome)) =
      some (2, true) := by decide +kernel
  rw [h1, Option.map_some, Option.some.injEq, Prod.mk.injEq, Option.isSome_iff_exists] at hl
  obtain ⟨hlen, e, he⟩ := hl
  obtain ⟨d', h3, h4, -⟩ := C59_refine d h2.1 he 1 (rounds := 100) (by omega)
  have h0 : total2 (placeOf smallMesh.nodes) smallMesh.elements = 36 := by decide +kernel
  exact ⟨d, d', h1, h3, h4.2.trans (h2.2.trans h0)⟩

/-- A history with a node inside, then a half of a side. -/
example : ∃ d', Relation.ReflTransGen DelaunayStep smallMesh d' ∧ d'.elements.length = 5 ∧
    Linked d'.elements := by
  obtain ⟨d, h1, h2⟩ := C59_in_first smallMesh smallMesh_consistent (now := 0) rfl (q := 3) (by decide)
    (by decide +kernel) (by decide : (3 : ℤ) ≠ -2) (by decide : (3 : ℤ) ≠ -2)
    (smallMesh_unused _ (by decide)) (smallMesh_unused _ (by decide)) (rounds := 100) (by decide)
  have hl : ((smallMesh.getelementin 100 0 (-2) 3 (-2)).bind fun d => (d.refine 100 0 1).map fun d' =>
      (d.elements.length, d.elements[0]?.isSome, d'.elements.length)) = some (3, true, 5) := by decide +kernel
  rw [h1, Option.bind_some] at hl
  cases h3 : d.refine 100 0 1 with
  | none => rw [h3] at hl; cases hl
  | some d' =>
    rw [h3, Option.map_some, Option.some.injEq, Prod.mk.injEq, Prod.mk.injEq, Option.isSome_iff_exists] at hl
    obtain ⟨-, ⟨e, he⟩, h5⟩ := hl
    have hist : Relation.ReflTransGen DelaunayStep smallMesh d' :=
      (Relation.ReflTransGen.single (DelaunayStep.inside (now := 0) rfl (by decide) (by decide +kernel)
        (by decide) (by decide) (smallMesh_unused (-2) (by decide)) (smallMesh_unused (-2) (by decide)) h1)).tail
        (DelaunayStep.half he h3)
    exact ⟨d', hist, h5, (C59_history_partial hist smallMesh_consistent).1⟩

/-- A swap of the diagonal of a square. -/
example : ∃ els', swapAt
      [⟨![0, 1, 2], ![1, -1, -1], fun _ => false, true, false⟩,
        ⟨![3, 2, 1], ![0, -1, -1], fun _ => false, true, false⟩] (-2) (-2) 0 1 0 = some els' ∧
    Consistent ([(0, 0), (1, 0), (0, 1), (1, 1)].map DNode.fresh : List (DNode ℚ)) els' := by
  have hg : Glued [⟨![0, 1, 2], ![1, -1, -1], fun _ => false, true, false⟩,
        ⟨![3, 2, 1], ![0, -1, -1], fun _ => false, true, false⟩] 0 0 1 0 :=
    ⟨_, _, rfl, rfl, rfl, rfl, rfl, rfl⟩
  have hc : Consistent ([(0, 0), (1, 0), (0, 1), (1, 1)].map DNode.fresh : List (DNode ℚ))
      [⟨![0, 1, 2], ![1, -1, -1], fun _ => false, true, false⟩,
        ⟨![3, 2, 1], ![0, -1, -1], fun _ => false, true, false⟩] := by
    refine ⟨?_, ?_, ?_, ?_⟩
    · intro t e he i
      have hi : i = 0 ∨ i = 1 ∨ i = 2 := fin3_cases i 0
      match t, he with
      | 0, he =>
        cases he
        rcases hi with rfl | rfl | rfl
        · exact Or.inr ⟨1, 0, hg⟩
        · exact Or.inl rfl
        · exact Or.inl rfl
      | 1, he =>
        cases he
        rcases hi with rfl | rfl | rfl
        · exact Or.inr ⟨0, 0, hg.symm⟩
        · exact Or.inl rfl
        · exact Or.inl rfl
      | t + 2, he => cases he
    · simp only [Oriented, List.mem_cons, List.not_mem_nil, or_false, forall_eq_or_imp, forall_eq]
      decide +kernel
    · simp only [List.mem_cons, List.not_mem_nil, or_false, forall_eq_or_imp, forall_eq]
      decide +kernel
    · simp
  obtain ⟨els', h1, -, -, -, h5⟩ := C59_swap hc (now := 0) (nei := 1) rfl rfl hg (-2) (-2)
  exact ⟨els', h1, h5 (by decide +kernel) (by decide +kernel)⟩

end Pansfem
